import Verif.Model.Basic
import Mathlib.Logic.Function.Basic

/-!
# `static_list` (detail/static_list.hpp)

The intrusive list in which a registry keeps its classes and methods, and a method its overriders.
-/

namespace OpenMethod

/-- The links of all the nodes that exist (`static_link`, static_list.hpp 23-35), and the member `first` (215). Nodes are
identified by their addresses. The list and the nodes have static storage: they exist and are zero at the start of the
program. -/
structure SList where
  first : Option Nat
  prev : Nat → Option Nat
  next : Nat → Option Nat

namespace SList

/-- Zero-initialised storage. -/
def init : SList := { first := none, prev := fun _ => none, next := fun _ => none }

/-- `p->prev_ptr = q`. Dereferencing a null pointer is undefined behaviour. -/
def setPrev (s : SList) (p q : Option Nat) : Res SList :=
  match p with
  | some a => .ok { s with prev := Function.update s.prev a q }
  | none => .ub

/-- `p->next_ptr = q`. -/
def setNext (s : SList) (p q : Option Nat) : Res SList :=
  match p with
  | some a => .ok { s with next := Function.update s.next a q }
  | none => .ub

/-- `p->prev_ptr`. -/
def getPrev (s : SList) (p : Option Nat) : Res (Option Nat) :=
  match p with
  | some a => .ok (s.prev a)
  | none => .ub

/-- `push_back` (static_list.hpp 37-51). A failed assertion is treated as undefined behaviour. -/
def pushBack (s : SList) (node : Nat) : Res SList :=
  if s.prev node ≠ none then .ub
  else if s.next node ≠ none then .ub
  else
    match s.first with
    | none => setPrev { s with first := some node } (some node) (some node)
    | some _ => do
      let last ← getPrev s s.first
      let s ← setNext s last (some node)
      let s ← setPrev s (some node) last
      setPrev s s.first (some node)

/-- `remove` (static_list.hpp 53-82). -/
def remove (s : SList) (node : Nat) : Res SList := do
  let prev := s.prev node
  let next := s.next node
  let last ← getPrev s s.first
  let s ← setPrev s (some node) none
  let s ← setNext s (some node) none
  if some node = last then
    if some node = s.first then return { s with first := none }
    else
      let s ← setPrev s s.first prev
      setNext s prev none
  else if some node = s.first then
    let s := { s with first := next }
    setPrev s s.first last
  else
    let s ← setNext s prev next
    setPrev s next prev

/-- The loop of `clear` (static_list.hpp 88-93). `fuel` bounds the number of iterations. -/
def clearFrom : Nat → SList → Option Nat → Option SList
  | _, s, none => some s
  | 0, _, some _ => none
  | fuel + 1, s, some cur =>
    clearFrom fuel { s with prev := Function.update s.prev cur none, next := Function.update s.next cur none } (s.next cur)

/-- `clear` (static_list.hpp 84-94); `none` when the loop does not end within `fuel` iterations. -/
def clear (fuel : Nat) (s : SList) : Option SList := clearFrom fuel { s with first := none } s.first

/-- The nodes visited by iteration from a position to `end()` (static_list.hpp 96-145); `none` when it does not end within
`fuel` steps. -/
def visit : Nat → SList → Option Nat → Option (List Nat)
  | _, _, none => some []
  | 0, _, some _ => none
  | fuel + 1, s, some cur => (visit fuel s (s.next cur)).map (cur :: ·)

/-- Iteration from `begin()` to `end()`. -/
def iterate (fuel : Nat) (s : SList) : Option (List Nat) := visit fuel s s.first

/-- `empty` (static_list.hpp 209-211). -/
def empty (s : SList) : Bool := s.first.isNone

end SList

/-- Operations on the list. `clear` runs with the given bound on its loop. -/
inductive ListOp where
  | push (node : Nat)
  | remove (node : Nat)
  | clear
  deriving DecidableEq, Repr

def SList.step (fuel : Nat) (s : SList) : ListOp → Res SList
  | .push x => s.pushBack x
  | .remove x => s.remove x
  | .clear => Res.ofOption (s.clear fuel)

def SList.run (fuel : Nat) (s : SList) (ops : List ListOp) : Res SList := ops.foldlM (SList.step fuel) s

end OpenMethod

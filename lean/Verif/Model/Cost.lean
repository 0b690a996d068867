import Verif.Model.Registry

/-!
# What calls read (core.hpp 528-554, 2432-2559, preamble.hpp 1060-1070, fast_perfect_hash.hpp 129-138, 250-262, vptr_vector.hpp 135-170, vptr_map.hpp 81-105)

The functions by which a call is dispatched, again, with the variables that they read, as written: optimisations are not represented. Nothing is written. A v-table pointer that is in a `virtual_ptr` argument, and
local variables, are not counted. `dynamic_type` counts for one read, whatever the `rtti` policy does; so does the search in the map.
-/

namespace OpenMethod

/-- A variable, or an element of an array or vector, that is read. -/
inductive Load where
  /-- `Registry::initialized` -/
  | initialized
  /-- `slots_strides[i]` of a method -/
  | slotsStrides (method i : Nat)
  /-- a word of the dispatch data -/
  | word (p : Ptr)
  /-- `rtti::dynamic_type` of an argument -/
  | type (t : TypeId)
  /-- `mult`, `shift`, `min_value` and `max_value` -/
  | mult
  | shift
  | min
  | max
  /-- the address of the elements of the control table, and one of them -/
  | control
  | controlAt (i : Nat)
  /-- the size of the vector of v-table pointers, the address of its elements, and one of them -/
  | size
  | vector
  | vectorAt (i : Nat)
  /-- `vptrs.find` -/
  | find (t : TypeId)
  /-- a `static_vptr` variable -/
  | static (v : VarId)
  /-- a `next` variable -/
  | next (v : VarId)
  deriving DecidableEq, Repr

/-- The reads, in order, and the result. -/
def Cost (α : Type) := List Load × Res α

namespace Cost

def bind {α β : Type} (x : Cost α) (f : α → Cost β) : Cost β :=
  match x with
  | (l, .ok a) => (l ++ (f a).1, (f a).2)
  | (l, .err e) => (l, .err e)
  | (l, .ub) => (l, .ub)

instance : Monad Cost where
  pure a := ([], .ok a)
  bind := bind

def lift {α : Type} (r : Res α) : Cost α := ([], r)

def load (x : Load) : Cost Unit := ([x], .ok ())

/-- `require_initialized` (preamble.hpp 1060-1070). -/
def requireInitialized (cfg : Config) (s : RegState) : Cost Unit :=
  if cfg.checks then do
    load .initialized
    lift (if !s.initialized then .err .notInitialized else .ok ())
  else lift (.ok ())

/-- `check` (fast_perfect_hash.hpp 250-262): the operands of `||` are evaluated as needed. -/
def hashCheck (s : HashState) (index : Nat) (t : TypeId) : Cost Unit := do
  load .min
  if index < s.min then lift (.err (.missingClass t))
  else do
    load .max
    if s.max < index then lift (.err (.missingClass t))
    else do
      load .control
      load (.controlAt index)
      match s.buckets[index]? with
      | none => lift .ub
      | some b => lift (if b ≠ t then .err (.missingClass t) else .ok ())

/-- `hash` (fast_perfect_hash.hpp 129-138). -/
def hash (checks : Bool) (s : HashState) (t : TypeId) : Cost Nat := do
  load .mult
  load .shift
  let index := hashIndex s.mult s.shift t
  if checks then hashCheck s index t else lift (.ok ())
  lift (.ok index)

/-- `dynamic_vptr` (vptr_vector.hpp 135-170, vptr_map.hpp 81-105). Without `indirect_vptr`, the reference that is returned is to an element, which is read once; this is counted here. -/
def dynamicVptr (cfg : Config) (s : VptrState) (t : TypeId) : Cost VRef := do
  load (.type t)
  if cfg.vector then do
    let i ← if cfg.typeHash then hash cfg.checks s.hash t else lift (.ok t.toNat)
    if !cfg.typeHash && cfg.checks then do
      load .size
      lift (if s.vec.length ≤ i then .err (.missingClass t) else .ok ())
    else lift (.ok ())
    load .vector
    load (.vectorAt i)
    match s.vec[i]? with
    | none => lift .ub
    | some x => lift (x.ref cfg)
  else do
    load (.find t)
    match s.map.find? (fun y => y.1 == t) with
    | none => lift (if cfg.checks then .err (.missingClass t) else .ub)
    | some x => lift (x.2.ref cfg)

/-- `acquire_vptr` (core.hpp 528-537). -/
def acquireVptr (cfg : Config) (s : RegState) (t : TypeId) : Cost VRef := do
  requireInitialized cfg s
  dynamicVptr cfg s.vptr t

/-- Reading the v-table pointer through the reference. -/
def read (mem : VarId → Option Ptr) : VRef → Cost Ptr
  | .value p => lift (Res.ofOption p)
  | .var v => do
    load (.static v)
    lift (Res.ofOption (mem v))

/-- `method::vptr` (core.hpp 2475-2482); `unbox_vptr` (core.hpp 548-554). -/
def argPtr (cfg : Config) (s : RegState) : Arg → Cost Ptr
  | .obj t => do
    let r ← acquireVptr cfg s t
    read s.svptr r
  | .vptr (.direct p) => lift (Res.ofOption p)
  | .vptr (.indirect v) => read s.svptr (.var v)

/-- Reading a word of the dispatch data. -/
def word (rd : Ptr → Res Word) (p : Ptr) : Cost Word := do
  load (.word p)
  lift (rd p)

/-- Reading `slots_strides[i]`. -/
def slotStride (m : Nat) (ss : List Nat) (i : Nat) : Cost Nat := do
  load (.slotsStrides m i)
  lift (Res.ofOption ss[i]?)

/-- `resolve_uni` (core.hpp 2488-2502). -/
def resolveUni (rd : Ptr → Res Word) (m : Nat) (ss : List Nat) : List Bool → List (Cost Ptr) → Cost Word
  | true :: _, a :: _ => do
    let vtbl ← a
    let slot ← slotStride m ss 0
    word rd (vtbl.add slot)
  | false :: ks, _ :: as => resolveUni rd m ss ks as
  | _, _ => lift .ub

/-- First half of `resolve_multi_next` (core.hpp 2545-2550). -/
def nextDispatch (rd : Ptr → Res Word) (m : Nat) (ss : List Nat) (arity va : Nat) (dispatch : Ptr) (virt : Bool) (a : Cost Ptr) : Cost Ptr :=
  if virt then do
    let vtbl ← a
    let slot ← slotStride m ss va
    let stride ← slotStride m ss (arity + va - 1)
    let w ← word rd (vtbl.add slot)
    let i ← lift w.asIdx
    lift (.ok (dispatch.add (i * stride)))
  else lift (.ok dispatch)

/-- `resolve_multi_next` (core.hpp 2538-2559). -/
def resolveMultiNext (rd : Ptr → Res Word) (m : Nat) (ss : List Nat) (arity : Nat) : Nat → Ptr → List Bool → List (Cost Ptr) → Cost Word
  | va, dispatch, k :: ks, a :: as => do
    let dispatch ← nextDispatch rd m ss arity va dispatch k a
    if va + 1 = arity then word rd dispatch
    else resolveMultiNext rd m ss arity (va + 1) dispatch ks as
  | _, _, _, _ => lift .ub

/-- `resolve_multi_first` (core.hpp 2508-2530). -/
def resolveMultiFirst (rd : Ptr → Res Word) (m : Nat) (ss : List Nat) (arity : Nat) : List Bool → List (Cost Ptr) → Cost Word
  | true :: ks, a :: as => do
    let vtbl ← a
    let slot ← slotStride m ss 0
    let w ← word rd (vtbl.add slot)
    let dispatch ← lift w.asPtr
    resolveMultiNext rd m ss arity 1 dispatch ks as
  | false :: ks, _ :: as => resolveMultiFirst rd m ss arity ks as
  | _, _ => lift .ub

/-- `resolve` (core.hpp 2453-2470) after the test that the registry is initialized. -/
def resolve (rd : Ptr → Res Word) (m : Nat) (ss : List Nat) (arity : Nat) (params : List Bool) (args : List (Cost Ptr)) : Cost Pf := do
  let w ← if arity = 1 then resolveUni rd m ss params args else resolveMultiFirst rd m ss arity params args
  lift w.asPf

/-- A call (core.hpp 2432-2470), until the overrider, or the function that reports an error, is entered. -/
def call (cfg : Config) (s : RegState) (m : MethodInfo) (args : List Arg) (types : List TypeId) : Cost Nat := do
  requireInitialized cfg s
  let ss ← lift (Res.ofOption (s.ss m.id))
  let f ← resolve (readWord s.gen s.data) m.id ss m.arity m.params (args.map (argPtr cfg s))
  lift (enter f types)

/-- Constructing a `virtual_ptr` from an object (core.hpp 740-746 and others); `&vp` reads nothing. -/
def makeVirtualPtr (cfg : Config) (s : RegState) (t : TypeId) : Cost Boxed := do
  let r ← acquireVptr cfg s t
  lift (boxVptr cfg r)

end Cost

end OpenMethod

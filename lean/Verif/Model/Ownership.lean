import Verif.Model.Basic

/-!
# Ownership (core.hpp 247-338, 1733-1768, 1868-1922, 2007-2017, 2432-2450, 2583-2614, 2710-2728, interop/*.hpp)

What happens to the objects owned by smart pointers when methods are called: which smart pointers exist, which are moved, copied and destroyed, when overriders return and when exceptions are
thrown. Only ownership is represented here: which overrider runs, and the addresses of base subobjects, are the subject of `Thunk` and `Bodies`.

A smart `virtual_ptr` owns its object as the smart pointer that it contains. Parameters are listed in the order in which they are initialised, which the language does not specify; it is the same
for the call operator, the thunk and the overrider. Objects are deleted in a way that suits their class. Weak pointers, custom deleters and cycles of objects are not represented.
-/

namespace OpenMethod.Ownership

/-- What a variable is: a reference to an object, a pointer or a plain `virtual_ptr`; a reference to a `std::shared_ptr` or `boost::intrusive_ptr`, or to a `virtual_ptr` that contains one; such a
pointer; or a `std::unique_ptr`. The last two are owners. -/
inductive Own where
  | raw
  | ref
  | shared
  | unique
  deriving DecidableEq, Repr

def Own.owns : Own → Bool
  | .shared => true
  | .unique => true
  | _ => false

/-- A variable, and the object to which it refers. -/
structure Slot where
  own : Own
  obj : Option Nat
  deriving DecidableEq, Repr

/-- Objects are numbered in the order of their creation; `next` is the number of the next one. `count` is the reference count, or 1 if the object is owned by a `std::unique_ptr` (`uniq`). `gone` are the
destroyed objects, the last first. `globals` are the owners outside of the functions that run. -/
structure Store where
  next : Nat
  count : Nat → Nat
  uniq : Nat → Bool
  gone : List Nat
  globals : List Slot

namespace Store

/-- A smart pointer is copied. An object that does not exist any more has no count to increment; a `std::unique_ptr` cannot be copied. -/
def acquire (s : Store) (a : Nat) : Res Store :=
  if s.count a = 0 ∨ s.uniq a = true then .ub else .ok { s with count := fun b => if b = a then s.count a + 1 else s.count b }

/-- An owner is destroyed or reset, and deletes its object if it is the last one. -/
def release (s : Store) (a : Nat) : Res Store :=
  if s.count a = 0 then .ub else
  .ok { s with count := fun b => if b = a then s.count a - 1 else s.count b, gone := if s.count a = 1 then a :: s.gone else s.gone }

/-- A variable is destroyed. -/
def drop (s : Store) (x : Slot) : Res Store :=
  match x with
  | ⟨o, some a⟩ => if o.owns then s.release a else .ok s
  | _ => .ok s

def dropAll (s : Store) : List Slot → Res Store
  | [] => .ok s
  | x :: xs => do
    let s ← s.drop x
    s.dropAll xs

/-- An object is created by a new owner. -/
def make (s : Store) (o : Own) : Store × Slot :=
  ({ s with next := s.next + 1, count := fun b => if b = s.next then 1 else s.count b, uniq := fun b => if b = s.next then o = .unique else s.uniq b }, ⟨o, some s.next⟩)

end Store

/-- What is left in a variable whose content was moved. -/
def Slot.emptied (x : Slot) : Slot := if x.own.owns then ⟨x.own, none⟩ else x

/-- How the caller passes its variable number `i`: the object; the smart pointer, by reference; a copy; or the smart pointer itself, by `std::move`. -/
inductive Arg where
  | object (i : Nat)
  | ref (i : Nat)
  | copy (i : Nat)
  | move (i : Nat)
  deriving DecidableEq, Repr

def Arg.var : Arg → Nat
  | .object i => i
  | .ref i => i
  | .copy i => i
  | .move i => i

/-- The parameter of the call operator, and the variable of the caller. -/
def Arg.pass (s : Store) (x : Slot) : Arg → Res (Store × Slot × Slot)
  | .object _ => .ok (s, ⟨.raw, x.obj⟩, x)
  | .ref _ => .ok (s, ⟨.ref, x.obj⟩, x)
  | .copy _ =>
    match x.obj with
    | some a => do
      let s ← s.acquire a
      .ok (s, ⟨.shared, some a⟩, x)
    | none => .ok (s, ⟨.shared, none⟩, x)
  | .move _ => .ok (s, x, x.emptied)

/-- How an argument is cast to the type of the parameter of the overrider.

* `object`: a reference, a pointer or a plain `virtual_ptr` (core.hpp 128-148, 247-338)
* `same`: `const std::shared_ptr<T>&` in the method and in the overrider, which is not copied (std_shared_ptr.hpp 172-174, boost_intrusive_ptr.hpp 97-99)
* `temporary`: a smart pointer passed by reference is copied to a temporary, of the type of the overrider (std_shared_ptr.hpp 175-185, boost_intrusive_ptr.hpp 100-113, core.hpp 1745-1756)
* `copied`: a smart pointer passed by value is copied (std_shared_ptr.hpp 83-95 before C++20, boost_intrusive_ptr.hpp 46-58)
* `moved`: its content is moved (std_shared_ptr.hpp 115-127 since C++20, std_unique_ptr.hpp 41-56, core.hpp 1758-1768, and parameters that are not virtual, core.hpp 2014-2017) -/
inductive Mode where
  | object
  | same
  | temporary
  | copied
  | moved
  deriving DecidableEq, Repr

/-- The outcome of a cast: `dynamic_cast_ref` throws, and `std::dynamic_pointer_cast` returns an empty pointer, if the object is not of the required class. -/
inductive Cast where
  | ok
  | throws
  | null
  deriving DecidableEq, Repr

/-- The cast of `b`, a parameter of the thunk. The results are the parameter of the overrider, unless an exception is thrown, and what is left in `b`. -/
def cast (s : Store) (b : Slot) : Mode → Cast → Res (Store × Option Slot × Slot)
  | _, .throws => .ok (s, none, b)
  | .object, _ => .ok (s, some ⟨.raw, b.obj⟩, b)
  | .same, _ => .ok (s, some ⟨.ref, b.obj⟩, b)
  | .temporary, .null => .ok (s, some ⟨.shared, none⟩, b)
  | .copied, .null => .ok (s, some ⟨.shared, none⟩, b)
  | .moved, .null => .ok (s, some ⟨b.own, none⟩, b)
  | .moved, .ok => .ok (s, some b, b.emptied)
  | _, .ok =>
    match b.obj with
    | some a => do
      let s ← s.acquire a
      .ok (s, some ⟨.shared, some a⟩, b)
    | none => .ok (s, some ⟨.shared, none⟩, b)

/-- An argument, with its cast. -/
structure Param where
  arg : Arg
  mode : Mode
  cast : Cast
  deriving DecidableEq, Repr

/-- The code of the functions of the program. Variables are numbered: first the parameters, then the variables in the order in which they are created. Code checks that smart pointers are not null before
it uses them. -/
inductive Code where
  /-- returns, possibly the content of an owner -/
  | ret (i : Option Nat)
  | throw
  /-- uses the object to which a variable refers -/
  | use (i : Nat) (k : Code)
  /-- copies a smart pointer to a global variable -/
  | keep (i : Nat) (k : Code)
  /-- moves the content of a smart pointer to a global variable -/
  | take (i : Nat) (k : Code)
  /-- resets a smart pointer -/
  | reset (i : Nat) (k : Code)
  /-- destroys a global variable, if there are so many -/
  | forget (j : Nat) (k : Code)
  /-- creates an object -/
  | make (o : Own) (k : Code)
  /-- calls a method: `callee` is the overrider that runs, if there is one. The result, if any, is stored in a new variable. Exceptions are caught by `h`. -/
  | call (ps : List Param) (callee : Option Code) (k h : Code)

/-- How a function ends. -/
inductive Exit where
  | ret (x : Option Slot)
  | threw
  deriving DecidableEq, Repr

/-- The owner that a function returns. -/
def Exit.slots : Exit → List Slot
  | .ret (some x) => [x]
  | _ => []

/-- Initialises the parameters of the call operator (core.hpp 2432-2437). -/
def passAll (s : Store) (F : List Slot) : List Param → Res (Store × List Slot × List Slot)
  | [] => .ok (s, [], F)
  | p :: ps => do
    let x ← Res.ofOption F[p.arg.var]?
    let (s, a, x') ← p.arg.pass s x
    let (s, as, F) ← passAll s (F.set p.arg.var x') ps
    .ok (s, a :: as, F)

/-- Initialises the parameters of the overrider (core.hpp 2723-2727), from those of the thunk. The results are the parameters that were initialised, what is left in those of the thunk, and
whether an exception was thrown. -/
def castAll (s : Store) : List Slot → List Param → Res (Store × List Slot × List Slot × Bool)
  | b :: bs, p :: ps => do
    let (s, c, b') ← cast s b p.mode p.cast
    match c with
    | none => .ok (s, [], b' :: bs, true)
    | some c => do
      let (s, cs, bs', t) ← castAll s bs ps
      .ok (s, c :: cs, b' :: bs', t)
  | bs, _ => .ok (s, [], bs, false)

/-- Runs a function, with variables `F`. -/
def exec : Code → Store → List Slot → Res (Store × List Slot × Exit)
  | .ret none, s, F => .ok (s, F, .ret none)
  | .ret (some i), s, F => do
    let x ← Res.ofOption F[i]?
    .ok (s, F.set i x.emptied, .ret (some x))
  | .throw, s, F => .ok (s, F, .threw)
  | .use i k, s, F => do
    let x ← Res.ofOption F[i]?
    match x.obj with
    | some a => if s.count a = 0 then .ub else exec k s F
    | none => exec k s F
  | .keep i k, s, F => do
    let x ← Res.ofOption F[i]?
    match x.obj with
    | some a => do
      let s ← s.acquire a
      exec k { s with globals := ⟨.shared, some a⟩ :: s.globals } F
    | none => exec k s F
  | .take i k, s, F => do
    let x ← Res.ofOption F[i]?
    exec k { s with globals := x :: s.globals } (F.set i x.emptied)
  | .reset i k, s, F => do
    let x ← Res.ofOption F[i]?
    let s ← s.drop x
    exec k s (F.set i x.emptied)
  | .forget j k, s, F =>
    match s.globals[j]? with
    | some x => do
      let s ← { s with globals := s.globals.eraseIdx j }.drop x
      exec k s F
    | none => exec k s F
  | .make o k, s, F => exec k (s.make o).1 (F ++ [(s.make o).2])
  | .call ps callee k h, s, F =>
    if ps.any fun p => (F[p.arg.var]?.bind (·.obj)) = none then exec h s F else do
    let (s, as, F) ← passAll s F ps
    -- the parameters of the thunk, or of `fn_not_implemented` or `fn_ambiguous`, are moved from those of the call operator (core.hpp 2444-2449)
    let as' := as.map Slot.emptied
    match callee with
    | none => do
      let s ← s.dropAll as.reverse
      let s ← s.dropAll as'.reverse
      exec h s F
    | some c => do
      let (s, cs, bs, t) ← castAll s as ps
      if t then do
        let s ← s.dropAll cs.reverse
        let s ← s.dropAll bs.reverse
        let s ← s.dropAll as'.reverse
        exec h s F
      else do
        let (s, cs, e) ← exec c s cs
        let s ← s.dropAll cs.reverse
        let s ← s.dropAll bs.reverse
        let s ← s.dropAll as'.reverse
        match e with
        | .ret none => exec k s F
        | .ret (some x) => exec k s (F ++ [x])
        | .threw => exec h s F

/-- A program: its variables and the global ones are destroyed at the end. -/
def run (c : Code) : Res Store := do
  let (s, F, e) ← exec c ⟨0, fun _ => 0, fun _ => false, [], []⟩ []
  let s ← s.dropAll F.reverse
  let s ← s.dropAll e.slots
  s.dropAll s.globals

end OpenMethod.Ownership

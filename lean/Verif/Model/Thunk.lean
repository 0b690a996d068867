import Verif.Model.Subobjects
import Verif.Model.VirtualPtr

/-!
# Thunks (core.hpp 2710-2728)

How the arguments of a method are cast to the types of the parameters of an overrider. `Verif.Model.VirtualPtr` identifies objects with the complete
object; here references and pointers designate subobjects.

Not represented: cv-qualifiers, temporaries, ownership, and the order in which the arguments are cast, which C++ does not specify: when several casts
fail, the model reports the first failure.
-/

namespace OpenMethod

/-- What a reference or a non-null pointer designates: a subobject of an object. -/
structure ObjRef where
  obj : Obj
  path : Path
  deriving DecidableEq, Repr

/-- How a virtual argument designates its object: by reference or by a plain `virtual_ptr`; by pointer; by a smart pointer, or a `virtual_ptr` that
contains it. `sharedRef` is `const std::shared_ptr&`. -/
inductive Pass where
  | ref
  | pointer
  | shared
  | sharedRef
  | intrusive
  | unique
  deriving DecidableEq, Repr

/-- A virtual argument. `vp` is the v-table pointer in a `virtual_ptr`; the parameter is `virtual_<…>` when there is none. -/
structure VArg where
  pass : Pass
  vp : Option Boxed
  ref : Option ObjRef
  deriving DecidableEq, Repr

/-- An argument of a method. Those of non-virtual parameters can be anything. -/
inductive Passed where
  | virt (a : VArg)
  | other (v : Nat)
  deriving DecidableEq, Repr

/-- `parameter_traits::peek` followed by `method::vptr` (core.hpp 247-331, 2007-2030, 2442, 2475-2482): the object to which a `virtual_` parameter
refers is needed; a `virtual_ptr` gives its v-table pointer. -/
def Passed.arg : Passed → Res Arg
  | .other _ => .ok (.obj noType)
  | .virt a =>
    match a.vp, a.ref with
    | some b, _ => .ok (.vptr b)
    | none, some r => .ok (.obj r.obj.type)
    | none, none => .ub

/-- A null pointer is cast: by `dynamic_cast` of a pointer and `dynamic_pointer_cast`; by `static_cast` of a pointer; or after dereferencing it (core.hpp
327-338, std_shared_ptr.hpp 83-98, boost_intrusive_ptr.hpp 46-58, std_unique_ptr.hpp 41-56). -/
def castNull (H : Hier) (b d : Cls) : Pass → Bool
  | .ref => false
  | .pointer => true
  | .shared => true
  | .sharedRef => true
  | .intrusive => (H.staticCast b d []).isSome
  | .unique => false

/-- The traits ask whether a reference or a pointer can be cast to a smart pointer, which is never the case (std_unique_ptr.hpp 43, std_shared_ptr.hpp 177). -/
def Pass.forced : Pass → Bool
  | .unique => true
  | .sharedRef => true
  | _ => false

/-- `parameter_traits::cast` for a virtual parameter (core.hpp 247-338, 1733-1768, 1868-1890, 1915-1922, std_shared_ptr.hpp 85-98, 169-187,
boost_intrusive_ptr.hpp 46-58, std_unique_ptr.hpp 41-56), from class `b` to class `d`. `none`: `std::bad_cast` is thrown. -/
def castArg (H : Hier) (ti : TypeId → Cls) (b d : Cls) (a : VArg) : Res (Option VArg) :=
  match a.ref with
  | none => if castNull H b d a.pass then .ok (some a) else .ub
  | some r =>
    match H.optimalCast a.pass.forced (ti r.obj.type) b d r.path with
    | .ub => .ub
    | .err e => .err e
    | .ok (some ρ) => .ok (some { a with ref := some { r with path := ρ } })
    | .ok none =>
      match a.pass with
      | .pointer | .shared | .sharedRef => .ok (some { a with ref := none })
      | _ => .ok none

/-- Casts all the arguments, from the classes `bs` of the virtual parameters of the method to the classes `ds` of those of the overrider. -/
def castArgs (H : Hier) (ti : TypeId → Cls) : List Cls → List Cls → List Passed → Res (Option (List Passed))
  | bs, ds, .other v :: as => do
    let r ← castArgs H ti bs ds as
    .ok (r.map (.other v :: ·))
  | b :: bs, d :: ds, .virt a :: as => do
    match ← castArg H ti b d a with
    | none => .ok none
    | some a' =>
      let r ← castArgs H ti bs ds as
      .ok (r.map (.virt a' :: ·))
  | [], [], [] => .ok (some [])
  | _, _, _ => .ub

/-- How a thunk ends: it enters the overrider, or a cast throws. -/
inductive Entered where
  | entered (o : OverriderInfo) (args : List Passed)
  | badCast
  deriving DecidableEq, Repr

/-- `thunk::fn` (core.hpp 2710-2728). -/
def thunk (H : Hier) (r : Rtti) (m : MethodInfo) (o : OverriderInfo) (args : List Passed) : Res Entered := do
  match ← castArgs H r.ti (m.vp.map r.ti) (o.vp.map r.ti) args with
  | some as => .ok (.entered o as)
  | none => .ok .badCast

/-- The thunk with address `n`. Entering a function that is not a thunk of the method is undefined behaviour. -/
def enterThunk (H : Hier) (r : Rtti) (m : MethodInfo) (args : List Passed) (n : Nat) : Res Entered :=
  match m.overriders.find? (·.pf = n) with
  | some o => thunk H r m o args
  | none => .ub

def argsOf : List Passed → Res (List Arg)
  | [] => .ok []
  | a :: as => do
    let b ← a.arg
    let bs ← argsOf as
    .ok (b :: bs)

/-- `method::operator()` (core.hpp 2432-2450), until the overrider is entered. -/
def callThunk (cfg : Config) (H : Hier) (r : Rtti) (s : RegState) (m : MethodInfo) (args : List Passed) (types : List TypeId) : Res Entered := do
  let as ← argsOf args
  let n ← call cfg s m as types
  enterThunk H r m args n

/-- The implicit conversion of a virtual argument from class `d` to its unambiguous base `b`. -/
def convertArg (H : Hier) (d b : Cls) (a : VArg) : Option VArg := do
  let τ ← H.only d b
  some { a with ref := a.ref.map fun r => { r with path := Hier.sub r.path τ } }

def convertArgs (H : Hier) : List Cls → List Cls → List Passed → Option (List Passed)
  | ds, bs, .other v :: as => do
    let r ← convertArgs H ds bs as
    some (.other v :: r)
  | d :: ds, b :: bs, .virt a :: as => do
    let a' ← convertArg H d b a
    let r ← convertArgs H ds bs as
    some (.virt a' :: r)
  | [], [], [] => some []
  | _, _, _ => none

/-- Overrider `o` calls `next` (core.hpp 2222-2233) with its own arguments, which are converted to the parameter types of the method. `none`: the compiler
does not accept the conversions. -/
def callNext (H : Hier) (r : Rtti) (s : RegState) (m : MethodInfo) (o : OverriderInfo) (args : List Passed) (types : List TypeId) : Option (Res Entered) := do
  let as ← convertArgs H (o.vp.map r.ti) (m.vp.map r.ti) args
  some (do
    let f ← Res.ofOption (s.next o.next)
    let n ← enter f types
    enterThunk H r m as n)

end OpenMethod

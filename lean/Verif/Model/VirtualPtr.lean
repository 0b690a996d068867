import Verif.Model.Registry

/-!
# virtual_ptr (core.hpp 539-1845, interop/*.hpp)

Objects are identified with the complete object: conversions between pointers to the subobjects of the same object are not
represented. Ownership by smart pointers is not represented either, only which object they designate. Classes with
`boost_openmethod_vptr` are in `Verif.Model.Inplace`.
-/

namespace OpenMethod

/-- An object: its identity, and the type id that `rtti::dynamic_type` returns for it. -/
structure Obj where
  addr : Nat
  type : TypeId
  deriving DecidableEq, Repr

/-- Member `vp`: not initialized; `box_vptr(null_vptr)` (core.hpp 539-556); or what `box_vptr` returns for a v-table pointer. -/
inductive Vp where
  | indeterminate
  | null
  | boxed (b : Boxed)
  deriving DecidableEq, Repr

/-- Member `obj`: a plain or smart pointer. -/
inductive ObjPtr where
  | indeterminate
  | null
  | to (o : Obj)
  deriving DecidableEq, Repr

structure VirtualPtr where
  vp : Vp
  obj : ObjPtr
  deriving DecidableEq, Repr

/-- The main template (core.hpp 666-1142), or the specialization for smart pointers (core.hpp 1153-1786) with the smart pointers
of directory `interop`. -/
inductive PtrKind where
  | plain
  | shared
  | intrusive
  | unique
  deriving DecidableEq, Repr

def PtrKind.smart : PtrKind → Bool
  | .plain => false
  | _ => true

def ObjPtr.ofOption : Option Obj → ObjPtr
  | none => .null
  | some o => .to o

namespace VirtualPtr

/-- Constructed from, or assigned, `nullptr` (core.hpp 721-725, 1071-1075, 1225-1227, 1482-1486). -/
def nul : VirtualPtr := { vp := .null, obj := .null }

/-- Default constructors (core.hpp 699, 1204-1206): the plain one leaves both members uninitialized. -/
def default : PtrKind → VirtualPtr
  | .plain => { vp := .indeterminate, obj := .indeterminate }
  | _ => nul

/-- From a reference to an object (core.hpp 762-772). -/
def ofRef (cfg : Config) (s : RegState) (o : Obj) : Res VirtualPtr := do
  let b ← makeVirtualPtr cfg s o.type
  .ok { vp := .boxed b, obj := .to o }

/-- From a pointer to an object (core.hpp 812-823), which is dereferenced. -/
def ofPointer (cfg : Config) (s : RegState) : Option Obj → Res VirtualPtr
  | none => .ub
  | some o => ofRef cfg s o

/-- From a smart pointer (core.hpp 1277-1282, 1324-1329, 1374-1379): not dereferenced when null. -/
def ofSmart (cfg : Config) (s : RegState) : Option Obj → Res VirtualPtr
  | none => .ok nul
  | some o => ofRef cfg s o

/-- Reading the members of a `virtual_ptr`, to copy or convert it (core.hpp 877-883, 1042-1050, 1229, 1408-1416, 1603-1651). Reading
uninitialized pointers is undefined behaviour. -/
def copy (w : VirtualPtr) : Res VirtualPtr :=
  match w.vp, w.obj with
  | .indeterminate, _ => .ub
  | _, .indeterminate => .ub
  | _, _ => .ok w

/-- How an assignment or a cast ends. -/
inductive End where
  | returned
  /-- the error handler threw -/
  | error (e : Err)
  /-- `std::bad_cast` -/
  | badCast
  deriving DecidableEq, Repr

/-- Assignment of an object or a pointer to it (core.hpp 924-935, 974-985), and of a smart pointer by reference to const (core.hpp
1511-1525): first `obj`, then `vp`; the source is dereferenced. When the error handler throws, `obj` was assigned and `vp` was not. -/
def assignObject (cfg : Config) (s : RegState) (v : VirtualPtr) : Option Obj → Res (VirtualPtr × End)
  | none => .ub
  | some o =>
    match makeVirtualPtr cfg s o.type with
    | .ok b => .ok ({ vp := .boxed b, obj := .to o }, .returned)
    | .err e => .ok ({ v with obj := .to o }, .error e)
    | .ub => .ub

/-- Assignment of a smart pointer by rvalue reference (core.hpp 1551-1565): first `vp`, then `obj`. -/
def assignSmartMove (cfg : Config) (s : RegState) (v : VirtualPtr) : Option Obj → Res (VirtualPtr × End)
  | none => .ok (nul, .returned)
  | some o =>
    match makeVirtualPtr cfg s o.type with
    | .ok b => .ok ({ vp := .boxed b, obj := .to o }, .returned)
    | .err e => .ok (v, .error e)
    | .ub => .ub

/-- How a cast is made: `static_cast` when the language allows it, `dynamic_cast` otherwise (core.hpp 128-148). `isInstance`: the object
has the target class, or a base class of it when the target is a base. -/
structure Cast where
  dynamic : Bool
  isInstance : Bool
  deriving DecidableEq, Repr

/-- `traits::cast` (core.hpp 267-271, std_shared_ptr.hpp 63-98, boost_intrusive_ptr.hpp 29-42, std_unique_ptr.hpp 25-39). `none`: `std::bad_cast`
is thrown. -/
def castObj (c : Cast) : PtrKind → ObjPtr → Res (Option ObjPtr)
  | _, .indeterminate => .ub
  | .plain, .null => .ub
  | .shared, .null => .ok (some .null)
  | .intrusive, .null => if c.dynamic then .ub else .ok (some .null)
  | .unique, .null => .ub
  | k, .to o =>
    if c.isInstance then .ok (some (.to o))
    else if c.dynamic then
      match k with
      | .shared => .ok (some .null)
      | _ => .ok none
    else .ub

/-- `cast` (core.hpp 1115-1123, 1733-1768): the new `virtual_ptr`, if no exception is thrown. -/
def cast (c : Cast) (k : PtrKind) (w : VirtualPtr) : Res (Option VirtualPtr) := do
  let w ← w.copy
  let r ← castObj c k w.obj
  .ok (r.map fun o => { vp := w.vp, obj := o })

/-- What remains in the source after `cast() &&` (core.hpp 1757-1768): `obj` is moved by `std::unique_ptr` and, since C++20 (`cxx20`), by
`std::shared_ptr` when the cast succeeds; `vp` remains. -/
def castSource (cxx20 : Bool) (c : Cast) (k : PtrKind) (w : VirtualPtr) : VirtualPtr :=
  let moves := match k with
    | .unique => true
    | .shared => cxx20
    | _ => false
  if moves && c.isInstance then { w with obj := .null } else w

/-- `final_virtual_ptr` (core.hpp 583-622). The static class has type id `st`, is polymorphic or not, and has its v-table pointer in variable
`v`. The assertion on it is considered undefined behaviour. The argument is an object, or a smart pointer which can be null. -/
def final (cfg : Config) (s : RegState) (poly : Bool) (st : TypeId) (v : VarId) (q : Option Obj) : Res VirtualPtr := do
  requireInitialized cfg s
  if cfg.checks && poly then
    let o ← Res.ofOption q
    if o.type ≠ st then .err (.finalError st o.type)
  let vptr ← Res.ofOption (s.svptr v)
  .ok { vp := .boxed (if cfg.indirect then .indirect v else .direct (some vptr)), obj := .ofOption q }

/-- As an argument of a method (core.hpp 2475-2482, `virtual_ptr::vptr` 1139-1141, 1783-1785). -/
def arg (w : VirtualPtr) : Res Arg :=
  match w.vp with
  | .indeterminate => .ub
  | .null => .ok (.vptr (.direct none))
  | .boxed b => .ok (.vptr b)

end VirtualPtr

/-! ## Programs that use several virtual_ptrs -/

/-- What a new `virtual_ptr` is made from; numbers designate other `virtual_ptr`s. -/
inductive PtrSource where
  | default
  | nullptr
  | ref (o : Obj)
  | pointer (q : Option Obj)
  /-- a smart pointer, copied or moved -/
  | smart (q : Option Obj)
  | copy (j : Nat)
  | move (j : Nat)
  | cast (j : Nat) (c : VirtualPtr.Cast)
  | castMove (j : Nat) (c : VirtualPtr.Cast)
  | final (q : Option Obj) (poly : Bool) (st : TypeId) (v : VarId)
  deriving DecidableEq, Repr

/-- What is assigned to an existing one. -/
inductive AssignSource where
  | nullptr
  /-- an object, or a pointer to an object -/
  | object (q : Option Obj)
  /-- a smart pointer, by reference to const -/
  | smart (q : Option Obj)
  /-- a smart pointer, by rvalue reference -/
  | smartMove (q : Option Obj)
  | copy (j : Nat)
  | move (j : Nat)
  deriving DecidableEq, Repr

inductive PtrOp where
  | construct (i : Nat) (src : PtrSource)
  | assign (i : Nat) (src : AssignSource)
  deriving DecidableEq, Repr

/-- The `virtual_ptr`s of a program, each of some kind. -/
structure PtrEnv where
  cfg : Config
  cxx20 : Bool
  kind : Nat → PtrKind

abbrev Ptrs := Nat → VirtualPtr

/-- The move constructors and move assignments of smart `virtual_ptr`s leave a null `virtual_ptr` (core.hpp 1231-1236, 1448-1459, 1686-1698);
`obj = std::move(other.obj)` leaves a null smart pointer. When both are the same variable, it keeps its value. -/
def movePtr (k : PtrKind) (w : Ptrs) (i j : Nat) : Res Ptrs := do
  let x ← (w j).copy
  if k.smart then .ok (Function.update (Function.update w j .nul) i x) else .ok (Function.update w i x)

/-- A constructor that throws leaves no object: variable `i` is then as before. -/
def constructPtr (X : PtrEnv) (s : RegState) (w : Ptrs) (i : Nat) : PtrSource → Res (Ptrs × VirtualPtr.End)
  | .default => .ok (Function.update w i (.default (X.kind i)), .returned)
  | .nullptr => .ok (Function.update w i .nul, .returned)
  | .ref o => made (VirtualPtr.ofRef X.cfg s o)
  | .pointer q => made (VirtualPtr.ofPointer X.cfg s q)
  | .smart q => made (VirtualPtr.ofSmart X.cfg s q)
  | .copy j => made (w j).copy
  | .move j => do
    let w ← movePtr (X.kind i) w i j
    .ok (w, .returned)
  | .cast j c => do
    let r ← VirtualPtr.cast c (X.kind j) (w j)
    match r with
    | some x => .ok (Function.update w i x, .returned)
    | none => .ok (w, .badCast)
  | .castMove j c => do
    let r ← VirtualPtr.cast c (X.kind j) (w j)
    match r with
    | some x => .ok (Function.update (Function.update w j (VirtualPtr.castSource X.cxx20 c (X.kind j) (w j))) i x, .returned)
    | none => .ok (w, .badCast)
  | .final q poly st v => made (VirtualPtr.final X.cfg s poly st v q)
where
  made : Res VirtualPtr → Res (Ptrs × VirtualPtr.End)
    | .ok x => .ok (Function.update w i x, .returned)
    | .err e => .ok (w, .error e)
    | .ub => .ub

def assignPtr (X : PtrEnv) (s : RegState) (w : Ptrs) (i : Nat) : AssignSource → Res (Ptrs × VirtualPtr.End)
  | .nullptr => .ok (Function.update w i .nul, .returned)
  | .object q => assigned (VirtualPtr.assignObject X.cfg s (w i) q)
  | .smart q => assigned (VirtualPtr.assignObject X.cfg s (w i) q)
  | .smartMove q => assigned (VirtualPtr.assignSmartMove X.cfg s (w i) q)
  | .copy j => do
    let x ← (w j).copy
    .ok (Function.update w i x, .returned)
  | .move j => do
    let w ← movePtr (X.kind i) w i j
    .ok (w, .returned)
where
  assigned (r : Res (VirtualPtr × VirtualPtr.End)) : Res (Ptrs × VirtualPtr.End) := do
    let x ← r
    .ok (Function.update w i x.1, x.2)

/-- One operation; an exception may be caught, and the program goes on. -/
def PtrOp.run (X : PtrEnv) (s : RegState) (w : Ptrs) : PtrOp → Res (Ptrs × VirtualPtr.End)
  | .construct i src => constructPtr X s w i src
  | .assign i src => assignPtr X s w i src

def runPtrs (X : PtrEnv) (s : RegState) (w : Ptrs) (ops : List PtrOp) : Res Ptrs :=
  ops.foldlM (fun w op => do let r ← op.run X s w; .ok r.1) w

end OpenMethod

import Verif.Model.Statements

/-!
# Casts of virtual pointers

`x.cast<Other>()` (core.hpp 1104-1123, 1724-1768): whether the compiler accepts it, the type of the result, which cast it makes, and its effect (`Verif.Model.VirtualPtr`).

Simplifications: as in `Verif.Model.Statements`. The subobject to which a virtual pointer points is not represented: a class does not occur several times among the bases of an object (`C72_agrees`
compares this with `Verif.Model.Subobjects`).
-/

namespace OpenMethod

namespace Cpp

/-- The type of `x.cast<e>()`, if it is accepted. `std::is_base_of` ignores `const`; neither `static_cast` nor `dynamic_cast` removes it. `cast() &&` alone can move a `std::unique_ptr`, and is only
called for rvalues that are not `const`. -/
def castType (E : Cpp) (h : Held) (e : Elem) (c : Cat) : Option Held :=
  let b := h.elem
  if (E.hier.isBaseOf b.cls e.cls || E.hier.isBaseOf e.cls b.cls) && (!b.const || e.const) then
    match h with
    | .plain _ => if E.optimalOk b.cls e.cls then some (.plain e) else none
    | .smart k _ => if E.smartCastOk b.cls e.cls k && (k ≠ .unique || c = .rvalue) then some (.smart k e) else none
  else none

/-- `requires_dynamic_cast`: it is always true in the `cast` of `std::unique_ptr` (std_unique_ptr.hpp 43). -/
def castDynamic (E : Cpp) (h : Held) (e : Elem) : Bool :=
  match h with
  | .smart .unique _ => true
  | _ => !E.staticOk h.elem.cls e.cls

end Cpp

/-- The class of the objects with a type id. -/
structure CastTypes extends PtrTypes where
  cls : TypeId → Cls

/-- Statements, and `auto i = j.cast<e>();`, where `j` is an lvalue, or `std::move(j)`, or `const`. -/
inductive Action where
  | give (st : Statement)
  | cast (i j : Nat) (e : Elem) (c : Cat)
  deriving DecidableEq, Repr

namespace CastTypes

/-- How the cast of virtual pointer `j`, which designates `x`, is made. -/
def how (T : CastTypes) (j : Nat) (e : Elem) (x : ObjPtr) : VirtualPtr.Cast :=
  { dynamic := T.cpp.castDynamic (T.type j) e
    isInstance := match x with
      | .to o => T.cpp.hier.isBaseOf e.cls (T.cls o.type)
      | _ => false }

/-- Which `cast` is called. -/
def castSource (T : CastTypes) (j : Nat) (e : Elem) (c : Cat) (x : ObjPtr) : PtrSource :=
  match T.type j with
  | .plain _ => .cast j (T.how j e x)
  | .smart _ _ => if c = .rvalue then .castMove j (T.how j e x) else .cast j (T.how j e x)

/-- The effect of an action, if the compiler accepts it. -/
def run (T : CastTypes) (cfg : Config) (s : RegState) (w : Ptrs) (n : Nat) : Action → Option (Res (Ptrs × VirtualPtr.End))
  | .give st => (T.ops n st).map (runOps (T.env cfg) s w)
  | .cast i j e c =>
    if T.cpp.castType (T.type j) e c = some (T.type i) then some ((PtrOp.construct i (T.castSource j e c (w j).obj)).run (T.env cfg) s w) else none

end CastTypes

end OpenMethod

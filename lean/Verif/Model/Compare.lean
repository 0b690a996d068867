import Verif.Model.Conversions
import Verif.Model.Thunk

/-!
# Comparison of virtual pointers (core.hpp 1080-1103, 1703-1726, 1810-1845)

`left == right` and `left != right`: whether the compiler accepts them, and their result. Virtual pointers point to base class subobjects (`Verif.Model.Subobjects`).

Simplifications: the pointers are null, or point to objects that exist. Two objects of the same type, neither of which is in the other, have different addresses ([intro.object]), hence pointers are
compared by comparing what they point to. Comparisons between smart pointers are those of the standard library and of Boost ([util.smartptr.shared.cmp], [unique.ptr.special], `boost::intrusive_ptr`):
those of smart pointers of the same kind, and of `boost::intrusive_ptr` with pointers, compare the pointers that `get` returns; there are no others.
-/

namespace OpenMethod

/-- A base class subobject of an object, identified by a number, or the object itself. -/
structure Part where
  obj : Nat
  path : Path
  deriving DecidableEq, Repr

/-- `get()` (core.hpp 1080-1082, 1703-1705): where a virtual pointer points. A plain one is not initialised by its default constructor (core.hpp 699). -/
inductive Pointer where
  | indeterminate
  | null
  | part (p : Part)
  deriving DecidableEq, Repr

/-- An operand: its type `virtual_ptr<T, R>`, where `T` is a class or a smart pointer, and its value. -/
structure Comparand where
  held : Held
  reg : Nat
  value : Pointer
  deriving DecidableEq, Repr

namespace Hier

/-- There is an operator to compare `left.pointer()` with `right.pointer()` (core.hpp 1101-1103, 1724-1726), if the pointers can be compared. -/
def pointersComparable : Held → Held → Bool
  | .plain _, .plain _ => true
  | .smart k _, .smart l _ => k = l
  | .plain _, .smart .intrusive _ => true
  | .smart .intrusive _, .plain _ => true
  | _, _ => false

/-- Pointers to classes `c` and `d` are converted to their composite pointer type ([expr.type]), which is a pointer to the one that is a base of the other: the subobjects to which the pointers are
converted. The base must not be ambiguous. -/
def composite (H : Hier) (c d : Cls) : Option (Path × Path) :=
  match H.only d c with
  | some τ => some ([c], τ)
  | none =>
    match H.only c d with
    | some τ => some (τ, [d])
    | none => none

/-- Comparison of two pointers, after the conversions. -/
def samePointer (τ υ : Path) : Pointer → Pointer → Res Bool
  | .indeterminate, _ => .ub
  | _, .indeterminate => .ub
  | .null, .null => .ok true
  | .part p, .part q => .ok (p.obj = q.obj && sub p.path τ = sub q.path υ)
  | _, _ => .ok false

/-- `left == right` (core.hpp 1822-1827). `none`: the compiler does not accept it. The template parameter `Registry` is deduced from both. -/
def equal (H : Hier) (l r : Comparand) : Option (Res Bool) :=
  if l.reg = r.reg ∧ pointersComparable l.held r.held then
    match H.composite l.held.elem.cls r.held.elem.cls with
    | some (τ, υ) => some (samePointer τ υ l.value r.value)
    | none => none
  else none

/-- `left != right` (core.hpp 1840-1845). -/
def notEqual (H : Hier) (l r : Comparand) : Option (Res Bool) := (H.equal l r).map fun b => do let b ← b; .ok (!b)

end Hier

end OpenMethod

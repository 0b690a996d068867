import Verif.SpecStatements
import Verif.SpecParams
import Verif.Model.Casts

/-!
# Specification of casts of virtual pointers

"Cast to another `virtual_ptr` type", "`Other` must be a base or derived class of `Class`" (core.hpp 1104-1114, 1724-1728). As in the language, `const` cannot be
removed, and a `std::unique_ptr` must be moved.
-/

namespace OpenMethod

/-- Like `Consistent`, except that the v-table pointer may be any if there is no object. -/
def Sound (p : Program) (s : RegState) (w : VirtualPtr) : Prop := (w.obj = .null ∧ w.vp ≠ .indeterminate) ∨ ∃ o, p.HasId o.type ∧ Designates p s o w

/-- The same kind of virtual pointer, to another class. -/
def Held.rebind : Held → Elem → Held
  | .plain _, e => .plain e
  | .smart k _, e => .smart k e

namespace Cpp

/-- The language has a `static_cast` from class `c` to class `d`. -/
def HasStaticCast (E : Cpp) (c d : Cls) : Prop := E.hier.Unambiguous c d ∨ E.hier.StaticDown d c

/-- The language has a `dynamic_cast` from class `c` to class `d`. -/
def HasDynamicCast (E : Cpp) (c d : Cls) : Prop := E.hier.Unambiguous c d ∨ E.poly c = true ∧ ¬ E.hier.Inherits c d

/-- The casts that the documentation and the language permit. -/
structure CastPermitted (E : Cpp) (h : Held) (e : Elem) (c : Cat) : Prop where
  related : E.hier.Inherits e.cls h.elem.cls ∨ E.hier.Inherits h.elem.cls e.cls
  const : h.elem.const = true → e.const = true
  language : E.HasStaticCast h.elem.cls e.cls ∨ E.HasDynamicCast h.elem.cls e.cls
  unique : ∀ t, h = .smart .unique t → c = .rvalue

/-- The documentation says that `static_cast` is used if possible; it never is for `std::unique_ptr`. -/
def UsesStaticCast (E : Cpp) (h : Held) (e : Elem) : Prop := (∀ t, h ≠ .smart .unique t) ∧ E.HasStaticCast h.elem.cls e.cls

end Cpp

namespace CastTypes

/-- Type ids identify classes. -/
structure Fits (T : CastTypes) (p : Program) : Prop extends T.toPtrTypes.Fits p where
  cls : ∀ d, p.HasId (T.id d) → T.cls (T.id d) = d
  known : ∀ d, p.HasId (T.id d) → T.cpp.hier.Defined d

/-- A cast takes a null pointer if it does not dereference it: casts of `std::shared_ptr`, and `static_cast`s of `boost::intrusive_ptr`. -/
def TakesNull (T : CastTypes) (j : Nat) (e : Elem) : Prop :=
  (∃ t, T.type j = .smart .shared t) ∨ (∃ t, T.type j = .smart .intrusive t) ∧ T.cpp.UsesStaticCast (T.type j) e

/-- The smart pointer is moved from when the cast succeeds. -/
def Releases (T : CastTypes) (j : Nat) (c : Cat) : Prop :=
  c = .rvalue ∧ ((∃ t, T.type j = .smart .unique t) ∨ (∃ t, T.type j = .smart .shared t) ∧ T.cpp.cpp20 = true)

end CastTypes

namespace Action

/-- What the programmer ensures. A downcast that uses `static_cast` is made only if the object has the class. -/
def Typed (T : CastTypes) (p : Program) (w : Ptrs) : Action → Prop
  | .give st => st.NotSelf ∧ st.Typed T.toPtrTypes p
  | .cast i j e _ => i ≠ j ∧ ∀ o, (w j).obj = .to o → T.cpp.UsesStaticCast (T.type j) e → T.Instance o e.cls

def NotNull (T : CastTypes) (w : Ptrs) : Action → Prop
  | .give st => st.NotNull
  | .cast _ j e _ => (w j).obj = .null → T.TakesNull j e

def Spare (T : CastTypes) (n : Nat) : Action → Prop
  | .give st => T.toPtrTypes.Spare st n
  | .cast _ _ _ _ => True

end Action

/-- The effect of `auto i = j.cast<e>();`. -/
structure CastGives (C : VirtualPtr → Prop) (T : CastTypes) (w w' : Ptrs) (i j : Nat) (e : Elem) (c : Cat) (r : VirtualPtr.End) : Prop where
  /-- If the object has the class, the result designates it; the source designates it, unless it was released. -/
  instance' : ∀ o, (w j).obj = .to o → T.Instance o e.cls → r = .returned ∧ (w' i).obj = .to o ∧ C (w' i) ∧
    (T.Releases j c → w' j = { w j with obj := .null }) ∧ (¬ T.Releases j c → w' j = w j) ∧ ∀ k, k ≠ i → k ≠ j → w' k = w k
  /-- Otherwise the result is null for `std::shared_ptr`, and `std::bad_cast` is thrown in other cases. -/
  failed : ∀ o, (w j).obj = .to o → ¬ T.Instance o e.cls →
    ((∃ t, T.type j = .smart .shared t) → r = .returned ∧ (w' i).obj = .null ∧ C (w' i) ∧ ∀ k, k ≠ i → w' k = w k) ∧
    ((¬ ∃ t, T.type j = .smart .shared t) → r = .badCast ∧ w' = w)
  null : (w j).obj = .null → r = .returned ∧ (w' i).obj = .null ∧ C (w' i) ∧ ∀ k, k ≠ i → w' k = w k

/-- The effect of an action, on virtual pointers that have property `C`. -/
def Action.Effect (C : VirtualPtr → Prop) (T : CastTypes) (w w' : Ptrs) (n : Nat) (r : VirtualPtr.End) : Action → Prop
  | .give st => r = .returned ∧ GivesBy C T.toPtrTypes w w' n st
  | .cast i j e c => CastGives C T w w' i j e c r

/-- The values of the variables of a program, all null at first, after actions that the compiler accepts. -/
inductive CastTypes.Reach (T : CastTypes) (cfg : Config) (p : Program) (s : RegState) : Ptrs → Prop
  | start : Reach T cfg p s fun _ => { vp := .null, obj := .null }
  | step {w w' a n e} : Reach T cfg p s w → Action.Spare T n a → Action.Typed T p w a → Action.NotNull T w a → T.run cfg s w n a = some (.ok (w', e)) → Reach T cfg p s w'

end OpenMethod

import Verif.SpecParams
import Verif.Model.Returns

/-!
# Specification of the return types of overriders

"The return type of the overrider must be the same as the method's return type or, if it is a polymorphic type, covariant with the method's return type." (core.hpp 2260-2262)
-/

namespace OpenMethod

/-- Return types `t` of a method and `u` of an overrider that have the same form and refer to classes `c` and `d`. -/
inductive CT.Covariant : CT → CT → Cls → Cls → Prop
  | lref {c d} : Covariant (.lref (.cls c)) (.lref (.cls d)) c d
  | cref {c d} : Covariant (.cref (.cls c)) (.cref (.cls d)) c d
  | rref {c d} : Covariant (.rref (.cls c)) (.rref (.cls d)) c d
  | ptr {c d} : Covariant (.ptr (.cls c)) (.ptr (.cls d)) c d
  | smart {k c d} : Covariant (.smart k (.cls c)) (.smart k (.cls d)) c d
  | vptr {t u r c d} : CT.Pointee t u c d → Covariant (.vptr t r) (.vptr u r) c d

/-- The documented requirement on the return types `t` of a method and `u` of an overrider. -/
def DocumentedReturn (H : Hier) (t u : Option CT) : Prop :=
  u = t ∨ ∃ t' u' c d, t = some t' ∧ u = some u' ∧ t'.Covariant u' c d ∧ H.Unambiguous d c

/-- A type by which an object of class `c` is returned polymorphically, in registry `r`. -/
inductive CT.ReturnsClass (r : Nat) : CT → Cls → Prop
  | lref {c} : ReturnsClass r (.lref (.cls c)) c
  | cref {c} : ReturnsClass r (.cref (.cls c)) c
  | rref {c} : ReturnsClass r (.rref (.cls c)) c
  | ptr {c} : ReturnsClass r (.ptr (.cls c)) c
  | smart {k c} : ReturnsClass r (.smart k (.cls c)) c
  | smartRef {k c} : k ≠ .unique → ReturnsClass r (.cref (.smart k (.cls c))) c
  | vptr {t c} : CT.Pointee t t c c → ReturnsClass r (.vptr t (.reg r)) c
  | vptrRef {t c} : CT.Pointee t t c c → ReturnsClass r (.cref (.vptr t (.reg r))) c

/-- A result designates the subobject of class `c` of an object of class `x`. -/
def ResultRefers (H : Hier) (ti : TypeId → Cls) (c : Cls) (a : VArg) (x : Cls) : Prop :=
  ∃ r, a.ref = some r ∧ ti r.obj.type = x ∧ H.Subobject x r.path ∧ Hier.OfClass r.path c

end OpenMethod

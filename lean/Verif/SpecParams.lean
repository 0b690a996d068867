import Verif.SpecThunk
import Verif.Model.Params

/-!
# Specification of the parameter types of overriders

The documented requirements (core.hpp 2238-2262): each parameter of an overrider has the form of the parameter of the method in the same position. If it is virtual, it refers to
the same class, or to a class that has it as an unambiguous base; otherwise its type is the same.
-/

namespace OpenMethod

namespace CT

/-- A type that can occur in a program. -/
def Proper : CT → Prop
  | .var _ => False
  | .uniq _ => False
  | .other _ => True
  | .cls _ => True
  | .reg _ => False
  | .lref t => t.Proper
  | .cref t => t.Proper
  | .rref t => t.Proper
  | .ptr t => t.Proper
  | .smart _ t => t.Proper
  | .virt t => t.Proper
  | .vptr t r => ((∃ c, t = .cls c) ∨ ∃ k c, t = .smart k (.cls c)) ∧ ∃ n, r = .reg n

/-- The argument of a `virtual_ptr`: a class, or a smart pointer to it. -/
inductive Pointee : CT → CT → Cls → Cls → Prop
  | plain {c d} : Pointee (.cls c) (.cls d) c d
  | smart {k c d} : Pointee (.smart k (.cls c)) (.smart k (.cls d)) c d

/-- The argument of a `virtual_`: a reference, a pointer, or a smart pointer to a class, by value or by reference. `c` and `d` are the classes in two such types of the same form. -/
inductive SameForm : CT → CT → Cls → Cls → Prop
  | lref {c d} : SameForm (.lref (.cls c)) (.lref (.cls d)) c d
  | cref {c d} : SameForm (.cref (.cls c)) (.cref (.cls d)) c d
  | rref {c d} : SameForm (.rref (.cls c)) (.rref (.cls d)) c d
  | ptr {c d} : SameForm (.ptr (.cls c)) (.ptr (.cls d)) c d
  | smart {k c d} : SameForm (.smart k (.cls c)) (.smart k (.cls d)) c d
  | smartRef {k c d} : SameForm (.cref (.smart k (.cls c))) (.cref (.smart k (.cls d))) c d

/-- The parameters of a method and of an overrider have the same form, and refer to classes `c` and `d`. -/
inductive Virtual : CT → CT → Cls → Cls → Prop
  | virt {t u c d} : SameForm t u c d → Virtual (.virt t) u c d
  | value {t u r c d} : Pointee t u c d → Virtual (.vptr t r) (.vptr u r) c d
  | constRef {t u r c d} : Pointee t u c d → Virtual (.cref (.vptr t r)) (.cref (.vptr u r)) c d

/-- Virtual parameters of methods: `virtual_<T>`, `virtual_ptr<T, R>` and `const virtual_ptr<T, R>&`. -/
def IsVirtualParam (p : CT) : Prop := (∃ t, p = .virt t) ∨ (∃ t r, p = .vptr t r) ∨ ∃ t r, p = .cref (.vptr t r)

end CT

/-- The documented requirement on a parameter `p` of a method and the corresponding parameter `q` of an overrider. -/
def Documented (H : Hier) (p q : CT) : Prop :=
  (∃ c d, CT.Virtual p q c d ∧ H.Unambiguous d c) ∨ (¬ p.IsVirtualParam ∧ q = p)

/-- The class to which a type refers. -/
def CT.class? : CT → Option Cls
  | .cls c => some c
  | .lref t => t.class?
  | .cref t => t.class?
  | .rref t => t.class?
  | .ptr t => t.class?
  | .smart _ t => t.class?
  | .virt t => t.class?
  | .vptr t _ => t.class?
  | _ => none

/-- The parameters of a method and an overrider, if that of the method is marked with `virtual_`, are of forms that go together, and refer to classes `c` and `d`: the forms are the same; or a reference is
`const` in the overrider; or a `std::shared_ptr` or `boost::intrusive_ptr` is passed by value on one side and by `const` reference on the other. `virtual_` may also mark a `virtual_ptr`. -/
inductive CT.Fits : CT → CT → Cls → Cls → Prop
  | same {t q c d} : CT.SameForm t q c d → CT.Fits t q c d
  | const {c d} : CT.Fits (.lref (.cls c)) (.cref (.cls d)) c d
  | byRef {k c d} : k ≠ .unique → CT.Fits (.smart k (.cls c)) (.cref (.smart k (.cls d))) c d
  | byValue {k c d} : k ≠ .unique → CT.Fits (.cref (.smart k (.cls c))) (.smart k (.cls d)) c d
  | vptr {t u r c d} : CT.Pointee t u c d → CT.Fits (.vptr t r) (.vptr u r) c d
  | vptrRef {t u r c d} : CT.Pointee t u c d → CT.Fits (.cref (.vptr t r)) (.cref (.vptr u r)) c d
  | vptrByValue {t u r c d} : CT.Pointee t u c d → CT.Fits (.cref (.vptr t r)) (.vptr u r) c d

/-- If the parameter of the method is marked with `virtual_`, the forms of the two types go together, and its class is an unambiguous base of that of the overrider. -/
def CT.Related (H : Hier) (p q : CT) : Prop := ∀ t, p = .virt t → ∃ c d, CT.Fits t q c d ∧ H.Unambiguous d c

/-- The compiler accepts the overrider, as far as this parameter is concerned. -/
def Cpp.Accepts (E : Cpp) (p q : CT) : Prop := E.validOverriderParam p q = true ∧ E.castOk p q = true

/-- Classes occurring in types are defined. -/
def CT.InHier (H : Hier) : CT → Prop
  | .cls c => H.Defined c
  | .lref t => t.InHier H
  | .cref t => t.InHier H
  | .rref t => t.InHier H
  | .ptr t => t.InHier H
  | .smart _ t => t.InHier H
  | .virt t => t.InHier H
  | .vptr t _ => t.InHier H
  | _ => True

/-- `d` has `c` as an unambiguous base, which is not virtual nor a base of a virtual base: the language allows a `static_cast` from `c` to `d`. -/
def Hier.StaticDown (H : Hier) (d c : Cls) : Prop := H.Unambiguous d c ∧ ∃ σ, H.IsPath d σ ∧ Hier.OfClass σ c

end OpenMethod

import Verif.SpecParams
import Verif.Model.Macros

/-!
# Specification of the macros

"The macro creates an ordinary inline function in the current scope, with the `virtual_` decorators removed from the parameter types" (BOOST_OPENMETHOD.adoc). "The macro tries to
locate a method that can be called with the same argument list as the overrider" (BOOST_OPENMETHOD_OVERRIDE.adoc). Ordinary functions are subject to overload resolution, of which the
following rule is used: a function is better than another if its parameters have the types of the arguments, where those of the other differ only in that they refer to a base class.
-/

namespace OpenMethod

/-- For an argument of type `a`, the parameter `p` has its type, and `p'` refers to a base class. -/
def CT.Closer (p p' a : CT) : Prop := p.removeVirtual = a ∧ ∃ c d, CT.Virtual p' a c d ∧ c ≠ d

/-- Parameters that are the same or closer. -/
def CT.NotWorse : List CT → List CT → List CT → Prop
  | [], [], [] => True
  | p :: ps, p' :: ps', a :: as => (p = p' ∨ CT.Closer p p' a) ∧ NotWorse ps ps' as
  | _, _, _ => False

/-- A function with parameters `ps` is better than one with parameters `ps'`, for arguments of types `as`. -/
def CT.Better (ps ps' as : List CT) : Prop := CT.NotWorse ps ps' as ∧ ps ≠ ps'

/-- Overload resolution selects the function number `m`, among functions with parameters `ms`. -/
def Cpp.Selected (E : Cpp) (ms : List (List CT)) (as : List CT) (m : Nat) : Prop :=
  ∃ ps, ms[m]? = some ps ∧ E.callable ps as = true ∧ ∀ (m' : Nat) ps', ms[m']? = some ps' → E.callable ps' as = true → m' = m ∨ CT.Better ps ps' as

/-- Overrider parameters of other forms than the documented ones. -/
inductive CT.Other : CT → CT → Cls → Cls → Prop
  /-- smart pointers are passed by value on one side, by `const` reference on the other -/
  | byRef {k c d} : k ≠ .unique → CT.Other (.smart k (.cls c)) (.cref (.smart k (.cls d))) c d
  | byValue {k c d} : k ≠ .unique → CT.Other (.cref (.smart k (.cls c))) (.smart k (.cls d)) c d
  /-- they are passed by rvalue reference to the overrider -/
  | rvalue {k c d} : CT.Other (.smart k (.cls c)) (.rref (.smart k (.cls d))) c d
  | rvalueRef {k c d} : CT.Other (.cref (.smart k (.cls c))) (.rref (.smart k (.cls d))) c d
  /-- `virtual_` marks a `virtual_ptr` -/
  | vptr {t u r c d} : CT.Pointee t u c d → CT.Other (.vptr t r) (.vptr u r) c d
  | vptrRef {t u r c d} : CT.Pointee t u c d → CT.Other (.cref (.vptr t r)) (.cref (.vptr u r)) c d
  | vptrByValue {t u r c d} : CT.Pointee t u c d → CT.Other (.cref (.vptr t r)) (.vptr u r) c d
  | vptrRvalue {t u r c d} : CT.Pointee t u c d → CT.Other (.cref (.vptr t r)) (.rref (.vptr u r)) c d

/-- The types have one of these forms, and the class of the overrider is derived from that of the method. -/
def CT.Mixed (E : Cpp) (p q : CT) : Prop := ∃ t c d, p = .virt t ∧ CT.Other t q c d ∧ E.hier.Unambiguous d c

end OpenMethod

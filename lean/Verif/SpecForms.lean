import Verif.SpecParams

/-!
# Specification of overrider parameters of other forms

The parameter of an overrider, where that of the method is marked with `virtual_`, should have the same form (core.hpp 2238-2262). The compiler accepts others. Those with which the overrider does not get
the object:
-/

namespace OpenMethod

/-- The parameter of a method, marked with `virtual_`, and that of an overrider: an object, and a smart pointer or `virtual_ptr`; a `boost::intrusive_ptr`, and a smart pointer of another kind; a
`std::unique_ptr`, and a `virtual_ptr`. -/
inductive CT.Astray : CT → CT → Prop
  | smart {c k u} : CT.Astray (.lref (.cls c)) (.cref (.smart k u))
  | constSmart {c k u} : CT.Astray (.cref (.cls c)) (.cref (.smart k u))
  | vptr {c u r} : CT.Astray (.lref (.cls c)) (.cref (.vptr u r))
  | constVptr {c u r} : CT.Astray (.cref (.cls c)) (.cref (.vptr u r))
  | intrusive {s k u} : k ≠ .intrusive → CT.Astray (.smart .intrusive s) (.smart k u)
  | intrusiveByValue {s k u} : k ≠ .intrusive → CT.Astray (.cref (.smart .intrusive s)) (.smart k u)
  | intrusiveRef {s k u} : k ≠ .intrusive → CT.Astray (.cref (.smart .intrusive s)) (.cref (.smart k u))
  | unique {s u r} : CT.Astray (.smart .unique s) (.vptr u r)

end OpenMethod

import Verif.Spec

/-! # Specification: which sets of registrations are accepted by `initialize` -/

namespace OpenMethod.Spec

/-- A type that the registrations require to be a registered class: a base, a virtual parameter of a method or of an
overrider, the return type of an overrider of a method that returns a registered class. -/
def Named (p : Program) (t : TypeId) : Prop :=
  (∃ cr ∈ p.classes, t ∈ cr.bases) ∨
  ∃ m ∈ p.methods, t ∈ m.vp ∨ ∃ o ∈ m.overriders, t ∈ o.vp ∨ (t = o.ret ∧ CovariantReturn p m)

/-- A type that should have been registered. -/
def Unregistered (p : Program) (t : TypeId) : Prop := Named p t ∧ ¬ Registered p (p.rtti.ti t)

/-- Parameter number `k` of the overrider of `m` has type `t`, which is not the type `v` of the parameter of the method, and
does not derive from it. -/
def NotDerived (p : Program) (m : MethodInfo) (o : OverriderInfo) (k : Nat) (t v : TypeId) : Prop :=
  m ∈ p.methods ∧ o ∈ m.overriders ∧ o.vp[k]? = some t ∧ m.vp[k]? = some v ∧ ¬ Derives p (p.rtti.ti t) (p.rtti.ti v)

/-- Two types of the same class. -/
def SameClass (p : Program) (t u : TypeId) : Prop := p.rtti.ti t = p.rtti.ti u

end OpenMethod.Spec

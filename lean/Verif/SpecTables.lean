import Verif.SpecCall
import Mathlib.Data.Set.Card

/-! # Specification: slots, report and errors -/

namespace OpenMethod.Spec

/-- After `initialize`, virtual parameter number `k` of the method has slot `s`. -/
def SlotOf (img : Image) (m : MethodInfo) (k s : Nat) : Prop :=
  k < m.vp.length ∧ ∃ ss, slotsStridesAt img m.id = some ss ∧ ss[k]? = some s

/-- Virtual parameter number `k` of the method accepts objects of class `x`. -/
def Takes (p : Program) (m : MethodInfo) (k : Nat) (x : Cls) : Prop := ∃ v, m.vp[k]? = some v ∧ Derives p x (p.rtti.ti v)

/-- The overriders whose parameter number `k` accepts objects of class `x`. -/
def TakenBy (p : Program) (m : MethodInfo) (k : Nat) (x : Cls) : Set Nat :=
  { i | ∃ o t, m.overriders[i]? = some o ∧ o.vp[k]? = some t ∧ Derives p x (p.rtti.ti t) }

/-- The number of classes, among those that parameter number `k` accepts, that can be distinguished by looking at which
overriders accept them. -/
noncomputable def distinguishable (p : Program) (m : MethodInfo) (k : Nat) : Nat :=
  (TakenBy p m k '' { x | Takes p m k x }).ncard

/-- The dynamic types of the virtual arguments, in order, when `types` are the dynamic types of all arguments. -/
def virtualTypes (params : List Bool) (types : List TypeId) : List TypeId := ((params.zip types).filter (·.1)).map (·.2)

end OpenMethod.Spec

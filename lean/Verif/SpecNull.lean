import Verif.SpecThunk

/-! # Specification of null arguments -/

namespace OpenMethod.Spec

/-- A pointer to class `b` can be converted to a pointer to class `d` without looking at the object: `d` is an unambiguous base of `b` (or `b`), or `b` is an unambiguous base of `d`
that is not a virtual base and does not belong to one. -/
def Static (H : Hier) (b d : Cls) : Prop :=
  H.Unambiguous b d ∨ ∃ τ, (H.Subobject d τ ∧ Hier.OfClass τ b) ∧ (∀ σ, H.Subobject d σ → Hier.OfClass σ b → σ = τ) ∧ τ.head? = some d

/-- A null argument for a parameter of class `b` can be converted to a null argument for a parameter of class `d`. -/
inductive NullSafe (H : Hier) (b d : Cls) : Pass → Prop
  | pointer : NullSafe H b d .pointer
  | shared : NullSafe H b d .shared
  | sharedRef : NullSafe H b d .sharedRef
  | intrusive : Static H b d → NullSafe H b d .intrusive

/-- All the arguments can. -/
inductive AllNullSafe (H : Hier) : List Cls → List Cls → List Passed → Prop
  | nil : AllNullSafe H [] [] []
  | other {bs ds as} (v : Nat) : AllNullSafe H bs ds as → AllNullSafe H bs ds (.other v :: as)
  | virt {b d bs ds a as} : NullSafe H b d a.pass → AllNullSafe H bs ds as → AllNullSafe H (b :: bs) (d :: ds) (.virt a :: as)

/-- The virtual arguments are null. -/
def Nulls (as : List Passed) : Prop := ∀ a, Passed.virt a ∈ as → a.ref = none

end OpenMethod.Spec

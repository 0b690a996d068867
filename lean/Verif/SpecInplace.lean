import Verif.Model.Inplace

/-! # Specification of inplace_vptr -/

namespace OpenMethod

/-- A subobject with its class. -/
abbrev Node := Cls × Sub

/-- Subobjects of a subobject. -/
inductive Below (H : Hierarchy) : Node → Node → Prop
  | refl (x : Node) : Below H x x
  | step {x y : Node} (b : Cls × Bool) : b ∈ H.bases x.1 → Below H (b.1, baseSub x.2 b) y → Below H x y

/-- The subobjects of root classes, which contain the v-table pointers. -/
def RootOf (H : Hierarchy) (x : Node) (r : Sub) : Prop := ∃ a, Below H x (a, r) ∧ H.bases a = []

/-- The v-table pointers in a subobject designate its class. -/
def EmbedsClass (H : Hierarchy) (m : Embeds) (c : Cls) (σ : Sub) : Prop := ∀ r, RootOf H (c, σ) r → m r = some c

/-- What is expected just before a step. -/
def LifeStep.Expected (H : Hierarchy) (m : Embeds) : LifeStep → Prop
  | .ctorBody c σ | .alive c σ | .dtorBody c σ => EmbedsClass H m c σ
  | _ => True

/-- No v-table pointer belongs to two direct bases of the same subobject. This is the case if there are no virtual bases. -/
def Unshared (H : Hierarchy) (c : Cls) : Prop :=
  ∀ x, Below H (c, [c]) x → ∀ b ∈ H.bases x.1, ∀ b' ∈ H.bases x.1, ∀ r, RootOf H (b.1, baseSub x.2 b) r → RootOf H (b'.1, baseSub x.2 b') r → b = b'

end OpenMethod

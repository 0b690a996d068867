import Verif.Model.InplaceCopy
import Verif.SpecInplace

/-! # Specification of copies of objects that embed their v-table pointers -/

namespace OpenMethod

/-- What is expected just before a step of the construction of a copy: the same as in other constructors. -/
def CopyStep.Expected (H : Hierarchy) (m : Embeds) : CopyStep → Prop
  | .body c σ | .alive c σ => EmbedsClass H m c σ
  | .mixin .. => True

/-- Subobject `(c, τ)` of an object of class `D`, all the v-table pointers of which designate `D`. -/
structure CopySource (H : Hierarchy) (src : Embeds) (D c : Cls) (τ : Sub) : Prop where
  alive : EmbedsClass H src D [D]
  sub : Below H (D, [D]) (c, τ)

/-- No part of `c`, including itself, has a copy constructor that uses the default constructor of the mixin. -/
def AllCopied (H : Hierarchy) (K : Copying) (c : Cls) : Prop := ∀ y, Below H (c, [c]) y → K.fresh y.1 = false

/-- None of the root subobjects assigns its v-table pointer. -/
def RootsKeep (H : Hierarchy) (K : Copying) (c : Cls) (σ : Sub) : Prop := ∀ y, Below H (c, σ) y → H.bases y.1 = [] → K.keeps y.1 = true

end OpenMethod

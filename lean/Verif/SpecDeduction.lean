import Verif.SpecConversions
import Verif.Model.Deduction

/-!
# Specification of the virtual pointers whose type is deduced

"Constructs a `virtual_ptr` from a reference to an object, or from a smart pointer" (doc/virtual_ptr.adoc, `final`); "Construct a `virtual_ptr` from a lvalue reference", "from a xvalue reference"
(core.hpp 1788-1806).
-/

namespace OpenMethod

/-- The type of virtual pointer for an object or smart pointer. -/
def Given.held : Given → Cat → Option Held
  | .object o, c => some (.plain ⟨o, decide (c = .constLvalue ∨ c = .constRvalue)⟩)
  | .smart k e, _ => some (.smart k e)
  | _, _ => none

/-- An object that remains after the call, or a smart pointer that can be copied or moved. -/
def Given.Offered (g : Given) (c : Cat) : Prop :=
  (∃ o, g = .object o ∧ (c = .lvalue ∨ c = .constLvalue)) ∨ ∃ k e, g = .smart k e ∧ (k = .unique → c = .rvalue)

end OpenMethod

import Verif.Model.Options

/-! # What options are for -/

namespace OpenMethod.Spec

/-- An object of this class is passed. -/
def Passed (as : List OptArg) (c : OptClass) : Prop := ∃ a ∈ as, a.cls = c

instance (as : List OptArg) (c : OptClass) : Decidable (Passed as c) := inferInstanceAs (Decidable (∃ a ∈ as, a.cls = c))

/-- The setting of the trace: none is passed, or one that is on or off. -/
inductive TraceSetting (as : List OptArg) : Option Bool → Prop
  | absent (h : ¬ Passed as .trace) : TraceSetting as none
  | passed {a} (h : a ∈ as) (hc : a.cls = .trace) : TraceSetting as (some a.on)

/-- The calls that make sense: one `trace` at most, none without output policy. -/
structure Sensible (output : Bool) (as : List OptArg) : Prop where
  one : (as.filter fun a => a.cls == .trace).length ≤ 1
  output : Passed as .trace → output = true

/-- Objects that are moved from, or temporary, and not constant. -/
def Plainly (a : OptArg) : Prop := a.const = false ∧ a.lvalue = false

end OpenMethod.Spec

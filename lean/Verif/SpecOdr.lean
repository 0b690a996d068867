import Verif.Model.Odr

/-! # Specification of the detection of inconsistent definitions -/

namespace OpenMethod

/-- Two translation units define `default_registry` differently. -/
def Conflict (l : List LinkUnit) : Prop := ∃ m ∈ l, ∃ n ∈ l, ∃ a ∈ m.defs, ∃ b ∈ n.defs, a ≠ b

/-- The modules that are loaded after an operation. -/
def loadedStep (l : List LinkUnit) : LinkOp → List LinkUnit
  | .load m => l ++ [m]
  | .unload i stays => if stays then l else l.eraseIdx i

/-- The modules that are loaded after operations. -/
def loadedAfter (ops : List LinkOp) : List LinkUnit := ops.foldl loadedStep []

end OpenMethod

import Verif.Model.Dispatch

/-!
# A corrected choice of overriders

This is not the code of the library. It is what `build_dispatch_table` (initialize.hpp 1135-1290) would compute if an overrider
were removed when any candidate is more specific, including candidates that are themselves removed: see finding 2.
-/

namespace OpenMethod

/-- The candidates that no candidate dominates. The library compares with the candidates that have not been removed yet. -/
def keepBest (more : Nat → Nat → Bool) (l : List Nat) : List Nat := l.filter fun j => l.all fun i => !more i j

/-- The cell for these candidates. -/
def cellFixed (more : Nat → Nat → Bool) (l : List Nat) : Cell :=
  match l, keepBest more l with
  | [], _ => .notImplemented
  | _, [o] => .ovr o
  | _, _ => .ambiguous

/-- The candidates of a cell, in order. -/
def candidateList (mask : Mask) : List Nat := (mask.zipIdx.filter (·.1)).map (·.2)

/-- One cell. `next` is computed in the same way, from the other candidates. -/
def evalCellFixed (more : Nat → Nat → Bool) (mask : Mask) : CellResult :=
  match cellFixed more (candidateList mask) with
  | .ovr o => { cell := .ovr o, next := some (cellFixed more ((candidateList mask).filter (· ≠ o))), amb := false }
  | .notImplemented => { cell := .notImplemented, next := none, amb := false }
  | .ambiguous => { cell := .ambiguous, next := none, amb := true }

/-- As `buildMethod`. -/
def buildMethodFixed (pl : Platform) (L : Lattice) (m : Meth) : MethTable :=
  let groups := methGroups pl L m
  let rs := (cellMasks (groups.map fun gs => gs.map (·.1)).reverse (List.replicate m.overriders.length true)).map (evalCellFixed (moreAt L m.overriders))
  { groups := groups
    strides := stridesFrom 1 (groups.map List.length)
    table := rs.map (·.cell)
    next := rs.foldl storeNext (fun _ => none)
    cells := if m.vp.length > 1 then (groups.map List.length).prod else 0
    notImplemented := rs.countP (fun r => r.cell = .notImplemented)
    ambiguous := rs.countP (·.amb) }

end OpenMethod

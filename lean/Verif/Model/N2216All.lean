import Verif.Model.N2216
import Verif.Model.Corrected

/-!
# Option `n2216` with corrections

This is not the code of the library, unless both flags are false: see `C97_library`. `sel`: overriders are compared with all
candidates, also those that have been removed (see `Verif.Model.Corrected`). `stop`: the loop that compares return types stops
after it has removed candidate `i` (see `Verif.Model.N2216`).
-/

namespace OpenMethod

/-- The first elimination, if overriders are compared with all candidates. -/
def keepUndominated (more : Nat → Nat → Bool) (l : List (Option Nat)) : List (Option Nat) :=
  l.map fun o => o.bind fun j => if l.any (fun o => o.any fun i => more i j) then none else some j

/-- `select_dominant_overriders` (initialize.hpp 1419-1482) with option `n2216` and corrections. -/
def selectBy (sel stop : Bool) (more : Nat → Nat → Bool) (ret : Nat → Option Cls) (td : Cls → List Cls) (cands : List (Option Nat)) : Res Selection :=
  let l := if sel then keepUndominated more cands else eliminate more cands.length cands
  let s : Selection := { cands := l, pick := pickOf l, remaining := remainingOf l }
  if s.remaining ≤ 1 then .ok s
  else do
    let p ← Res.ofOption (l[s.pick]?.join)
    if (ret p).isNone then return s
    else do
      let l' ← if stop then eliminateRetB ret td l.length l else eliminateRet ret td l.length l
      return { cands := l', pick := if remainingOf l' = 0 then s.pick else pickOf l', remaining := remainingOf l' }

/-- As `nextOf`. If overriders are compared with all candidates, maybe none is left, which must be checked. -/
def nextOfBy (sel stop : Bool) (more : Nat → Nat → Bool) (ret : Nat → Option Cls) (td : Cls → List Cls) (overriders dominants : List (Option Nat)) :
    Res Cell := do
  let rest := withoutDominants overriders dominants
  if remainingOf rest = 0 then return .notImplemented
  else do
    let s ← selectBy sel stop more ret td rest
    if sel && decide (s.remaining = 0) then return .notImplemented
    else do
      let o ← Res.ofOption (s.cands[s.pick]?.join)
      return .ovr o

/-- As `evalCell`. -/
def evalCellBy (sel stop : Bool) (more : Nat → Nat → Bool) (ret : Nat → Option Cls) (td : Cls → List Cls) (mask : Mask) : Res CellResult := do
  let overriders := candidatesOf mask
  let s ← selectBy sel stop more ret td overriders
  if s.remaining = 0 then return { cell := .notImplemented, next := none, amb := false }
  else do
    let o ← Res.ofOption (s.cands[s.pick]?.join)
    let next ← nextOfBy sel stop more ret td overriders s.cands
    return { cell := .ovr o, next := some next, amb := decide (s.remaining > 1) }

/-- As `evalCells`. -/
def evalCellsBy (sel stop : Bool) (more : Nat → Nat → Bool) (ret : Nat → Option Cls) (td : Cls → List Cls) : List Mask → Res (List CellResult)
  | [] => .ok []
  | mask :: masks => do
    let r ← evalCellBy sel stop more ret td mask
    let rs ← evalCellsBy sel stop more ret td masks
    return r :: rs

/-- As `buildMethod`. -/
def buildMethodBy (sel stop : Bool) (pl : Platform) (L : Lattice) (m : Meth) : Res MethTable := do
  let groups := methGroups pl L m
  let dims := (groups.map fun gs => gs.map (·.1)).reverse
  let all := List.replicate m.overriders.length true
  let rs ← evalCellsBy sel stop (moreAt L m.overriders) (retAt m.overriders) L.td (cellMasks dims all)
  return {
    groups := groups
    strides := stridesFrom 1 (groups.map List.length)
    table := rs.map (·.cell)
    next := rs.foldl storeNext (fun _ => none)
    cells := if m.vp.length > 1 then (groups.map List.length).prod else 0
    notImplemented := rs.countP (fun r => r.cell = .notImplemented)
    ambiguous := rs.countP (·.amb) }

/-- As `buildMethods`. -/
def buildMethodsBy (sel stop : Bool) (pl : Platform) (L : Lattice) : List Meth → Res (List MethTable)
  | [] => .ok []
  | m :: ms => do
    let t ← buildMethodBy sel stop pl L m
    let ts ← buildMethodsBy sel stop pl L ms
    return t :: ts

end OpenMethod

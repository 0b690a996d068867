import Verif.Model.Call

/-!
# Option `n2216` with a correction

This is not the code of the library. It is what `compile` would compute with option `n2216` if the inner loop that compares
return types (initialize.hpp 1461-1474) had a `break` after `candidates[i] = nullptr`, as the loop before it has
(initialize.hpp 1433): see finding 5 and C38.
-/

namespace OpenMethod

/-- As `sweepRet`, with the `break`. -/
def sweepRetB (ret : Nat → Option Cls) (td : Cls → List Cls) (a : Nat) : List (Option Nat) → Res (Option Nat × List (Option Nat))
  | [] => .ok (some a, [])
  | none :: r => do
    let s ← sweepRetB ret td a r
    return (s.1, none :: s.2)
  | some b :: r => do
    let ri ← Res.ofOption (ret a)
    let rj ← Res.ofOption (ret b)
    if rj ∈ td ri then return (none, some b :: r)
    else if ri ∈ td rj then do
      let s ← sweepRetB ret td a r
      return (s.1, none :: s.2)
    else do
      let s ← sweepRetB ret td a r
      return (s.1, some b :: s.2)

/-- As `eliminateRet`. -/
def eliminateRetB (ret : Nat → Option Cls) (td : Cls → List Cls) : Nat → List (Option Nat) → Res (List (Option Nat))
  | n + 1, none :: r => do
    let l ← eliminateRetB ret td n r
    return none :: l
  | n + 1, some a :: r => do
    let s ← sweepRetB ret td a r
    let l ← eliminateRetB ret td n s.2
    return s.1 :: l
  | _, l => .ok l

/-- As `selectDominant`. -/
def selectDominantB (more : Nat → Nat → Bool) (ret : Nat → Option Cls) (td : Cls → List Cls) (cands : List (Option Nat)) : Res Selection :=
  let l := eliminate more cands.length cands
  let s : Selection := { cands := l, pick := pickOf l, remaining := remainingOf l }
  if s.remaining ≤ 1 then .ok s
  else do
    let p ← Res.ofOption (l[s.pick]?.join)
    if (ret p).isNone then return s
    else do
      let l' ← eliminateRetB ret td l.length l
      return { cands := l', pick := if remainingOf l' = 0 then s.pick else pickOf l', remaining := remainingOf l' }

/-- As `nextOf`. -/
def nextOfB (more : Nat → Nat → Bool) (ret : Nat → Option Cls) (td : Cls → List Cls) (overriders dominants : List (Option Nat)) : Res Cell := do
  let rest := withoutDominants overriders dominants
  if remainingOf rest = 0 then return .notImplemented
  else do
    let s ← selectDominantB more ret td rest
    let o ← Res.ofOption (s.cands[s.pick]?.join)
    return .ovr o

/-- As `evalCell`. -/
def evalCellB (more : Nat → Nat → Bool) (ret : Nat → Option Cls) (td : Cls → List Cls) (mask : Mask) : Res CellResult := do
  let overriders := candidatesOf mask
  let s ← selectDominantB more ret td overriders
  if s.remaining = 0 then return { cell := .notImplemented, next := none, amb := false }
  else do
    let o ← Res.ofOption (s.cands[s.pick]?.join)
    let next ← nextOfB more ret td overriders s.cands
    return { cell := .ovr o, next := some next, amb := decide (s.remaining > 1) }

/-- As `evalCells`. -/
def evalCellsB (more : Nat → Nat → Bool) (ret : Nat → Option Cls) (td : Cls → List Cls) : List Mask → Res (List CellResult)
  | [] => .ok []
  | mask :: masks => do
    let r ← evalCellB more ret td mask
    let rs ← evalCellsB more ret td masks
    return r :: rs

/-- As `buildMethod`. -/
def buildMethodB (pl : Platform) (L : Lattice) (m : Meth) : Res MethTable := do
  let groups := methGroups pl L m
  let dims := (groups.map fun gs => gs.map (·.1)).reverse
  let all := List.replicate m.overriders.length true
  let rs ← evalCellsB (moreAt L m.overriders) (retAt m.overriders) L.td (cellMasks dims all)
  return {
    groups := groups
    strides := stridesFrom 1 (groups.map List.length)
    table := rs.map (·.cell)
    next := rs.foldl storeNext (fun _ => none)
    cells := if m.vp.length > 1 then (groups.map List.length).prod else 0
    notImplemented := rs.countP (fun r => r.cell = .notImplemented)
    ambiguous := rs.countP (·.amb) }

/-- As `buildMethods`. -/
def buildMethodsB (pl : Platform) (L : Lattice) : List Meth → Res (List MethTable)
  | [] => .ok []
  | m :: ms => do
    let t ← buildMethodB pl L m
    let ts ← buildMethodsB pl L ms
    return t :: ts

/-- As `compile`. -/
def compileB (pl : Platform) (p : Program) : Res Compiled := do
  let L ← augmentClasses pl p.rtti p.classes
  let ms ← augment p.rtti L p.methods
  let s := assignSlots pl L (usedByVp ms)
  let vtbl ← (allWrites pl L s.slots ms).foldlM (writeEntry s.first)
    (fun c => List.replicate (s.size c) { method := 0, vp := 0, group := 0 })
  let ts ← buildMethodsB pl L ms
  return { lattice := L, meths := ms, slots := s, tables := ts, vtbl := vtbl, report := accumulate ts }

/-- As `install`. -/
def installB (pl : Platform) (p : Program) (gen : Nat) : Res (Report × Image) := do
  let c ← compileB pl p
  let img ← writeGlobal c gen
  return (c.report, img)

end OpenMethod

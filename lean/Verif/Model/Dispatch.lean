import Verif.Model.Select
import Verif.Model.Slots

/-!
# `build_dispatch_tables` and `compile` (initialize.hpp 460-469, 1011-1290)
-/

namespace OpenMethod

/-- `bitvec` used as set of overriders (initialize.hpp 136). -/
abbrev Mask := List Bool

/-- Value of a mask as a number. `std::map<bitvec, group>` orders masks of the same size by `operator<` of
`dynamic_bitset`, which compares them as numbers, bit `i` having weight `2^i`. -/
def maskVal : Mask → Nat
  | [] => 0
  | b :: l => (if b then 1 else 0) + 2 * maskVal l

/-- Overriders whose parameter `dim` accepts class `c` (initialize.hpp 1038-1053). -/
def maskOf (L : Lattice) (os : List Ovr) (dim : Nat) (c : Cls) : Mask :=
  os.map fun o =>
    match o.vp[dim]? with
    | some v => decide (c ∈ L.td v)
    | none => false -- out of bounds; excluded by `augment`, which reads the same element

/-- An element of `group_map`: the mask and the classes that have it (initialize.hpp 138-143). `has_concrete_classes` is
only used in traces, and is omitted. -/
abbrev Group := Mask × List Cls

/-- `dim_group[mask]` followed by `push_back` (initialize.hpp 1055-1056) on a map ordered by mask. -/
def insertGroup (mask : Mask) (c : Cls) : List Group → List Group
  | [] => [(mask, [c])]
  | g :: gs =>
    if g.1 = mask then (g.1, g.2 ++ [c]) :: gs
    else if maskVal mask < maskVal g.1 then (mask, [c]) :: g :: gs
    else g :: insertGroup mask c gs

/-- The groups of one dimension (initialize.hpp 1026-1062). -/
def groupsOf (pl : Platform) (L : Lattice) (os : List Ovr) (dim : Nat) (vp : Cls) : List Group :=
  (pl.iter vp (L.td vp)).foldl (fun gs c => insertGroup (maskOf L os dim c) c gs) []

/-- The groups of all dimensions of a method. -/
def methGroups (pl : Platform) (L : Lattice) (m : Meth) : List (List Group) :=
  m.vp.zipIdx.map fun vk => groupsOf pl L m.overriders vk.2 vk.1

/-- `strides` (initialize.hpp 1067-1076): `stridesFrom stride sizes` are the strides of the dimensions after the first of
`sizes`. -/
def stridesFrom : Nat → List Nat → List Nat
  | _, [] => []
  | _, [_] => []
  | stride, n :: ns => stride * n :: stridesFrom (stride * n) ns

/-- `vtbl_entry` (initialize.hpp 91-93). -/
structure Entry where
  method : Nat
  vp : Nat
  group : Nat
  deriving DecidableEq, Repr

/-- What a cell of a dispatch table designates: an overrider of the method by its index, or one of the two synthetic
overriders (initialize.hpp 161-166). -/
inductive Cell where
  | ovr (i : Nat)
  | notImplemented
  | ambiguous
  deriving DecidableEq, Repr

/-- `candidates & group_mask` (initialize.hpp 1149). -/
def maskAnd (a b : Mask) : Mask := List.zipWith (· && ·) a b

/-- The recursion of `build_dispatch_table` (initialize.hpp 1138-1283) reduced to the masks with which dimension 0 is
processed, in order. Dimensions are listed from the last (outermost loop) to the first. The case of dimension 0 (1162)
is unfolded one step further, down to no dimension at all. -/
def cellMasks : List (List Mask) → Mask → List Mask
  | [], cand => [cand]
  | dim :: dims, cand => dim.flatMap fun g => cellMasks dims (maskAnd cand g)

/-- The overriders selected by a mask (initialize.hpp 1163-1171), by index. -/
def candidatesOf (mask : Mask) : List (Option Nat) :=
  (mask.zipIdx.filter (·.1)).map fun x => some x.2

/-- What the code computes for one cell: the content of the cell, what is stored in `next` of the overrider put in the
cell (`none`: nothing is stored), and whether the ambiguity counter is incremented. -/
structure CellResult where
  cell : Cell
  next : Option Cell
  amb : Bool
  deriving DecidableEq, Repr

/-- Removal of the dominant overriders from the candidates (initialize.hpp 1224-1235). -/
def withoutDominants (overriders dominants : List (Option Nat)) : List (Option Nat) :=
  List.zipWith (fun c d => if c = d then none else c) overriders dominants

/-- The computation of `next` (initialize.hpp 1220-1273). -/
def nextOf (n2216 : Bool) (more : Nat → Nat → Bool) (ret : Nat → Option Cls) (td : Cls → List Cls)
    (overriders dominants : List (Option Nat)) : Res Cell := do
  let rest := withoutDominants overriders dominants
  if remainingOf rest = 0 then return .notImplemented
  else do
    let s ← selectDominant n2216 more ret td rest
    if !n2216 && decide (s.remaining > 1) then return .ambiguous
    else do
      let o ← Res.ofOption (s.cands[s.pick]?.join)
      return .ovr o

/-- The processing of one cell (initialize.hpp 1162-1274). Reading `candidates[pick]` when it is null or absent is
undefined behaviour. -/
def evalCell (n2216 : Bool) (more : Nat → Nat → Bool) (ret : Nat → Option Cls) (td : Cls → List Cls) (mask : Mask) :
    Res CellResult := do
  let overriders := candidatesOf mask
  let s ← selectDominant n2216 more ret td overriders
  if s.remaining = 0 then return { cell := .notImplemented, next := none, amb := false }
  else if !n2216 && decide (s.remaining > 1) then return { cell := .ambiguous, next := none, amb := true }
  else do
    let o ← Res.ofOption (s.cands[s.pick]?.join)
    let next ← nextOf n2216 more ret td overriders s.cands
    return { cell := .ovr o, next := some next, amb := decide (s.remaining > 1) }

/-- All cells of a method. -/
def evalCells (n2216 : Bool) (more : Nat → Nat → Bool) (ret : Nat → Option Cls) (td : Cls → List Cls) :
    List Mask → Res (List CellResult)
  | [] => .ok []
  | mask :: masks => do
    let r ← evalCell n2216 more ret td mask
    let rs ← evalCells n2216 more ret td masks
    return r :: rs

/-- `is_more_specific` on the overriders of a method, designated by index. -/
def moreAt (L : Lattice) (os : List Ovr) (i j : Nat) : Bool :=
  match os[i]?, os[j]? with
  | some a, some b => isMoreSpecific L.td a.vp b.vp
  | _, _ => false

/-- `covariant_return_type` of an overrider designated by index. -/
def retAt (os : List Ovr) (i : Nat) : Option Cls :=
  match os[i]? with
  | some a => a.ret
  | none => none

/-- What `build_dispatch_tables` computes for a method: `dispatch_table`, `next` of each overrider, `strides`, `report`
(initialize.hpp 155-172). -/
structure MethTable where
  groups : List (List Group)
  strides : List Nat
  table : List Cell
  next : Nat → Option Cell
  cells : Nat
  notImplemented : Nat
  ambiguous : Nat

/-- The stores in `overrider->next` (initialize.hpp 1238, 1257, 1264), in the order of the cells: the last one remains. -/
def storeNext (next : Nat → Option Cell) (r : CellResult) : Nat → Option Cell :=
  match r.cell, r.next with
  | .ovr o, some c => Function.update next o (some c)
  | _, _ => next

/-- The part of `build_dispatch_tables` that concerns one method, except v-table entries (initialize.hpp 1014-1132).
Simplification: the loop over cells is split in the evaluation of the cells, which depends on nothing computed in
the loop, and the accumulation of the results. -/
def buildMethod (pl : Platform) (n2216 : Bool) (L : Lattice) (m : Meth) : Res MethTable := do
  let groups := methGroups pl L m
  let dims := (groups.map fun gs => gs.map (·.1)).reverse
  let all := List.replicate m.overriders.length true
  let rs ← evalCells n2216 (moreAt L m.overriders) (retAt m.overriders) L.td (cellMasks dims all)
  return {
    groups := groups
    strides := stridesFrom 1 (groups.map List.length)
    table := rs.map (·.cell)
    next := rs.foldl storeNext (fun _ => none)
    cells := if m.vp.length > 1 then (groups.map List.length).prod else 0
    notImplemented := rs.countP (fun r => r.cell = .notImplemented)
    ambiguous := rs.countP (·.amb) }

def buildMethods (pl : Platform) (n2216 : Bool) (L : Lattice) : List Meth → Res (List MethTable)
  | [] => .ok []
  | m :: ms => do
    let t ← buildMethod pl n2216 L m
    let ts ← buildMethods pl n2216 L ms
    return t :: ts

/-- The stores in v-tables for one method (initialize.hpp 1078-1098): class, slot, entry, in order. -/
def entryWrites (slots : Nat × Nat → Nat) (mi : Nat) (groups : List (List Group)) : List (Cls × Nat × Entry) :=
  groups.zipIdx.flatMap fun gk =>
    gk.1.zipIdx.flatMap fun gn =>
      gn.1.2.map fun c => (c, slots (mi, gk.2), { method := mi, vp := gk.2, group := gn.2 })

/-- A store in a v-table (initialize.hpp 1089-1092): the index is the slot minus `first_slot`, unchecked. -/
def writeEntry (first : Cls → Nat) (vtbl : Cls → List Entry) (w : Cls × Nat × Entry) : Res (Cls → List Entry) :=
  if first w.1 ≤ w.2.1 ∧ w.2.1 - first w.1 < (vtbl w.1).length then
    .ok (Function.update vtbl w.1 ((vtbl w.1).set (w.2.1 - first w.1) w.2.2))
  else .ub

/-- All stores in v-tables. Simplification: the code interleaves them with the construction of the tables, method by
method; they are independent. -/
def allWrites (pl : Platform) (L : Lattice) (slots : Nat × Nat → Nat) (ms : List Meth) : List (Cls × Nat × Entry) :=
  ms.zipIdx.flatMap fun mi => entryWrites slots mi.2 (methGroups pl L mi.1)

/-- `report` (initialize.hpp 145-153, 1285-1290): total number of cells, number of methods that have at least one
unimplemented, respectively ambiguous, cell. -/
structure Report where
  cells : Nat
  notImplemented : Nat
  ambiguous : Nat
  deriving DecidableEq, Repr

/-- `accumulate` over all methods (initialize.hpp 1131, 1285-1290). -/
def accumulate (ts : List MethTable) : Report where
  cells := (ts.map (·.cells)).sum
  notImplemented := ts.countP (fun t => t.notImplemented ≠ 0)
  ambiguous := ts.countP (fun t => t.ambiguous ≠ 0)

/-- Everything `compile` produces. -/
structure Compiled where
  lattice : Lattice
  meths : List Meth
  slots : SlotState
  tables : List MethTable
  vtbl : Cls → List Entry
  report : Report

/-- `compile` (initialize.hpp 460-469). -/
def compile (pl : Platform) (n2216 : Bool) (p : Program) : Res Compiled := do
  let L ← augmentClasses pl p.rtti p.classes
  let ms ← augment p.rtti L p.methods
  let s := assignSlots pl L (usedByVp ms)
  let vtbl ← (allWrites pl L s.slots ms).foldlM (writeEntry s.first)
    (fun c => List.replicate (s.size c) { method := 0, vp := 0, group := 0 })
  let ts ← buildMethods pl n2216 L ms
  return { lattice := L, meths := ms, slots := s, tables := ts, vtbl := vtbl, report := accumulate ts }

end OpenMethod

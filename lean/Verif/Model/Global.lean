import Verif.Model.Dispatch

/-!
# `write_global_data` (initialize.hpp 1294-1415): dispatch data as words
-/

namespace OpenMethod

/-- A pointer to a word of some dispatch data: the vector it was computed from (each `initialize` allocates a new one,
numbered by `gen`) and an offset, which can lie outside the vector. -/
structure Ptr where
  gen : Nat
  off : Int
  deriving DecidableEq, Repr

/-- Pointer arithmetic. -/
def Ptr.add (p : Ptr) (n : Nat) : Ptr := { p with off := p.off + n }

/-- `detail::word` (preamble.hpp 23-36). `addr` is the result of `std::uintptr_t(pointer)` (initialize.hpp 1404): it is
stored as an integer and read as a pointer (core.hpp 2524), which all supported compilers accept for a union. -/
inductive Word where
  | pf (f : Pf)
  | idx (n : Nat)
  | addr (p : Ptr)
  deriving DecidableEq, Repr

/-- Function pointer of a cell (initialize.hpp 759-763, 803, 1339). -/
def pfOf (m : Meth) : Cell → Option Pf
  | .ovr i => (m.overriders[i]?).map fun o => .user o.info.pf
  | .notImplemented => some (.notImplemented m.info.id)
  | .ambiguous => some (.ambiguous m.info.id)

/-- `*gv_iter++ = w` in a vector of `cap` words: the written words are always a prefix of the vector, represented by the
list `mem`; the words after it are not initialised. Writing past the end is undefined behaviour. -/
def emit (cap : Nat) (mem : List Word) (w : Word) : Res (List Word) :=
  if mem.length < cap then .ok (mem ++ [w]) else .ub

/-- Size of the vector (initialize.hpp 1298-1307): all dispatch tables, including those of uni-methods, and all v-tables. -/
def dataSize (c : Compiled) : Nat :=
  (c.tables.map (·.table.length)).sum + (c.lattice.order.map fun x => (c.vtbl x).length).sum

/-- One iteration of the first loop (initialize.hpp 1316-1341): multi-methods write their table and remember where it
begins (`gv_dispatch_table`, null for uni-methods). -/
def writeTable (cap : Nat) (s : List Word × List (Option Nat)) (mt : Meth × MethTable) :
    Res (List Word × List (Option Nat)) :=
  if mt.1.vp.length = 1 then .ok (s.1, s.2 ++ [none])
  else do
    let mem ← mt.2.table.foldlM (fun mem cell => do
      let f ← Res.ofOption (pfOf mt.1 cell)
      emit cap mem (.pf f)) s.1
    return (mem, s.2 ++ [some s.1.length])

/-- The word for a v-table entry (initialize.hpp 1382-1408). -/
def entryWord (c : Compiled) (gen : Nat) (bases : List (Option Nat)) (e : Entry) : Res Word := do
  let m ← Res.ofOption c.meths[e.method]?
  let t ← Res.ofOption c.tables[e.method]?
  if m.vp.length = 1 then do
    let cell ← Res.ofOption t.table[e.group]?
    let f ← Res.ofOption (pfOf m cell)
    return .pf f
  else if e.vp = 0 then do
    let base ← Res.ofOption (bases[e.method]?).join
    return .addr { gen := gen, off := (base + e.group : Nat) }
  else return .idx e.group

/-- One iteration of the loop over classes (initialize.hpp 1371-1411): the offset stored in `*cls.static_vptr`, and the
words of the v-table. -/
def writeVtbl (c : Compiled) (gen cap : Nat) (bases : List (Option Nat)) (s : List Word × (Cls → Int)) (x : Cls) :
    Res (List Word × (Cls → Int)) := do
  let vptrs := Function.update s.2 x ((s.1.length : Int) - c.slots.first x)
  let mem ← (c.vtbl x).foldlM (fun mem e => do
    let w ← entryWord c gen bases e
    emit cap mem w) s.1
  return (mem, vptrs)

/-- What `write_global_data` writes, before it calls the vptr policy and swaps the vectors. -/
structure Image where
  /-- words of the new vector -/
  data : List Word
  /-- offset stored in the `static_vptr` of each class -/
  vptr : Cls → Int
  /-- stores in the `slots_strides` arrays (initialize.hpp 1317-1322), by method identity -/
  slotsStrides : List (Nat × List Nat)
  /-- stores in the `next` variables (initialize.hpp 1348-1366) -/
  next : List (VarId × Pf)

/-- The stores in `slots_strides` (initialize.hpp 1316-1322). -/
def slotsStridesOf (c : Compiled) : List (Nat × List Nat) :=
  (c.meths.zip c.tables).zipIdx.map fun x =>
    (x.1.1.info.id, ((List.range x.1.1.vp.length).map fun k => c.slots.slots (x.2, k)) ++ x.1.2.strides)

/-- The stores in `next` for one method (initialize.hpp 1352-1365): nothing is stored when `overrider.next` is null. -/
def nextStores (m : Meth) (t : MethTable) : List (VarId × Pf) :=
  m.overriders.zipIdx.filterMap fun x =>
    match t.next x.2 with
    | some cell => (pfOf m cell).map fun f => (x.1.info.next, f)
    | none => none

/-- `write_global_data` (initialize.hpp 1294-1411). `gen` identifies the new vector. -/
def writeGlobal (c : Compiled) (gen : Nat) : Res Image := do
  let cap := dataSize c
  let s ← (c.meths.zip c.tables).foldlM (writeTable cap) ([], [])
  let v ← c.lattice.order.foldlM (writeVtbl c gen cap s.2) (s.1, fun _ => 0)
  return {
    data := v.1
    vptr := v.2
    slotsStrides := slotsStridesOf c
    next := (c.meths.zip c.tables).flatMap fun mt => nextStores mt.1 mt.2 }

end OpenMethod

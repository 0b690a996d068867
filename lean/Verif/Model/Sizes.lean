import Verif.Model.Call

/-!
# Sizes and indexes as `std::size_t`

The other modules compute sizes, strides and indexes as natural numbers. Here they are computed modulo `B`, the number of
values of `std::size_t`, as the code does, and displacements of pointers that leave the vector are undefined behaviour.
Slots are not computed modulo `B`: `C87_stored` bounds them.
-/

namespace OpenMethod

/-- `strides` (initialize.hpp 1064-1073); see `stridesFrom`. -/
def stridesW (B : Nat) : Nat → List Nat → List Nat
  | _, [] => []
  | _, [_] => []
  | stride, n :: ns => stride * n % B :: stridesW B (stride * n % B) ns

/-- `report.cells` of a method (initialize.hpp 1106-1112). -/
def cellsW (B : Nat) (ns : List Nat) : Nat := ns.foldl (fun cells n => cells * n % B) 1

/-- See `buildMethod`: strides and counters are computed modulo `B`. -/
def buildMethodW (B : Nat) (pl : Platform) (n2216 : Bool) (L : Lattice) (m : Meth) : Res MethTable := do
  let t ← buildMethod pl n2216 L m
  return { t with
    strides := stridesW B 1 (t.groups.map List.length)
    cells := if m.vp.length > 1 then cellsW B (t.groups.map List.length) else 0
    notImplemented := t.notImplemented % B
    ambiguous := t.ambiguous % B }

def buildMethodsW (B : Nat) (pl : Platform) (n2216 : Bool) (L : Lattice) : List Meth → Res (List MethTable)
  | [] => .ok []
  | m :: ms => do
    let t ← buildMethodW B pl n2216 L m
    let ts ← buildMethodsW B pl n2216 L ms
    return t :: ts

/-- `accumulate` (initialize.hpp 1285-1290): the counters of methods are incremented by 0 or 1. -/
def accumulateW (B : Nat) (ts : List MethTable) : Report where
  cells := ts.foldl (fun n t => (n + t.cells) % B) 0
  notImplemented := ts.foldl (fun n t => (n + if t.notImplemented ≠ 0 then 1 else 0) % B) 0
  ambiguous := ts.foldl (fun n t => (n + if t.ambiguous ≠ 0 then 1 else 0) % B) 0

/-- The index of a group (initialize.hpp 1077, 1092, 1095) modulo `B`. -/
def Entry.wrap (B : Nat) (w : Cls × Nat × Entry) : Cls × Nat × Entry := (w.1, w.2.1, { w.2.2 with group := w.2.2.group % B })

/-- See `compile`. -/
def compileW (B : Nat) (pl : Platform) (n2216 : Bool) (p : Program) : Res Compiled := do
  let L ← augmentClasses pl p.rtti p.classes
  let ms ← augment p.rtti L p.methods
  let s := assignSlots pl L (usedByVp ms)
  let vtbl ← ((allWrites pl L s.slots ms).map (Entry.wrap B)).foldlM (writeEntry s.first)
    (fun c => List.replicate (s.size c) { method := 0, vp := 0, group := 0 })
  let ts ← buildMethodsW B pl n2216 L ms
  return { lattice := L, meths := ms, slots := s, tables := ts, vtbl := vtbl, report := accumulateW B ts }

/-- `dispatch_data_size` (initialize.hpp 1298-1306). -/
def dataSizeW (B : Nat) (c : Compiled) : Nat :=
  c.lattice.order.foldl (fun n x => (n + (c.vtbl x).length) % B) (c.tables.foldl (fun n t => (n + t.table.length) % B) 0)

/-- See `writeGlobal`. -/
def writeGlobalW (B : Nat) (c : Compiled) (gen : Nat) : Res Image := do
  let cap := dataSizeW B c
  let s ← (c.meths.zip c.tables).foldlM (writeTable cap) ([], [])
  let v ← c.lattice.order.foldlM (writeVtbl c gen cap s.2) (s.1, fun _ => 0)
  return {
    data := v.1
    vptr := v.2
    slotsStrides := slotsStridesOf c
    next := (c.meths.zip c.tables).flatMap fun mt => nextStores mt.1 mt.2 }

/-- See `install`. -/
def installW (B : Nat) (pl : Platform) (n2216 : Bool) (p : Program) (gen : Nat) : Res (Report × Image) := do
  let c ← compileW B pl n2216 p
  let img ← writeGlobalW B c gen
  return (c.report, img)

/-- `dispatch + n` (core.hpp 2549): the result must be in the vector, of `len` words, or at its end. -/
def Ptr.addIn (len : Nat) (p : Ptr) (n : Nat) : Res Ptr :=
  if 0 ≤ p.off ∧ p.off + n ≤ len then .ok (p.add n) else .ub

/-- See `nextDispatch`. -/
def nextDispatchW (B len : Nat) (rd : Ptr → Res Word) (ss : List Nat) (arity va : Nat) (dispatch : Ptr) (virt : Bool) (a : Res Ptr) :
    Res Ptr :=
  if virt then do
    let vtbl ← a
    let slot ← Res.ofOption ss[va]?
    let stride ← Res.ofOption ss[arity + va - 1]?
    let w ← rd (vtbl.add slot)
    let i ← w.asIdx
    dispatch.addIn len (i * stride % B)
  else .ok dispatch

/-- See `resolveMultiNext`. -/
def resolveMultiNextW (B len : Nat) (rd : Ptr → Res Word) (ss : List Nat) (arity : Nat) :
    Nat → Ptr → List Bool → List (Res Ptr) → Res Word
  | va, dispatch, k :: ks, a :: as => do
    let dispatch ← nextDispatchW B len rd ss arity va dispatch k a
    if va + 1 = arity then rd dispatch
    else resolveMultiNextW B len rd ss arity (va + 1) dispatch ks as
  | _, _, _, _ => .ub

/-- See `resolveMultiFirst`. -/
def resolveMultiFirstW (B len : Nat) (rd : Ptr → Res Word) (ss : List Nat) (arity : Nat) : List Bool → List (Res Ptr) → Res Word
  | true :: ks, a :: as => do
    let vtbl ← a
    let slot ← Res.ofOption ss[0]?
    let w ← rd (vtbl.add slot)
    let dispatch ← w.asPtr
    resolveMultiNextW B len rd ss arity 1 dispatch ks as
  | false :: ks, _ :: as => resolveMultiFirstW B len rd ss arity ks as
  | _, _ => .ub

/-- See `callMethod`. -/
def callMethodW (B gen : Nat) (img : Image) (m : MethodInfo) (args : List (Res Ptr)) (types : List TypeId) : Res Nat := do
  let ss ← Res.ofOption (slotsStridesAt img m.id)
  let w ← if m.arity = 1 then resolveUni (readWord gen img.data) ss m.params args
    else resolveMultiFirstW B img.data.length (readWord gen img.data) ss m.arity m.params args
  let f ← w.asPf
  enter f types

end OpenMethod

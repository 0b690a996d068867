import Verif.Model.Methods

/-!
# Slot allocation (initialize.hpp 62-80, 863-1007)
-/

namespace OpenMethod

/-- `boost::dynamic_bitset<>`: bit `i` is element `i`; the size is the length. -/
abbrev Bits := List Bool

/-- Value of a bit; positions past the end are not set. -/
def Bits.test (b : Bits) (i : Nat) : Bool := b[i]?.getD false

/-- `merge_into(a, b)` (initialize.hpp 62-72): the new value of `b`. -/
def mergeInto (a b : Bits) : Bits :=
  (List.range (max a.length b.length)).map fun i => a.test i || b.test i

/-- `set_bit(mask, bit)` (initialize.hpp 74-80): the new value of `mask`. -/
def setBit (mask : Bits) (bit : Nat) : Bits :=
  (List.range (max mask.length (bit + 1))).map fun i => mask.test i || decide (i = bit)

/-- First bit that is not set, or the size (initialize.hpp 956-962). -/
def firstClear : Bits → Nat
  | [] => 0
  | false :: _ => 0
  | true :: l => firstClear l + 1

/-- `find_first` with `npos` replaced by 0 (initialize.hpp 896-898). -/
def firstSet : Bits → Nat
  | [] => 0
  | true :: _ => 0
  | false :: l => if true ∈ l then firstSet l + 1 else 0

/-- What slot allocation computes: `used_slots`, `reserved_slots`, `first_slot` and the size of `vtbl` of each class
(initialize.hpp 103-108), `mark` as the list of marked classes, and `slots` of each method (164), indexed by method and
parameter. Simplification: `slots` is a total function instead of a vector sized to the arity (723); it is only written
at existing parameters. -/
structure SlotState where
  used : Cls → Bits
  reserved : Cls → Bits
  first : Cls → Nat
  size : Cls → Nat
  marked : List Cls
  slots : Nat × Nat → Nat

def SlotState.init : SlotState where
  used _ := []
  reserved _ := []
  first _ := 0
  size _ := 0
  marked := []
  slots _ := 0

/-- The loop over `used_by_vp` of `assign_tree_slots` (initialize.hpp 916-921): consecutive slots from `next`. -/
def numberSlots (slots : Nat × Nat → Nat) : Nat → List (Nat × Nat) → (Nat × Nat → Nat)
  | _, [] => slots
  | next, mp :: mps => numberSlots (Function.update slots mp next) (next + 1) mps

/-- `assign_tree_slots` (initialize.hpp 911-929). `fuel` bounds the depth of the recursion. -/
def assignTree (L : Lattice) (usedBy : Cls → List (Nat × Nat)) : Nat → SlotState → Cls → Nat → SlotState
  | 0, s, _, _ => s
  | fuel + 1, s, c, base =>
    let next := base + (usedBy c).length
    (L.dd c).foldl (fun s d => assignTree L usedBy fuel s d next)
      { s with
        slots := numberSlots s.slots base (usedBy c)
        first := Function.update s.first c 0
        size := Function.update s.size c next }

/-- `merge_into(from, base->reserved_slots)` for all classes of a list (initialize.hpp 972-975, 989-993). -/
def reserveIn (from_ : Bits) (reserved : Cls → Bits) (bases : List Cls) : Cls → Bits :=
  bases.foldl (fun r b => Function.update r b (mergeInto from_ (r b))) reserved

/-- Body of the loop over the covariant classes (initialize.hpp 982-995). -/
def assignCovariant (L : Lattice) (c : Cls) (s : SlotState) (cov : Cls) : SlotState :=
  if cov ≠ c then
    { s with
      used := Function.update s.used cov (mergeInto (s.used c) (s.used cov))
      reserved := reserveIn (s.used c) s.reserved (L.tb cov) }
  else s

/-- Body of the loop over `used_by_vp` in `assign_lattice_slots` (initialize.hpp 944-999). -/
def assignParam (pl : Platform) (L : Lattice) (c : Cls) (s : SlotState) (mp : Nat × Nat) : SlotState :=
  let slot := firstClear (mergeInto (s.reserved c) (s.used c))
  let s := { s with
    slots := Function.update s.slots mp slot
    used := Function.update s.used c (setBit (s.used c) slot)
    reserved := Function.update s.reserved c (setBit (s.reserved c) slot) }
  let s := { s with reserved := reserveIn (s.used c) s.reserved (L.tb c) }
  (pl.iter c (L.td c)).foldl (assignCovariant L c) s

/-- `assign_lattice_slots` (initialize.hpp 933-1007). `fuel` bounds the depth of the recursion. -/
def assignLattice (pl : Platform) (L : Lattice) (usedBy : Cls → List (Nat × Nat)) : Nat → SlotState → Cls → SlotState
  | 0, s, _ => s
  | fuel + 1, s, c =>
    if c ∈ s.marked then s
    else
      (L.dd c).foldl (assignLattice pl L usedBy fuel)
        ((usedBy c).foldl (assignParam pl L c) { s with marked := s.marked ++ [c] })

/-- Body of the first loop of `assign_slots` (initialize.hpp 871-884). -/
def assignRoot (pl : Platform) (L : Lattice) (usedBy : Cls → List (Nat × Nat)) (s : SlotState) (c : Cls) : SlotState :=
  if (L.db c).length = 0 then
    if (L.td c).any (fun x => (L.db x).length > 1) then assignLattice pl L usedBy (L.order.length + 1) s c
    else assignTree L usedBy (L.order.length + 1) s c 0
  else s

/-- Body of the second loop of `assign_slots` (initialize.hpp 892-905). -/
def sizeVtbl (s : SlotState) (c : Cls) : SlotState :=
  if (s.used c).length = 0 then s
  else
    { s with
      first := Function.update s.first c (firstSet (s.used c))
      size := Function.update s.size c ((s.used c).length - firstSet (s.used c)) }

/-- `assign_slots` (initialize.hpp 863-907). -/
def assignSlots (pl : Platform) (L : Lattice) (usedBy : Cls → List (Nat × Nat)) : SlotState :=
  L.order.foldl sizeVtbl (L.order.foldl (assignRoot pl L usedBy) SlotState.init)

end OpenMethod

import Verif.Model.Registry

/-!
# Tracing (preamble.hpp 413-453, initialize.hpp 200-388, 447-1415, 1530-1543, fast_perfect_hash.hpp 166-247)

The functions that `initialize` calls are transcribed again, with the statements that write the trace in their places. Loops that the other modules split are not split here.

Strings are kept; names of types, addresses and numbers are represented by what they stand for (`Verif.Model.Output` is about the characters). Methods and overriders are named by the types that their
records contain; here, by their identities.

`trace_stream::indent` adds 2 to the level when it is created and subtracts it at the end of its block, also when an exception leaves it: `indented` is such a block.
-/

namespace OpenMethod

/-- `trace::from_env` (preamble.hpp 449-452). The variable, if it is set, is a string of characters other than zero, followed by zero; `*env++` reads it character by character. -/
def fromEnv : Option (List Char) → Bool
  | none => false
  | some [] => false
  | some (c :: cs) =>
    c == '1' &&
    match cs with
    | [] => true
    | _ :: _ => false

/-- `trace::from_env` with the Microsoft library (preamble.hpp 442-448): `_dupenv_s` sets `len` to the number of characters including the final zero, and `env` to null if the variable is not set. -/
def fromEnvMsvc : Option (List Char) → Bool
  | none => false
  | some s => s.length + 1 == 2 && s.head? == some '1'

/-- What is written. -/
inductive Tok where
  /-- `++tr`: the indentation -/
  | indent (level : Nat)
  | str (s : String)
  /-- name of a type -/
  | type (t : TypeId)
  /-- name of the type of a method -/
  | method (id : Nat)
  /-- name of the type of an overrider -/
  | overrider (pf : Nat)
  | num (n : Nat)
  /-- `rflush` -/
  | padded (width n : Nat)
  | bits (b : List Bool)
  /-- the address of an object or function -/
  | addr
  deriving DecidableEq, Repr

/-- Code that writes a trace. It depends on the `trace` object that is passed to `initialize`, if any (`some on`), and on the level of indentation. What was written remains if an error is reported. -/
def T (α : Type) : Type := Option Bool → Nat → List Tok × Res α

namespace T

variable {α β : Type}

def bind (x : T α) (f : α → T β) : T β := fun o l =>
  match x o l with
  | (w, .ok a) => (w ++ (f a o l).1, (f a o l).2)
  | (w, .err e) => (w, .err e)
  | (w, .ub) => (w, .ub)

instance : Monad T where
  pure a := fun _ _ => ([], .ok a)
  bind := bind

/-- Code without trace. -/
def lift (r : Res α) : T α := fun _ _ => ([], r)

/-- `tr << …` (initialize.hpp 321-329) -/
def say (ts : List Tok) : T Unit := fun o _ => (if o = some true then ts else [], .ok ())

/-- `++tr` (initialize.hpp 206-216) -/
def start : T Unit := fun o l => (if o = some true then [.indent l] else [], .ok ())

/-- `++tr << …` -/
def line (ts : List Tok) : T Unit := do
  start
  say ts

/-- `Registry::output::os << …`, in `if constexpr (has_trace)` -/
def direct (ts : List Tok) : T Unit := fun o _ => (if o.isSome then ts else [], .ok ())

/-- `if constexpr (has_trace)` -/
def ifTrace (x : T Unit) : T Unit := fun o l => if o.isSome then x o l else ([], .ok ())

/-- A block that begins with `indent _(tr)`. -/
def indented (x : T α) : T α := fun o l => x o (l + 2)

/-- A loop. -/
def each (f : α → T Unit) : List α → T Unit
  | [] => pure ()
  | a :: as => do
    f a
    each f as

/-- A loop with variables. -/
def fold (f : β → α → T β) : β → List α → T β
  | b, [] => pure b
  | b, a :: as => do
    let b ← f b a
    fold f b as

end T

open T

/-- Lists in parentheses (initialize.hpp 256-274, 304-319). -/
def sepBy (write : α → T Unit) (l : List α) : T Unit := do
  say [.str "("]
  let _ ← fold (fun sep x => do say [.str sep]; write x; pure ", ") "" l
  say [.str ")"]

/-- `tr << cls` (initialize.hpp 247-254) -/
def sayClass (L : Lattice) (c : Cls) : T Unit :=
  ifTrace do
    let t ← lift (Res.ofOption (L.typeIds c)[0]?)
    say [.type t]

/-- `tr << range{…}` of type ids (initialize.hpp 371-375) -/
def sayTypes (l : List TypeId) : T Unit := sepBy (fun t => say [.type t]) l

/-! ## Classes and methods -/

/-- `augment_classes` (initialize.hpp 535-673). Simplification: the records of classes are traced before the first of them is processed; nothing can fail in between. -/
def augmentClassesT (pl : Platform) (r : Rtti) (classes : List ClassInfo) : T Lattice := do
  line [.str "Static class info:\n"]
  each (fun cr => indented do
    line [.type cr.type, .str ": "]
    sayTypes cr.bases
    say [.str "\n"]) classes
  let L ← lift (augmentClasses pl r classes)
  ifTrace do
    line [.str "Inheritance lattice:\n"]
    each (fun c => indented do
      start
      sayClass L c
      say [.str "\n"]
      indented do
        line [.str "bases:      "]
        sepBy (sayClass L) (L.db c)
        say [.str "\n"]
        line [.str "derived:    "]
        sepBy (sayClass L) (L.dd c)
        say [.str "\n"]
        line [.str "covariant:  "]
        sepBy (sayClass L) (pl.iter c (L.td c))
        say [.str "\n"]) L.order
  pure L

/-- The loops that fill `vp` (initialize.hpp 726-743, 784-805); `unknown` is what is traced before the error. `param_index` is never incremented. -/
def findClassesT (r : Rtti) (L : Lattice) (unknown : TypeId → T Unit) : List TypeId → T (List Cls)
  | [] => pure []
  | t :: ts => do
    if r.ti t ∉ L.order then unknown t
    let c ← lift (findClass r L t)
    let cs ← findClassesT r L unknown ts
    pure (c :: cs)

/-- initialize.hpp 731-732 -/
def unknownParam (t : TypeId) : T Unit := line [.str "unknown class ", .addr, .str "(", .type t, .str ") for parameter #", .num 1, .str "\n"]

/-- initialize.hpp 789-794 -/
def unknownOverriderParam (_ : TypeId) : T Unit :=
  indented do line [.str "unknown class error for *virtual* parameter #", .num 1, .str "\n"]

/-- One iteration of the overrider loop (initialize.hpp 772-828). -/
def augmentOverriderT (r : Rtti) (L : Lattice) (mret : Option Cls) (o : OverriderInfo) : T Ovr := do
  line [.overrider o.pf, .str " (", .addr, .str ")\n"]
  let vp ← findClassesT r L unknownOverriderParam o.vp
  match mret with
  | none => pure { info := o, vp := vp, ret := none }
  | some _ => do
    let c ← lift (findClass r L o.ret)
    pure { info := o, vp := vp, ret := some c }

def augmentOverridersT (r : Rtti) (L : Lattice) (mret : Option Cls) : List OverriderInfo → T (List Ovr)
  | [] => pure []
  | o :: os => do
    let o' ← augmentOverriderT r L mret o
    let os' ← augmentOverridersT r L mret os
    pure (o' :: os')

/-- One iteration of the first loop of `augment_methods` (initialize.hpp 711-832). -/
def augmentMethodT (r : Rtti) (L : Lattice) (m : MethodInfo) : T Meth := do
  line [.method m.id, .str " "]
  sayTypes m.vp
  say [.str "\n"]
  indented do
    let vp ← findClassesT r L unknownParam m.vp
    let ret := methodRet r L m.ret
    let os ← augmentOverridersT r L ret m.overriders
    pure { info := m, vp := vp, ret := ret, overriders := os }

def augmentMethodsT (r : Rtti) (L : Lattice) : List MethodInfo → T (List Meth)
  | [] => pure []
  | m :: ms => do
    let m' ← augmentMethodT r L m
    let ms' ← augmentMethodsT r L ms
    pure (m' :: ms')

/-- `augment_methods` (initialize.hpp 700-859). -/
def augmentT (r : Rtti) (L : Lattice) (ms : List MethodInfo) : T (List Meth) := do
  line [.str "Methods:\n"]
  indented do
    let ms ← augmentMethodsT r L ms
    lift (checkMethods L ms)
    pure ms

/-! ## Slots -/

/-- `++tr << " in " << cls << " for " << type_name(mp.method->info->method_type_id) << " parameter " << mp.param` (initialize.hpp 917-919, 945-947) -/
def sayParam (L : Lattice) (ms : List Meth) (c : Cls) (mp : Nat × Nat) : T Unit := do
  line [.str " in "]
  sayClass L c
  let m ← lift (Res.ofOption ms[mp.1]?)
  say [.str " for ", .method m.info.id, .str " parameter ", .num mp.2]

/-- The loop over `used_by_vp` of `assign_tree_slots` (initialize.hpp 916-921). -/
def numberSlotsT (L : Lattice) (ms : List Meth) (c : Cls) (slots : Nat × Nat → Nat) : Nat → List (Nat × Nat) → T (Nat × Nat → Nat)
  | _, [] => pure slots
  | next, mp :: mps => do
    sayParam L ms c mp
    say [.str ": ", .num next, .str "\n"]
    numberSlotsT L ms c (Function.update slots mp next) (next + 1) mps

/-- `assign_tree_slots` (initialize.hpp 911-929). -/
def assignTreeT (L : Lattice) (ms : List Meth) : Nat → SlotState → Cls → Nat → T SlotState
  | 0, s, _, _ => pure s
  | fuel + 1, s, c, base => do
    let slots ← numberSlotsT L ms c s.slots base (usedByVp ms c)
    let next := base + (usedByVp ms c).length
    fold (fun s d => assignTreeT L ms fuel s d next)
      { s with
        slots := slots
        first := Function.update s.first c 0
        size := Function.update s.size c next } (L.dd c)

/-- `++tr << *base << "\n"` -/
def classLine (L : Lattice) (c : Cls) : T Unit := do
  start
  sayClass L c
  say [.str "\n"]

/-- The loops over `transitive_bases` (initialize.hpp 977-980, 993-997). -/
def reserveInT (L : Lattice) (from_ : Bits) (reserved : Cls → Bits) (bases : List Cls) : T (Cls → Bits) :=
  fold (fun r b => do
    classLine L b
    pure (Function.update r b (mergeInto from_ (r b)))) reserved bases

/-- Body of the loop over the covariant classes (initialize.hpp 987-999). -/
def assignCovariantT (L : Lattice) (c : Cls) (s : SlotState) (cov : Cls) : T SlotState :=
  if cov ≠ c then do
    classLine L cov
    let used := Function.update s.used cov (mergeInto (s.used c) (s.used cov))
    let reserved ← reserveInT L (s.used c) s.reserved (L.tb cov)
    pure { s with used := used, reserved := reserved }
  else pure s

/-- Body of the loop over `used_by_vp` in `assign_lattice_slots` (initialize.hpp 944-1001). -/
def assignParamT (pl : Platform) (L : Lattice) (ms : List Meth) (c : Cls) (s : SlotState) (mp : Nat × Nat) : T SlotState := do
  sayParam L ms c mp
  say [.str "\n"]
  indented do
    line [.str "reserved slots: ", .bits (s.reserved c), .str " used slots: ", .bits (s.used c), .str "\n"]
    let unavailable := mergeInto (s.reserved c) (s.used c)
    line [.str "unavailable slots: ", .bits unavailable, .str "\n"]
    let slot := firstClear unavailable
    line [.str "first available slot: ", .num slot, .str "\n"]
    let s := { s with
      slots := Function.update s.slots mp slot
      used := Function.update s.used c (setBit (s.used c) slot)
      reserved := Function.update s.reserved c (setBit (s.reserved c) slot) }
    line [.str "reserve slots ", .bits (s.used c), .str " in:\n"]
    let reserved ← indented (reserveInT L (s.used c) s.reserved (L.tb c))
    let s := { s with reserved := reserved }
    line [.str "assign slots ", .bits (s.used c), .str " in:\n"]
    indented (fold (assignCovariantT L c) s (pl.iter c (L.td c)))

/-- `assign_lattice_slots` (initialize.hpp 933-1007). -/
def assignLatticeT (pl : Platform) (L : Lattice) (ms : List Meth) : Nat → SlotState → Cls → T SlotState
  | 0, s, _ => pure s
  | fuel + 1, s, c =>
    if c ∈ s.marked then pure s
    else do
      let s ← fold (assignParamT pl L ms c) { s with marked := s.marked ++ [c] } (usedByVp ms c)
      fold (assignLatticeT pl L ms fuel) s (L.dd c)

/-- Body of the first loop of `assign_slots` (initialize.hpp 871-884). -/
def assignRootT (pl : Platform) (L : Lattice) (ms : List Meth) (s : SlotState) (c : Cls) : T SlotState :=
  if (L.db c).length = 0 then
    if (L.td c).any (fun x => (L.db x).length > 1) then assignLatticeT pl L ms (L.order.length + 1) s c
    else indented (assignTreeT L ms (L.order.length + 1) s c 0)
  else pure s

/-- Body of the second loop of `assign_slots` (initialize.hpp 892-905). -/
def sizeVtblT (L : Lattice) (s : SlotState) (c : Cls) : T SlotState :=
  if (s.used c).length = 0 then pure s
  else do
    start
    sayClass L c
    say [.str " vtbl: ", .num (firstSet (s.used c)), .str "-", .num (s.used c).length, .str " slots ", .bits (s.used c), .str "\n"]
    pure { s with
      first := Function.update s.first c (firstSet (s.used c))
      size := Function.update s.size c ((s.used c).length - firstSet (s.used c)) }

/-- `assign_slots` (initialize.hpp 863-907). -/
def assignSlotsT (pl : Platform) (L : Lattice) (ms : List Meth) : T SlotState := do
  line [.str "Allocating slots...\n"]
  let s ← indented (fold (assignRootT pl L ms) SlotState.init L.order)
  line [.str "Allocating MI v-tables...\n"]
  indented (fold (sizeVtblT L) s L.order)

/-! ## Dispatch tables -/

/-- `type_name(spec.info->type)`, for an overrider of which the index is given -/
def overriderTok (m : Meth) (i : Nat) : Res Tok := do
  let o ← Res.ofOption m.overriders[i]?
  .ok (.overrider o.info.pf)

/-- The groups of a dimension (initialize.hpp 1027-1062): what is traced. The groups themselves are `groupsOf`. -/
def traceGroups (pl : Platform) (L : Lattice) (m : Meth) (vk : Cls × Nat) : T Unit := do
  line [.str "make groups for param #", .num vk.2, .str ", class "]
  sayClass L vk.1
  say [.str "\n"]
  indented do
    each (fun c => do
      line [.str "overriders applicable to "]
      sayClass L c
      say [.str "\n"]
      indented do
        each (fun ob : Ovr × Bool => if ob.2 then line [.overrider ob.1.info.pf, .str "\n"] else pure ())
          (m.overriders.zip (maskOf L m.overriders vk.2 c))
        line [.str "-> mask: ", .bits (maskOf L m.overriders vk.2 c), .str "\n"]) (pl.iter vk.1 (L.td vk.1))

/-- The strides (initialize.hpp 1065-1074): what is traced. -/
def traceStrides (strides : List Nat) : T Unit :=
  each (fun sk : Nat × Nat => line [.str "    stride for dim ", .num (sk.2 + 1), .str " = ", .num sk.1, .str "\n"]) strides.zipIdx

/-- The v-table entries of a class (initialize.hpp 1084-1092). -/
def entryT (L : Lattice) (first : Cls → Nat) (slot : Nat) (e : Entry) (vtbl : Cls → List Entry) (c : Cls) : T (Cls → List Entry) := do
  indented do
    start
    -- `type_name(cls->type_ids[0])`
    let t ← lift (Res.ofOption (L.typeIds c)[0]?)
    say [.type t, .str "\n"]
  lift (writeEntry first vtbl (c, slot, e))

/-- The loop that writes in v-tables, for a dimension (initialize.hpp 1075-1096). -/
def entriesT (L : Lattice) (first : Cls → Nat) (slots : Nat × Nat → Nat) (mi : Nat) (vtbl : Cls → List Entry) (gk : List Group × Nat) : T (Cls → List Entry) :=
  indented do
    fold (fun vtbl gn => do
      line [.str "groups for dim ", .num gk.2, .str ":\n"]
      indented do
        line [.num gn.2, .str " mask ", .bits gn.1.1, .str ":\n"]
        fold (entryT L first (slots (mi, gk.2)) { method := mi, vp := gk.2, group := gn.2 }) vtbl gn.1.2) vtbl gk.1.zipIdx

/-- Overriders that are not null, in a message. -/
def traceCandidates (m : Meth) (l : List (Option Nat)) : T Unit :=
  indented do
    each (fun c : Option Nat =>
      match c with
      | none => pure ()
      | some i => do
        let t ← lift (overriderTok m i)
        line [.str "#", .num i, .str " ", t, .str "\n"]) l

/-- `tr << "-> #" << overrider->spec_index << …` (initialize.hpp 1204-1213, 1263-1271) -/
def traceChoice (m : Meth) (i : Nat) (ambiguous : Bool) : T Unit := do
  start
  let t ← lift (overriderTok m i)
  say [.str "-> #", .num i, .str " ", t, .str " pf = ", .addr]
  if ambiguous then say [.str " (ambiguous)"]
  say [.str "\n"]

/-- The computation of `next` (initialize.hpp 1220-1273). The second result is `false` if `continue` is executed. -/
def nextOfT (n2216 : Bool) (L : Lattice) (m : Meth) (overriders dominants : List (Option Nat)) : T (Cell × Bool) := do
  let rest := withoutDominants overriders dominants
  if remainingOf rest = 0 then do
    line [.str "no 'next'\n"]
    pure (.notImplemented, true)
  else do
    ifTrace do
      line [.str "for 'next', select best of:\n"]
      traceCandidates m rest
    let s ← lift (selectDominant n2216 (moreAt L m.overriders) (retAt m.overriders) L.td rest)
    if !n2216 && decide (s.remaining > 1) then do
      line [.str "ambiguous 'next'\n"]
      pure (.ambiguous, false)
    else do
      let o ← lift (Res.ofOption (s.cands[s.pick]?.join))
      traceChoice m o (decide (s.remaining > 1))
      pure (.ovr o, true)

/-- The processing of one cell (initialize.hpp 1162-1274). The second result is `false` if `continue` is executed. -/
def evalCellT (n2216 : Bool) (L : Lattice) (m : Meth) (mask : Mask) : T (CellResult × Bool) := do
  let overriders := candidatesOf mask
  ifTrace do
    line [.str "select best of:\n"]
    traceCandidates m overriders
  let s ← lift (selectDominant n2216 (moreAt L m.overriders) (retAt m.overriders) L.td overriders)
  if s.remaining = 0 then do
    indented (line [.str "not implemented\n"])
    pure ({ cell := .notImplemented, next := none, amb := false }, true)
  else if !n2216 && decide (s.remaining > 1) then do
    line [.str "ambiguous\n"]
    pure ({ cell := .ambiguous, next := none, amb := true }, false)
  else do
    let o ← lift (Res.ofOption (s.cands[s.pick]?.join))
    traceChoice m o (decide (s.remaining > 1))
    let next ← nextOfT n2216 L m overriders s.cands
    pure ({ cell := .ovr o, next := some next.1, amb := decide (s.remaining > 1) }, next.2)

/-- The group in the trace of `build_dispatch_table` (initialize.hpp 1151-1159). -/
def traceGroup (L : Lattice) (dim index : Nat) (mask : Mask) (classes : List Cls) : T Unit :=
  ifTrace do
    line [.str "group ", .num dim, .str "/", .num index, .str " mask ", .bits mask, .str "\n"]
    indented (each (fun c => do
      start
      let t ← lift (Res.ofOption (L.typeIds c)[0]?)
      say [.type t, .str "\n"]) classes)

/-- `build_dispatch_table` (initialize.hpp 1138-1283): the results for the cells, in order. Dimensions are listed from the last to the first. `group_index` is only used in the trace; `continue` skips
its increment. -/
def buildTableT (n2216 : Bool) (L : Lattice) (m : Meth) : List (List Group) → Mask → T (List CellResult)
  | [], _ => pure []
  | groups :: rest, cand => indented do
    let r ← fold (fun (r : List CellResult × Nat) g => do
      let mask := maskAnd cand g.1
      traceGroup L rest.length r.2 mask g.2
      match rest with
      | [] => do
        let c ← evalCellT n2216 L m mask
        pure (r.1 ++ [c.1], if c.2 then r.2 + 1 else r.2)
      | _ :: _ => do
        let cs ← buildTableT n2216 L m rest mask
        pure (r.1 ++ cs, r.2 + 1)) ([], 0) groups
    pure r.1

/-- `print` (initialize.hpp 1532-1543) -/
def printT (cells notImplemented ambiguous : Nat) : T Unit := do
  start
  if cells ≠ 0 then line [.num cells, .str " dispatch table cells, "]
  say [.num notImplemented, .str " not implemented, ", .num ambiguous, .str " ambiguous\n"]

/-- The rank of a dispatch table (initialize.hpp 1104-1127). -/
def traceRank (L : Lattice) (groups : List (List Group)) : T Unit :=
  indented do
    line [.str "dispatch table rank: "]
    let _ ← fold (fun pre (gs : List Group) => do say [.str pre, .num gs.length]; pure " x ") "" groups
    let _ ← fold (fun pre (gs : List Group) => do
      say [.str pre, .num (gs.countP fun g => g.2.any fun c => !L.isAbstract c)]
      pure " x ") ", concrete only: " groups
    say [.str "\n"]

/-- `build_dispatch_tables`, for one method (initialize.hpp 1014-1132). -/
def buildMethodT (pl : Platform) (n2216 : Bool) (L : Lattice) (slots : SlotState) (vtbl : Cls → List Entry) (mi : Meth × Nat) : T ((Cls → List Entry) × MethTable) := do
  let m := mi.1
  line [.str "Building dispatch table for ", .method m.info.id, .str "\n"]
  indented do
    each (traceGroups pl L m) m.vp.zipIdx
    let groups := methGroups pl L m
    let strides := stridesFrom 1 (groups.map List.length)
    traceStrides strides
    let vtbl ← fold (entriesT L slots.first slots.slots mi.2) vtbl groups.zipIdx
    line [.str "building dispatch table\n"]
    let rs ← buildTableT n2216 L m groups.reverse (List.replicate m.overriders.length true)
    let cells := if m.vp.length > 1 then (groups.map List.length).prod else 0
    if m.vp.length > 1 then traceRank L groups
    let notImplemented := rs.countP (fun r => r.cell = .notImplemented)
    let ambiguous := rs.countP (·.amb)
    printT cells notImplemented ambiguous
    pure (vtbl, {
      groups := groups
      strides := strides
      table := rs.map (·.cell)
      next := rs.foldl storeNext (fun _ => none)
      cells := cells
      notImplemented := notImplemented
      ambiguous := ambiguous })

/-- `build_dispatch_tables` (initialize.hpp 1011-1134). -/
def buildMethodsT (pl : Platform) (n2216 : Bool) (L : Lattice) (slots : SlotState) : (Cls → List Entry) → List (Meth × Nat) → T ((Cls → List Entry) × List MethTable)
  | vtbl, [] => pure (vtbl, [])
  | vtbl, mi :: ms => do
    let r ← buildMethodT pl n2216 L slots vtbl mi
    let rs ← buildMethodsT pl n2216 L slots r.1 ms
    pure (rs.1, r.2 :: rs.2)

/-- `compile` (initialize.hpp 460-469). -/
def compileT (pl : Platform) (n2216 : Bool) (p : Program) : T Compiled := do
  let L ← augmentClassesT pl p.rtti p.classes
  let ms ← augmentT p.rtti L p.methods
  let s ← assignSlotsT pl L ms
  let r ← buildMethodsT pl n2216 L s (fun c => List.replicate (s.size c) { method := 0, vp := 0, group := 0 }) ms.zipIdx
  pure { lattice := L, meths := ms, slots := s, tables := r.2, vtbl := r.1, report := accumulate r.2 }

/-! ## Global data -/

/-- `spec_name` (initialize.hpp 286-299): in any case, the record of the overrider is read. -/
def specName (m : Meth) : Cell → Res Tok
  | .ovr i => overriderTok m i
  | .notImplemented => .ok (.str "not implemented")
  | .ambiguous => .ok (.str "ambiguous")

/-- `spec_index` (initialize.hpp 761-766, 779) -/
def specIndex (m : Meth) : Cell → Nat
  | .ovr i => i
  | .notImplemented => m.overriders.length
  | .ambiguous => m.overriders.length + 1

/-- One iteration of the first loop (initialize.hpp 1316-1341); `mi` is the index of the method. -/
def writeTableT (cap : Nat) (s : List Word × List (Option Nat)) (mt : (Meth × MethTable) × Nat) : T (List Word × List (Option Nat)) :=
  if mt.1.1.vp.length = 1 then pure (s.1, s.2 ++ [none])
  else do
    ifTrace do
      start
      -- `m.dispatch_table[0]->method_index`
      let _ ← lift (Res.ofOption mt.1.2.table[0]?)
      say [.padded 4 cap, .str " ", .str " method #", .num mt.2, .str " ", .method mt.1.1.info.id, .str "\n"]
      indented do
        each (fun cell => do
          let n ← lift (specName mt.1.1 cell)
          line [.str "spec #", .num (specIndex mt.1.1 cell), .str " ", n, .str "\n"]) mt.1.2.table
    let mem ← lift (mt.1.2.table.foldlM (fun mem cell => do
      let f ← Res.ofOption (pfOf mt.1.1 cell)
      emit cap mem (.pf f)) s.1)
    pure (mem, s.2 ++ [some s.1.length])

/-- The `next` pointers of a method (initialize.hpp 1349-1366): what is traced. The stores are `nextStores`. -/
def traceNext (mt : Meth × MethTable) : T Unit :=
  indented do
    line [.str "method #", .str " ", .method mt.1.info.id, .str "\n"]
    each (fun x : Ovr × Nat => do
      match mt.2.next x.2 with
      | some cell => do
        start
        say [.str "#", .num x.2, .str " ", .overrider x.1.info.pf, .str " -> "]
        let n ← lift (specName mt.1 cell)
        say [.str "#", .num (specIndex mt.1 cell), .str " ", n]
      | none => say [.str "none"]
      say [.str "\n"]) mt.1.overriders.zipIdx

/-- A word of a v-table (initialize.hpp 1378-1405). -/
def entryWordT (c : Compiled) (gen : Nat) (bases : List (Option Nat)) (e : Entry) : T Word := do
  line [.str "method #", .num e.method, .str " "]
  let m ← lift (Res.ofOption c.meths[e.method]?)
  let t ← lift (Res.ofOption c.tables[e.method]?)
  let w ← if m.vp.length = 1 then do
      let cell ← lift (Res.ofOption t.table[e.group]?)
      say [.str "spec #", .num (specIndex m cell), .str "\n"]
      indented do
        line [.method m.info.id, .str "\n"]
        start
        let n ← lift (specName m cell)
        say [n]
      let f ← lift (Res.ofOption (pfOf m cell))
      pure (.pf f)
    else do
      say [.str "vp #", .num e.vp, .str " group #", .num e.group, .str "\n"]
      indented (line [.method m.info.id])
      if e.vp = 0 then do
        let base ← lift (Res.ofOption (bases[e.method]?).join)
        pure (.addr { gen := gen, off := (base + e.group : Nat) })
      else pure (.idx e.group)
  say [.str "\n"]
  pure w

/-- One iteration of the loop over classes (initialize.hpp 1371-1408). -/
def writeVtblT (c : Compiled) (gen cap : Nat) (bases : List (Option Nat)) (s : List Word × (Cls → Int)) (x : Cls) : T (List Word × (Cls → Int)) := do
  let vptrs := Function.update s.2 x ((s.1.length : Int) - c.slots.first x)
  start
  say [.padded 4 s.1.length, .str " ", .addr, .str " vtbl for "]
  sayClass c.lattice x
  -- modulo 2^64
  say [.str " slots ", .num (c.slots.first x), .str "-", .num ((c.slots.first x + (c.vtbl x).length + sizeMax) % (sizeMax + 1)), .str "\n"]
  let mem ← indented (fold (fun mem e => do
    let w ← entryWordT c gen bases e
    lift (emit cap mem w)) s.1 (c.vtbl x))
  pure (mem, vptrs)

/-- `write_global_data` (initialize.hpp 1294-1409), before the vptr policy is initialized. -/
def writeGlobalT (c : Compiled) (gen : Nat) : T Image := do
  let cap := dataSize c
  line [.str "Initializing multi-method dispatch tables at ", .addr, .str "\n"]
  let s ← fold (writeTableT cap) ([], []) (c.meths.zip c.tables).zipIdx
  line [.str "Setting 'next' pointers\n"]
  each traceNext (c.meths.zip c.tables)
  line [.str "Initializing v-tables at ", .addr, .str "\n"]
  let v ← fold (writeVtblT c gen cap s.2) (s.1, fun _ => 0) c.lattice.order
  line [.padded 4 cap, .str " ", .addr, .str " end\n"]
  pure {
    data := v.1
    vptr := v.2
    slotsStrides := slotsStridesOf c
    next := (c.meths.zip c.tables).flatMap fun mt => nextStores mt.1 mt.2 }

/-! ## Hash factors -/

/-- The loop over passes (fast_perfect_hash.hpp 182-237). -/
def searchPassesT (rnd : Nat → BitVec 64) (ids : List TypeId) : Nat → Nat → Search → T HashResult
  | 0, M, s => pure (.failed s.total (2 ^ M) s)
  | passes + 1, M, s =>
    if 31 ≤ M then lift .ub
    else do
      let st := { s.state with
        shift := 64 - M, min := sizeMax, max := 0, buckets := resize s.state.buckets (2 ^ M) 0 }
      say [.str "  trying with M = ", .num M, .str ", ", .num (2 ^ M), .str " buckets\n"]
      let r ← lift (tryFactors rnd ids attemptsPerPass { s with state := st })
      if r.1 then do
        say [.str "  found ", .num r.2.state.mult.toNat, .str " after ", .num r.2.total, .str " attempts; span = [", .num r.2.state.min, .str ", ", .num r.2.state.max, .str "]\n"]
        pure (.found r.2.state)
      else searchPassesT rnd ids passes (M + 1) r.2

/-- `initialize` (fast_perfect_hash.hpp 166-247). The first line is written to the stream of the registry, whether the trace is on or not. -/
def hashInitT (rnd : Nat → BitVec 64) (classes : Nat) (ids : List TypeId) (old : HashState) : T HashResult := do
  direct [.str "Finding hash factor for ", .num classes, .str " types\n"]
  searchPassesT rnd ids 4 (initialM classes) { state := old, total := 0, drawn := 0 }

/-- `vptr::initialize` (vptr_vector.hpp 66-115, vptr_map.hpp 46-64). -/
def vptrInitT (cfg : Config) (rnd : Nat → BitVec 64) (mem : VarId → Option Ptr) (cs : List CtxClass) (s : VptrState) : T VptrResult :=
  if cfg.vector then
    if cfg.typeHash then do
      let r ← hashInitT rnd cs.length (cs.flatMap (·.ids)) (bucketsBefore cfg s.hash)
      lift (match r with
        | .found h => fillVec cfg mem cs { s with hash := h } (h.max + 1)
        | .failed attempts buckets h => .ok { state := { s with hash := h.state }, error := some (.searchError attempts buckets) })
    else lift (fillVec cfg mem cs s (vecSize (cs.flatMap (·.ids))))
  else lift (vptrInit cfg rnd mem cs s)

/-! ## `initialize` -/

/-- `initialize` (initialize.hpp 447-477), with or without a `trace` object: what is written, and what is done. -/
def initRegistryT (E : Env) (p : Program) (s : RegState) (opt : Option Bool) : List Tok × Res InitOut :=
  match compileT E.platform E.n2216 p opt 0 with
  | (w, .ub) => (w, .ub)
  | (w, .err e) => (w, .ok { state := s, result := .error e })
  | (w, .ok c) =>
    match writeGlobalT c s.fresh opt 0 with
    | (w', .ub) => (w ++ w', .ub)
    | (w', .err e) => (w ++ w', .ok { state := s, result := .error e })
    | (w', .ok img) =>
      let s1 := applyImage c.lattice img s
      match vptrInitT E.cfg E.rnd s1.svptr (ctxClasses c.lattice) s1.vptr opt 0 with
      | (w'', .ub) => (w ++ w' ++ w'', .ub)
      | (w'', .err e) => (w ++ w' ++ w'', .ok { state := s1, result := .error e })
      | (w'', .ok v) =>
        match v.error with
        | some e => (w ++ w' ++ w'', .ok { state := { s1 with vptr := v.state }, result := .error e })
        | none =>
          let print := (do
            printT c.report.cells c.report.notImplemented c.report.ambiguous
            line [.str "Finished\n"] : T Unit) opt 0
          (w ++ w' ++ w'' ++ print.1, .ok {
            state := { s1 with vptr := v.state, data := img.data, gen := s.fresh, initialized := true }
            result := .ok c.report })

end OpenMethod

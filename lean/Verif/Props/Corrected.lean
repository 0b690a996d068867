import Verif.Props.Records
import Verif.Props.Gaps
import Verif.Proof.Corrected
import Verif.Props.Tables

/-!
# C89: three local corrections make calls right, and all three are needed

The library fails to do what the documentation says in three ways (findings 1, 2 and 4). For each of them there is a local
correction of the code. Here: exactly which sets of corrections are sufficient.
-/

namespace OpenMethod.Props

open Spec Examples

/-- A set of corrections. -/
structure Fixes where
  /-- in `augment_classes`, the loop that collects the bases is executed twice -/
  bases : Bool
  /-- in `build_dispatch_table`, overriders are compared with all candidates, also those that have been removed -/
  select : Bool
  /-- in `resolve_multi_next`, a parameter that is not virtual does not count -/
  gaps : Bool
  deriving DecidableEq, Repr

/-- `compile` with the corrections. This is not the code of the library, unless there are none: see `C89_library`. -/
def compileWith (f : Fixes) (pl : Platform) (p : Program) : Res Compiled := do
  let L ← if f.bases then augmentClassesTwice pl p.rtti p.classes else augmentClasses pl p.rtti p.classes
  let ms ← augment p.rtti L p.methods
  let s := assignSlots pl L (usedByVp ms)
  let vtbl ← (allWrites pl L s.slots ms).foldlM (writeEntry s.first)
    (fun c => List.replicate (s.size c) { method := 0, vp := 0, group := 0 })
  let ts ← if f.select then .ok (ms.map (buildMethodFixed pl L)) else buildMethods pl false L ms
  return { lattice := L, meths := ms, slots := s, tables := ts, vtbl := vtbl, report := accumulate ts }

/-- `install` with the corrections. -/
def installWith (f : Fixes) (pl : Platform) (p : Program) (gen : Nat) : Res (Report × Image) := do
  let c ← compileWith f pl p
  let img ← writeGlobal c gen
  return (c.report, img)

/-- A call with the corrections. -/
def callWith (f : Fixes) : Nat → Image → MethodInfo → List (Res Ptr) → List TypeId → Res Nat :=
  if f.gaps then callMethodFixed else callMethod

/-- With these corrections, all calls do what the documentation says: in all programs, with all arguments. -/
def Suffices (f : Fixes) : Prop :=
  ∀ (pl : Platform) (p : Program) (gen : Nat) (rep : Report) (img : Image) (m : MethodInfo) (args : List (Res Ptr)) (xs : List Cls) (types : List TypeId),
    p.Valid → installWith f pl p gen = .ok (rep, img) → AnyCall p gen img m args xs → ∃ r, Expected p m xs r ∧ Does m (callWith f gen img m args types) r

variable {f : Fixes} {pl : Platform} {p : Program} {gen : Nat} {rep : Report} {img : Image} {m : MethodInfo} {args : List (Res Ptr)} {xs : List Cls}

/-- Without corrections, this is the library. -/
theorem C89_library : (∀ pl p gen, installWith ⟨false, false, false⟩ pl p gen = install pl false p gen) ∧ callWith ⟨false, false, false⟩ = callMethod :=
  ⟨fun _ _ _ => rfl, rfl⟩

/-- The program whose classes are examined. -/
def looped (f : Fixes) (p : Program) : Program := { p with classes := if f.bases then p.classes ++ p.classes else p.classes }

theorem looped_mem (f : Fixes) (p : Program) (cr : ClassInfo) : cr ∈ (looped f p).classes ↔ cr ∈ p.classes := by
  unfold looped
  dsimp only
  split
  · simp
  · rfl

theorem looped_valid (hv : p.Valid) : (looped f p).Valid := sameRecords_valid (looped_mem f p) hv

theorem compileWith_looped : compileWith f pl p = compileWith { f with bases := false } pl (looped f p) := by
  unfold compileWith looped
  cases f.bases with
  | false => simp
  | true => simp [augmentClasses_loop]

/-- What is known once classes and methods are accepted. -/
theorem compileWith_ok (hv : p.Valid) (hf : f.bases = false) {L : Lattice} {ms : List Meth} (hL : augmentClasses pl p.rtti p.classes = .ok L)
    (hM : augment p.rtti L p.methods = .ok ms) : ∃ c, compileWith f pl p = .ok c ∧ c.lattice = L ∧ CompiledBase pl p c ∧
      (f.select = true → c.tables = c.meths.map (buildMethodFixed pl c.lattice)) := by
  obtain ⟨vtbl, h1, h2⟩ := compile_base hv.acyclic hv.wf hL hM
  unfold compileWith
  simp only [hf, Bool.false_eq_true, if_false, hL, hM, Res.ok_bind, h1]
  cases hs : f.select with
  | true =>
    simp only [if_true, Res.pure_eq]
    refine ⟨_, rfl, rfl, h2 _ ?_, fun _ => rfl⟩
    rw [List.forall₂_map_right_iff]
    exact List.forall₂_same.2 fun m _ => fixed_base pl L m
  | false =>
    simp only [Bool.false_eq_true, if_false]
    rcases buildMethods_ok false pl L ms with ⟨_, _, _, _, _, hub⟩ | ⟨ts, h3, h4⟩
    · exact absurd hub (cellUb_false _ _ _ _)
    · rw [h3, Res.ok_bind, Res.pure_eq]
      exact ⟨_, rfl, rfl, h2 _ (h4.imp fun _ _ h => h.choose_spec.base), fun h => absurd h (by simp)⟩

theorem compileWith_front (hf : f.bases = false) {c : Compiled} (h : compileWith f pl p = .ok c) :
    ∃ L ms, augmentClasses pl p.rtti p.classes = .ok L ∧ augment p.rtti L p.methods = .ok ms := by
  unfold compileWith at h
  simp only [hf, Bool.false_eq_true, if_false] at h
  rw [Res.bind_eq_ok] at h
  obtain ⟨L, hL, h⟩ := h
  rw [Res.bind_eq_ok] at h
  obtain ⟨ms, hM, _⟩ := h
  exact ⟨L, ms, hL, hM⟩

theorem installWith_accepted (hv : p.Valid) (hf : f.bases = false) (gen : Nat) :
    (∃ r, installWith f pl p gen = .ok r) ↔ ∃ L ms, augmentClasses pl p.rtti p.classes = .ok L ∧ augment p.rtti L p.methods = .ok ms := by
  constructor
  · rintro ⟨r, h⟩
    unfold installWith at h
    rw [Res.bind_eq_ok] at h
    obtain ⟨c, hc, _⟩ := h
    exact compileWith_front hf hc
  · rintro ⟨L, ms, hL, hM⟩
    obtain ⟨c, hc, _, C, _⟩ := compileWith_ok hv hf hL hM
    obtain ⟨bases, img, hi, _⟩ := writeGlobal_base C gen
    exact ⟨_, by unfold installWith; rw [hc, Res.ok_bind, hi]; rfl⟩

/-- The same programs are accepted, with any corrections. -/
theorem C89_accepted (hv : p.Valid) (f : Fixes) (pl : Platform) (gen : Nat) :
    (∃ r, installWith f pl p gen = .ok r) ↔ ∃ r, install pl false p gen = .ok r := by
  have h1 : installWith f pl p gen = installWith { f with bases := false } pl (looped f p) gen := by
    unfold installWith
    rw [compileWith_looped]
  rw [h1, installWith_accepted (looped_valid hv) rfl, ← installWith_accepted (f := ⟨false, false, false⟩) (looped_valid hv) rfl gen,
    C89_library.1]
  exact (C06_errors hv (looped_valid hv) (sameRecords (looped_mem f p)) pl pl gen gen).2.2

theorem expected_looped (r : Outcome) : Expected (looped f p) m xs r ↔ Expected p m xs r := by
  have hd : Derives (looped f p) = Derives p := funext fun a => funext fun b => propext (sameRecords_derives (looped_mem f p) a b)
  have : ∀ q : Program, Expected q m xs r ↔ ExpectedBy (Derives q) q m xs r := fun q => by cases r <;> exact Iff.rfl
  rw [this, this p, hd]
  cases r <;> exact Iff.rfl

theorem callable_looped (h : Callable p m xs) : Callable (looped f p) m xs := by
  have hd : Derives (looped f p) = Derives p := funext fun a => funext fun b => propext (sameRecords_derives (looped_mem f p) a b)
  refine ⟨?_, fun a ha => ((sameRecords (looped_mem f p)).registered a).2 (h.2 a ha)⟩
  have := h.1
  unfold Accepts at this ⊢
  rw [hd]
  exact this

/-- What `installWith` leaves when all corrections are made. -/
theorem installWith_ok (hv : p.Valid) (hs : f.select = true) (h : installWith f pl p gen = .ok (rep, img)) :
    ∃ c bases, CompiledBase pl (looped f p) c ∧ ImageOk c gen bases img ∧ c.report = rep ∧ c.tables = c.meths.map (buildMethodFixed pl c.lattice) ∧
      augmentClasses pl (looped f p).rtti (looped f p).classes = .ok c.lattice := by
  unfold installWith at h
  rw [compileWith_looped, Res.bind_eq_ok] at h
  obtain ⟨c, hc, h⟩ := h
  rw [Res.bind_eq_ok] at h
  obtain ⟨img', hi, h⟩ := h
  simp only [Res.pure_eq, Res.ok.injEq, Prod.mk.injEq] at h
  obtain ⟨h1, rfl⟩ := h
  obtain ⟨L, ms, hL, hM⟩ := compileWith_front rfl hc
  obtain ⟨c', hc', rfl, C, ht⟩ := compileWith_ok (f := { f with bases := false }) (looped_valid hv) rfl hL hM
  rw [hc] at hc'
  obtain rfl := Res.ok.inj hc'
  obtain ⟨bases, img'', hi', I⟩ := writeGlobal_base C gen
  rw [hi] at hi'
  obtain rfl := Res.ok.inj hi'
  exact ⟨c, bases, C, I, h1, ht hs, hL⟩

theorem callFixed_key (hc : AnyCall p gen img m args xs) (types : List TypeId) : callMethodFixed gen img m args types =
    callMethod gen img { m with params := List.replicate xs.length true } (xs.map fun x => .ok (img.ptr gen x)) types := by
  unfold callMethodFixed callMethod resolve
  refine resolveMultiFirst_same.bind_congr_res fun ss => ?_
  dsimp only [MethodInfo.arity]
  rw [← uniFixed hc.args, ← firstFixed hc.args]
  by_cases h1 : m.vp.length = 1
  · simp only [h1, if_true]
    generalize resolveUni _ ss m.params args = x
    cases x <;> rfl
  · simp only [h1, if_false]
    generalize resolveMultiFirstFixed _ ss _ m.params args = x
    cases x <;> rfl

/-- As `Does`, with the content of errors. -/
def DoesFor (m : MethodInfo) (types : List TypeId) (res : Res Nat) : Outcome → Prop
  | .run i => ∃ o, m.overriders[i]? = some o ∧ res = .ok o.pf
  | .noOverrider => res = .err (.noOverrider (badCallArity types) (badCallTypes types))
  | .ambiguous => res = .err (.ambiguousCall (badCallArity types) (badCallTypes types))

theorem DoesFor.does {types : List TypeId} {res : Res Nat} {r : Outcome} (h : DoesFor m types res r) : Does m res r := by
  cases r with
  | run i => exact h
  | noOverrider => exact ⟨_, _, h⟩
  | ambiguous => exact ⟨_, _, h⟩

theorem DoesFor.unique {types : List TypeId} {res res' : Res Nat} {r : Outcome} (h : DoesFor m types res r) (h' : DoesFor m types res' r) : res = res' := by
  cases r with
  | run i =>
    obtain ⟨o, h1, rfl⟩ := h
    obtain ⟨o', h2, rfl⟩ := h'
    rw [h1] at h2
    rw [Option.some.inj h2]
  | noOverrider => exact Eq.trans h (Eq.symm h')
  | ambiguous => exact Eq.trans h (Eq.symm h')

/-- What a call does, when all corrections are made. -/
theorem fixed_call (hv : p.Valid) (h : installWith ⟨true, true, true⟩ pl p gen = .ok (rep, img)) (hc : AnyCall p gen img m args xs) (types : List TypeId) :
    ∃ r, Expected p m xs r ∧ DoesFor m types (callWith ⟨true, true, true⟩ gen img m args types) r := by
  have hq : (looped ⟨true, true, true⟩ p).Valid := looped_valid hv
  obtain ⟨c, bases, C, I, _, ht, hL⟩ := installWith_ok hv rfl h
  have hmem : m ∈ (looped ⟨true, true, true⟩ p).methods := hc.mem
  have hcall : Callable (looped ⟨true, true, true⟩ p) m xs := callable_looped hc.callable
  have ho : ArgsSafe (looped ⟨true, true, true⟩ p) (classesOf (looped ⟨true, true, true⟩ p) m.vp) xs :=
    OrderSafe.call (fun x _ => (twice_allFound (p := p) (cs := p.classes) (fun _ => Iff.rfl) x).orderSafe) hmem hcall.1
  have hM := C.methOk m hmem
  have hok := callable_argsOk C.lat hM hcall
  obtain ⟨i, hi⟩ := List.getElem?_of_mem hmem
  obtain ⟨t, cell, f, ss, ht', hcell, hf, hss, hres⟩ :=
    resolve_ok_base C I hq.ids hi (argsFor_all (img.ptr gen) xs) hok (slotSafe_of_argsSafe hq.acyclic C.lat C.meths hL ho) (.inr ⟨0, xs.length, 0, by simp⟩)
  rw [ht, List.getElem?_map, C.meths, List.getElem?_map, hi] at ht'
  obtain rfl := Option.some.inj ht'
  rw [fixed_at pl c.lattice _ hok] at hcell
  obtain rfl := Option.some.inj hcell
  have hlen : xs.length = m.vp.length := by
    have := hok.length_eq
    simpa [toMeth] using this.symm
  have he := cellFixed_expected hq.acyclic C.lat hM hlen
  refine ⟨_, (expected_looped _).1 he, ?_⟩
  have hcm : callWith ⟨true, true, true⟩ gen img m args types = enter f types := by
    show callMethodFixed gen img m args types = _
    rw [callFixed_key hc]
    unfold callMethod
    dsimp only [MethodInfo.arity] at hres ⊢
    rw [hss, Res.ofOption_some, Res.ok_bind, hres, Res.ok_bind]
  rw [hcm]
  generalize cellFixed _ _ = cell at hf ⊢
  cases cell with
  | notImplemented =>
    obtain rfl := Option.some.inj hf
    rfl
  | ambiguous =>
    obtain rfl := Option.some.inj hf
    rfl
  | ovr i =>
    simp only [pfOf, toMeth, List.getElem?_map, Option.map_map, Option.map_eq_some_iff] at hf
    obtain ⟨o, ho, rfl⟩ := hf
    exact ⟨o, ho, rfl⟩

/-- C89, sufficiency: with the three corrections, every call does what the documentation says. -/
theorem C89_right : Suffices ⟨true, true, true⟩ := by
  intro pl p gen rep img m args xs types hv h hc
  obtain ⟨r, h1, h2⟩ := fixed_call hv h hc types
  exact ⟨r, h1, h2.does⟩

/-- A call in a program, with corrections. -/
def runWith (f : Fixes) (p : Program) (m : MethodInfo) (xs : List Cls) : Option (Res Nat) :=
  match installWith f .std p 0 with
  | .ok (_, img) => some (callWith f 0 img m (Check.mkArgs (img.ptr 0) m.params xs) [])
  | _ => none

theorem not_suffices {r : Res Nat} (hv : Check.validB p = true) (h : runWith f p m xs = some r) (hcall : Check.anyCallB p m xs = true)
    (hne : Check.doesB m r (Check.expected p m xs) = false) : ¬ Suffices f := by
  intro hs
  unfold runWith at h
  split at h
  · next rep img he =>
    obtain ⟨o, ho, hd⟩ := hs .std p 0 rep img m _ xs [] (Check.valid hv) he (Check.anyCall hv hcall 0 img)
    rw [Option.some.inj h] at hd
    rw [Expected.unique ho (Check.expected_spec (Check.validB_ranked hv) m xs)] at hd
    rw [Check.does hd] at hne
    simp at hne
  · simp at h

/-- C89: the three corrections together are sufficient, and no fewer are. -/
theorem C89 (f : Fixes) : Suffices f ↔ f = ⟨true, true, true⟩ := by
  constructor
  · intro h
    obtain ⟨a, b, c⟩ := f
    cases a with
    | false =>
      cases b <;> cases c <;>
        exact absurd h (not_suffices (p := late) (m := f5) (xs := [5]) (r := .ok 20) (by decide +kernel) (by decide +kernel) (by decide +kernel) (by decide +kernel))
    | true =>
      cases b with
      | false =>
        cases c <;> exact absurd h (not_suffices (p := multi1) (m := cyc1) (xs := [5, 9]) (r := .err (.ambiguousCall 0 []))
          (by decide +kernel) (by decide +kernel) (by decide +kernel) (by decide +kernel))
      | true =>
        cases c with
        | false => exact absurd h (not_suffices (p := gap) (m := gapped) (xs := [1, 2]) (r := .ok 11) (by decide +kernel) (by decide +kernel) (by decide +kernel) (by decide +kernel))
        | true => rfl
  · rintro rfl
    exact C89_right

/-! ## What does not hold for the library, and holds with the corrections -/

/-- C06 in full: the order in which classes are registered does not matter. -/
theorem C89_order {pl' : Platform} {p' : Program} {gen' : Nat} {rep' : Report} {img' : Image} {args' : List (Res Ptr)} (hv : p.Valid) (hv' : p'.Valid)
    (hs : SameInheritance p p') (h : installWith ⟨true, true, true⟩ pl p gen = .ok (rep, img)) (h' : installWith ⟨true, true, true⟩ pl' p' gen' = .ok (rep', img'))
    (hc : AnyCall p gen img m args xs) (hc' : AnyCall p' gen' img' m args' xs) (types : List TypeId) :
    callWith ⟨true, true, true⟩ gen' img' m args' types = callWith ⟨true, true, true⟩ gen img m args types := by
  obtain ⟨r, h1, h2⟩ := fixed_call hv h hc types
  obtain ⟨r', h1', h2'⟩ := fixed_call hv' h' hc' types
  have hd : Derives p' = Derives p := funext fun a => funext fun b => propext (hs.derives a b)
  have he : Expected p m xs r' := by
    have h3 : ExpectedBy (Derives p') p' m xs r' := by cases r' <;> exact h1'
    rw [hd] at h3
    have h4 : ExpectedBy (Derives p) p m xs r' := by
      have e : p'.rtti = p.rtti := hs.rtti
      cases r' <;> simpa only [ExpectedBy, UndominatedBy, ApplicableAtBy, ApplicableBy, DominatesBy, MoreSpecificBy, classesOf, e] using h3
    cases r' <;> exact h4
  rw [Expected.unique he h1] at h2'
  exact h2'.unique h2

/-- C09 in full: the overrider that runs accepts its arguments. -/
theorem C89_accepts (hv : p.Valid) (h : installWith ⟨true, true, true⟩ pl p gen = .ok (rep, img)) (hc : AnyCall p gen img m args xs) (types : List TypeId) {n : Nat}
    (hr : callWith ⟨true, true, true⟩ gen img m args types = .ok n) : ∃ o ∈ m.overriders, o.pf = n ∧ Applicable p o xs := by
  obtain ⟨r, h1, h2⟩ := fixed_call hv h hc types
  rw [hr] at h2
  cases r with
  | noOverrider => simp [DoesFor] at h2
  | ambiguous => simp [DoesFor] at h2
  | run i =>
    obtain ⟨o, ho, e⟩ := h2
    obtain ⟨⟨o', ho', ha⟩, _⟩ := h1.1
    rw [ho] at ho'
    obtain rfl := Option.some.inj ho'
    exact ⟨o, List.mem_of_getElem? ho, (Res.ok.inj e).symm, ha⟩

/-- C11 in part: no call is undefined. -/
theorem C89_defined (hv : p.Valid) (h : installWith ⟨true, true, true⟩ pl p gen = .ok (rep, img)) (hc : AnyCall p gen img m args xs) (types : List TypeId) :
    callWith ⟨true, true, true⟩ gen img m args types ≠ .ub := by
  obtain ⟨r, _, h2⟩ := fixed_call hv h hc types
  intro hu
  rw [hu] at h2
  cases r <;> simp [DoesFor] at h2

open Classical in
/-- C17 in full: the report gives the number of methods for which some arguments have no overrider, respectively are ambiguous. -/
theorem C89_report (hv : p.Valid) (hs : f.select = true) (h : installWith f pl p gen = .ok (rep, img)) :
    (rep.notImplemented = p.methods.countP fun m => decide (∃ xs, Callable p m xs ∧ Expected p m xs .noOverrider)) ∧
    rep.ambiguous = p.methods.countP fun m => decide (∃ xs, Callable p m xs ∧ Expected p m xs .ambiguous) := by
  obtain ⟨c, bases, C, _, hrep, ht, hL⟩ := installWith_ok hv hs h
  have hq : (looped f p).Valid := looped_valid hv
  -- one method, one kind of error
  have key : ∀ m ∈ p.methods, ∀ (cell : Cell) (r : Outcome), (cell = .notImplemented ∧ r = .noOverrider ∨ cell = .ambiguous ∧ r = .ambiguous) →
      ((∃ mask ∈ methMasks pl c.lattice (toMeth p.rtti c.lattice m), cellFixed (moreAt c.lattice (toMeth p.rtti c.lattice m).overriders) (setBits mask) = cell) ↔
        ∃ xs, Callable p m xs ∧ Expected p m xs r) := by
    intro m hm cell r hcr
    have hM : MethOk (looped f p) c.lattice m := C.methOk m hm
    have h1 : ∀ xs : List Cls, xs.length = m.vp.length →
        (cellFixed (moreAt c.lattice (toMeth p.rtti c.lattice m).overriders) (setBits (argMask c.lattice (toMeth p.rtti c.lattice m).overriders xs)) = cell ↔ Expected p m xs r) := by
      intro xs hlen
      have he := (expected_looped _).1 (cellFixed_expected hq.acyclic C.lat hM hlen)
      change Expected p m xs (match cellFixed (moreAt c.lattice (toMeth p.rtti c.lattice m).overriders) (setBits (argMask c.lattice (toMeth p.rtti c.lattice m).overriders xs)) with
        | .ovr i => .run i
        | .notImplemented => .noOverrider
        | .ambiguous => .ambiguous) at he
      generalize cellFixed (moreAt c.lattice (toMeth p.rtti c.lattice m).overriders) (setBits (argMask c.lattice (toMeth p.rtti c.lattice m).overriders xs)) = cl at he
      constructor
      · rintro rfl
        rcases hcr with ⟨rfl, rfl⟩ | ⟨rfl, rfl⟩ <;> exact he
      · intro h2
        have := Expected.unique he h2
        rcases hcr with ⟨rfl, rfl⟩ | ⟨rfl, rfl⟩ <;> cases cl <;> simp_all
    constructor
    · rintro ⟨mask, hmask, hc⟩
      obtain ⟨xs, hok, rfl⟩ := methMasks_mem hmask
      have hlen : xs.length = m.vp.length := by simpa [toMeth] using hok.length_eq.symm
      have hacc : Accepts (looped f p) (classesOf (looped f p) m.vp) xs := (accepts_iff C.lat m.vp hM.vp xs).1 hok
      have hreg := registered_of_accepts C.lat hM hacc
      have hd : Derives (looped f p) = Derives p := funext fun a => funext fun b => propext (sameRecords_derives (looped_mem f p) a b)
      refine ⟨xs, ⟨?_, fun a ha => ((sameRecords (looped_mem f p)).registered a).1 (hreg a ha)⟩, (h1 xs hlen).1 hc⟩
      unfold Accepts at hacc ⊢
      rw [hd] at hacc
      exact hacc
    · rintro ⟨xs, hcall, he⟩
      have hok : ArgsOk c.lattice (toMeth p.rtti c.lattice m) xs := callable_argsOk C.lat hM (callable_looped hcall)
      have hlen : xs.length = m.vp.length := by simpa [toMeth] using hok.length_eq.symm
      exact ⟨_, List.mem_of_getElem? (methMasks_get pl c.lattice _ xs hok), (h1 xs hlen).2 he⟩
  rw [← hrep, C.report]
  unfold accumulate
  dsimp only
  rw [ht, C.meths]
  change List.countP _ (((p.methods.map (toMeth p.rtti c.lattice)).map (buildMethodFixed pl c.lattice))) = _ ∧
    List.countP _ (((p.methods.map (toMeth p.rtti c.lattice)).map (buildMethodFixed pl c.lattice))) = _
  rw [List.map_map, List.countP_map, List.countP_map]
  refine ⟨List.countP_congr fun m hm => ?_, List.countP_congr fun m hm => ?_⟩
  · rw [Function.comp_apply, Function.comp_apply, decide_eq_true_eq, decide_eq_true_eq, ← key m hm .notImplemented .noOverrider (.inl ⟨rfl, rfl⟩)]
    simp only [buildMethodFixed, ← Nat.pos_iff_ne_zero, List.countP_pos_iff, List.mem_map, decide_eq_true_eq]
    constructor
    · rintro ⟨_, ⟨mask, h1, rfl⟩, h2⟩
      exact ⟨mask, h1, by simpa using h2⟩
    · rintro ⟨mask, h1, h2⟩
      exact ⟨_, ⟨mask, h1, rfl⟩, by simpa using h2⟩
  · rw [Function.comp_apply, Function.comp_apply, decide_eq_true_eq, decide_eq_true_eq, ← key m hm .ambiguous .ambiguous (.inr ⟨rfl, rfl⟩)]
    simp only [buildMethodFixed, ← Nat.pos_iff_ne_zero, List.countP_pos_iff, List.mem_map]
    constructor
    · rintro ⟨_, ⟨mask, h1, rfl⟩, h2⟩
      exact ⟨mask, h1, by simpa [evalCellFixed_amb] using h2⟩
    · rintro ⟨mask, h1, h2⟩
      exact ⟨_, ⟨mask, h1, rfl⟩, by simpa [evalCellFixed_amb] using h2⟩

/-! ## Examples -/

/-- The calls that refute C01, C02 and C05, with the corrections. -/
example : runWith ⟨true, true, true⟩ late f5 [5] = some (.ok 50) ∧ runWith ⟨true, true, true⟩ multi1 cyc1 [5, 9] = some (.ok 1) ∧
    runWith ⟨true, true, true⟩ gap gapped [1, 2] = some (.ok 12) := by decide +kernel

/-- `C89_report` for a program for which C17 does not hold. -/
example : (match installWith ⟨true, true, true⟩ .std lateNone 0 with
    | .ok (rep, _) => rep.notImplemented
    | _ => 0) ≠ 0 := by decide +kernel

end OpenMethod.Props

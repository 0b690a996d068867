import Verif.Proof.N2216All
import Verif.Props.Corrected
import Verif.Props.N2216

/-!
# C97: four local corrections make option `n2216` right, and all four are needed
-/

namespace OpenMethod.Props

open Spec Examples

/-- A set of corrections. -/
structure FixesN where
  /-- in `augment_classes`, the loop that collects the bases is executed twice -/
  bases : Bool
  /-- overriders are compared with all candidates, also those that have been removed -/
  select : Bool
  /-- in `resolve_multi_next`, a parameter that is not virtual does not count -/
  gaps : Bool
  /-- the loop that compares return types stops after it has removed candidate `i` -/
  stop : Bool
  deriving DecidableEq, Repr

/-- `compile` with option `n2216` and corrections. This is not the code of the library, unless there are none: see `C97_library`. -/
def compileN (f : FixesN) (pl : Platform) (p : Program) : Res Compiled := do
  let L ← if f.bases then augmentClassesTwice pl p.rtti p.classes else augmentClasses pl p.rtti p.classes
  let ms ← augment p.rtti L p.methods
  let s := assignSlots pl L (usedByVp ms)
  let vtbl ← (allWrites pl L s.slots ms).foldlM (writeEntry s.first)
    (fun c => List.replicate (s.size c) { method := 0, vp := 0, group := 0 })
  let ts ← buildMethodsBy f.select f.stop pl L ms
  return { lattice := L, meths := ms, slots := s, tables := ts, vtbl := vtbl, report := accumulate ts }

/-- `install` with option `n2216` and corrections. -/
def installN (f : FixesN) (pl : Platform) (p : Program) (gen : Nat) : Res (Report × Image) := do
  let c ← compileN f pl p
  let img ← writeGlobal c gen
  return (c.report, img)

/-- A call with corrections. -/
def callN (f : FixesN) : Nat → Image → MethodInfo → List (Res Ptr) → List TypeId → Res Nat :=
  if f.gaps then callMethodFixed else callMethod

/-- With these corrections, C38 and C39 hold: in all programs, with all arguments. -/
def SufficesN (f : FixesN) : Prop :=
  (∀ (pl : Platform) (p : Program) (gen : Nat), p.Valid → installN f pl p gen ≠ .ub) ∧
  ∀ (pl : Platform) (p : Program) (gen : Nat) (rep : Report) (img : Image) (m : MethodInfo) (args : List (Res Ptr)) (xs : List Cls) (types : List TypeId),
    p.Valid → installN f pl p gen = .ok (rep, img) → AnyCall p gen img m args xs → Prefers p m xs (callN f gen img m args types)

variable {f : FixesN} {pl : Platform} {p : Program} {gen : Nat} {rep : Report} {img : Image} {m : MethodInfo} {args : List (Res Ptr)} {xs : List Cls}

/-- Without corrections, this is the library, and what is asked is C38 and C39. -/
theorem C97_library : (∀ pl p gen, installN ⟨false, false, false, false⟩ pl p gen = install pl true p gen) ∧ callN ⟨false, false, false, false⟩ = callMethod ∧
    (SufficesN ⟨false, false, false, false⟩ ↔ C38 ∧ C39) := by
  have h : ∀ pl p gen, installN ⟨false, false, false, false⟩ pl p gen = install pl true p gen := by
    intro pl p gen
    unfold installN install compileN compile
    simp only [buildMethodsBy_library, Bool.false_eq_true, if_false]
  refine ⟨h, rfl, ?_⟩
  unfold SufficesN C38 C39
  simp only [h]
  exact Iff.rfl

/-- The corrections are all made. -/
def allN : FixesN := ⟨true, true, true, true⟩

/-- The same for the other three. -/
def allF : Fixes := ⟨true, true, true⟩

theorem compileN_looped : compileN allN pl p = compileN ⟨false, true, true, true⟩ pl (looped allF p) := by
  simp [compileN, allN, allF, looped, augmentClasses_loop]

/-- What `installN` does when all corrections are made. -/
theorem installN_cases (hv : p.Valid) (pl : Platform) (gen : Nat) :
    (∃ e, installN allN pl p gen = .err e) ∨
    ∃ c bases img, augmentClasses pl (looped allF p).rtti (looped allF p).classes = .ok c.lattice ∧ CompiledBase pl (looped allF p) c ∧
      List.Forall₂ (TableBy pl c.lattice) c.meths c.tables ∧ ImageOk c gen bases img ∧ installN allN pl p gen = .ok (c.report, img) := by
  have hq : (looped allF p).Valid := looped_valid hv
  unfold installN
  rw [compileN_looped]
  generalize looped allF p = q at hq ⊢
  cases hL : augmentClasses pl q.rtti q.classes with
  | ub => exact absurd hL augmentClasses_ub
  | err e => exact .inl ⟨e, by simp [compileN, hL]⟩
  | ok L =>
    cases hM : augment q.rtti L q.methods with
    | ub =>
      have hlat := augmentClasses_ok hq.acyclic hL
      rcases augment_cases hlat hq.wf (augmentClasses_known hL) with ⟨t, h3, _⟩ | ⟨_, ⟨_, _, _, _, _, _, _, h3, _⟩ | ⟨_, h3, _⟩⟩ <;>
      · rw [hM] at h3; simp at h3
    | err e => exact .inl ⟨e, by simp [compileN, hL, hM]⟩
    | ok ms =>
      right
      obtain ⟨vtbl, h1, h2⟩ := compile_base hq.acyclic hq.wf hL hM
      obtain ⟨hms, _, _⟩ := augment_ok.1 hM
      obtain ⟨ts, h3, h4⟩ := buildMethodsBy_ok pl q.rtti L q.methods
      rw [← hms] at h3 h4
      have C := h2 ts (h4.imp fun _ _ h => h.toTableBase)
      obtain ⟨bases, img, hi, I⟩ := writeGlobal_base C gen
      refine ⟨_, bases, img, rfl, C, h4, I, ?_⟩
      simp only [compileN, Bool.false_eq_true, if_false, hL, hM, Res.ok_bind, h1, h3, Res.pure_eq, hi]

theorem undominated_looped (i : Nat) : Undominated (looped allF p) m xs i ↔ Undominated p m xs i := by
  have hd : Derives (looped allF p) = Derives p := funext fun a => funext fun b => propext (sameRecords_derives (looped_mem allF p) a b)
  unfold Undominated ApplicableAt Dominates Applicable MoreSpecific Accepts ProperlyDerives
  rw [hd]
  exact Iff.rfl

/-- C97, sufficiency. -/
theorem C97_right : SufficesN allN := by
  constructor
  · intro pl p gen hv
    rcases installN_cases hv pl gen with ⟨e, h⟩ | ⟨_, _, _, _, _, _, _, h⟩ <;> simp [h]
  intro pl p gen rep img m args xs types hv h hc
  have hq : (looped allF p).Valid := looped_valid hv
  rcases installN_cases hv pl gen with ⟨e, h'⟩ | ⟨c, bases, img', hL, C, hT, I, h'⟩
  · rw [h] at h'; simp at h'
  rw [h] at h'
  simp only [Res.ok.injEq, Prod.mk.injEq] at h'
  obtain ⟨_, rfl⟩ := h'
  have hmem : m ∈ (looped allF p).methods := hc.mem
  have hcall : Callable (looped allF p) m xs := callable_looped hc.callable
  have ho : ArgsSafe (looped allF p) (classesOf (looped allF p) m.vp) xs :=
    OrderSafe.call (fun x _ => (twice_allFound (p := p) (cs := p.classes) (fun _ => Iff.rfl) x).orderSafe) hmem hcall.1
  have hM := C.methOk m hmem
  have hok := callable_argsOk C.lat hM hcall
  obtain ⟨i, hi⟩ := List.getElem?_of_mem hmem
  obtain ⟨t, cell, g, ss, ht, hcell, hpf, hss, hres⟩ :=
    resolve_ok_base C I hq.ids hi (argsFor_all (img.ptr gen) xs) hok (slotSafe_of_argsSafe hq.acyclic C.lat C.meths hL ho) (.inr ⟨0, xs.length, 0, by simp⟩)
  obtain ⟨t', ht', hB⟩ := forall₂_get hT (show c.meths[i]? = some (toMeth (looped allF p).rtti c.lattice m) by rw [C.meths, List.getElem?_map, hi]; rfl)
  obtain rfl := Option.some.inj (ht.symm.trans ht')
  obtain ⟨cell', hcell', hC⟩ := hB.cell xs hok
  obtain rfl := Option.some.inj (hcell.symm.trans hcell')
  have hlen : xs.length = m.vp.length := by
    have := hok.length_eq
    simpa [toMeth] using this.symm
  rw [argMask_eq C.lat hM hlen] at hC
  have key : ∀ j, j ∈ keepBest (moreAt c.lattice (toMeth (looped allF p).rtti c.lattice m).overriders) (appIdx (looped allF p) m xs) ↔ Undominated p m xs j := by
    intro j
    rw [← undominated_looped, mem_keepBest, mem_appIdx]
    unfold Undominated
    simp only [mem_appIdx, ← moreAt_iff C.lat hq.acyclic hM, Bool.not_eq_true]
  have hcm : callN allN gen img m args types = enter g types := by
    show callMethodFixed gen img m args types = _
    rw [callFixed_key hc]
    unfold callMethod
    dsimp only [MethodInfo.arity] at hres ⊢
    rw [hss, Res.ofOption_some, Res.ok_bind, hres, Res.ok_bind]
  have hovr : ∀ i, cell = .ovr i → ∃ o, m.overriders[i]? = some o ∧ enter g types = .ok o.pf := by
    rintro i rfl
    simp only [pfOf, toMeth, List.getElem?_map, Option.map_map, Option.map_eq_some_iff] at hpf
    obtain ⟨o, ho, rfl⟩ := hpf
    exact ⟨o, ho, rfl⟩
  rw [hcm]
  refine ⟨?_, ?_, ?_⟩
  · intro a ts
    cases hcl : cell with
    | ambiguous => exact absurd hcl hC.amb
    | notImplemented =>
      rw [hcl] at hpf
      obtain rfl := Option.some.inj hpf
      simp [enter]
    | ovr i =>
      obtain ⟨o, _, ho⟩ := hovr i hcl
      rw [ho]; simp
  · intro r hr
    cases hcl : cell with
    | ambiguous => exact absurd hcl hC.amb
    | notImplemented =>
      rw [hcl] at hpf
      obtain rfl := Option.some.inj hpf
      simp [enter] at hr
    | ovr i =>
      obtain ⟨o, ho, ho'⟩ := hovr i hcl
      rw [ho'] at hr
      exact ⟨i, o, (key i).1 (hC.ovr i hcl), ho, Res.ok.inj hr⟩
  · intro hcov i o hu ho hbest
    have hcov' : CovariantReturn (looped allF p) m := ⟨hcov.1, ((sameRecords (looped_mem allF p)).registered _).2 hcov.2⟩
    have hd : ∀ a b, Derives (looped allF p) a b ↔ Derives p a b := sameRecords_derives (looped_mem allF p)
    have hret : ∀ (j : Nat) (b : OverriderInfo), m.overriders[j]? = some b →
        retAt (toMeth (looped allF p).rtti c.lattice m).overriders j = some (p.rtti.ti b.ret) := by
      intro j b hb
      rw [retAt_eq C.lat hb, retB, if_pos hcov']
      rfl
    have hci := hC.best i ((key i).2 hu) ?_ ?_
    · obtain ⟨o', ho', hr'⟩ := hovr i hci
      obtain rfl := Option.some.inj (ho.symm.trans ho')
      exact hr'
    · intro j hj
      obtain ⟨b, hb, _⟩ := ((key j).1 hj).1
      rw [hret j b hb]; rfl
    · intro j hj hne rx ry hrx hry
      obtain ⟨b, hb, _⟩ := ((key j).1 hj).1
      have hp := hbest j b ((key j).1 hj) hb hne
      rw [hret i o ho] at hrx
      rw [hret j b hb] at hry
      obtain rfl := Option.some.inj hrx
      obtain rfl := Option.some.inj hry
      have hro := hM.oret o (List.mem_of_getElem? ho) ((methodRet_eq C.lat m).2 hcov')
      have hrb := hM.oret b (List.mem_of_getElem? hb) ((methodRet_eq C.lat m).2 hcov')
      refine ⟨(C.lat.mem_td _ hrb _).2 ((hd _ _).2 hp.1), fun hd' => ?_⟩
      exact properlyDerives_asymm hv.acyclic hp ⟨(hd _ _).1 ((C.lat.mem_td _ hro _).1 hd'), Ne.symm hp.2⟩

/-- A call in a program, with corrections. -/
def runFixedN (f : FixesN) (p : Program) (m : MethodInfo) (xs : List Cls) : Option (Res Nat) :=
  match installN f .std p 0 with
  | .ok (_, img) => some (callN f 0 img m (Check.mkArgs (img.ptr 0) m.params xs) [])
  | _ => none

/-- An overrider runs that is dominated, or not applicable. -/
theorem not_sufficesN {r : Nat} (hv : Check.validB p = true) (h : runFixedN f p m xs = some (.ok r)) (hcall : Check.anyCallB p m xs = true)
    (hne : ((Check.bests p m xs).all fun i => (m.overriders[i]?).all fun o => o.pf ≠ r) = true) : ¬ SufficesN f := by
  intro hs
  unfold runFixedN at h
  split at h
  · next rep img he =>
    obtain ⟨i, o, hu, ho, hr⟩ := (hs.2 .std p 0 rep img m _ xs [] (Check.valid hv) he (Check.anyCall hv hcall 0 img)).2.1 r (Option.some.inj h)
    rw [List.all_eq_true] at hne
    have := hne i ((Check.mem_bests (Check.validB_ranked hv)).2 hu)
    rw [ho] at this
    simp [hr] at this
  · simp at h

/-- C97: the four corrections together are sufficient, and no fewer are. -/
theorem C97 (f : FixesN) : SufficesN f ↔ f = ⟨true, true, true, true⟩ := by
  constructor
  · intro h
    obtain ⟨a, b, c, d⟩ := f
    cases d with
    | false => exact absurd (isUb_eq (by cases a <;> cases b <;> cases c <;> decide +kernel)) (h.1 .std coUb 0 (Check.valid (by decide +kernel)))
    | true =>
      cases a with
      | false =>
        cases b <;> cases c <;>
          exact absurd h (not_sufficesN (p := late) (m := f5) (xs := [5]) (r := 20) (by decide +kernel) (by decide +kernel) (by decide +kernel) (by decide +kernel))
      | true =>
        cases b with
        | false =>
          cases c <;> exact absurd h (not_sufficesN (p := multi1) (m := cyc1) (xs := [5, 9]) (r := 3)
            (by decide +kernel) (by decide +kernel) (by decide +kernel) (by decide +kernel))
        | true =>
          cases c with
          | false => exact absurd h (not_sufficesN (p := gap) (m := gapped) (xs := [1, 2]) (r := 11) (by decide +kernel) (by decide +kernel) (by decide +kernel) (by decide +kernel))
          | true => rfl
  · rintro rfl
    exact C97_right

/-! Examples: with all corrections. -/

example : runFixedN allN coUb coUp [2, 2, 2] = some (.ok 2) := by decide +kernel

example : runFixedN allN multi1 cyc1 [5, 9] = some (.ok 1) := by decide +kernel

end OpenMethod.Props

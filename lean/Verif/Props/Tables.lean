import Verif.Proof.SafeOrder
import Verif.Proof.Words
import Verif.Proof.Outcome
import Verif.Proof.Accept
import Verif.SpecTables
import Verif.Examples.Programs

/-!
# C10-C12, C17, C18, C21, C41, C49: tables, slots, report, errors
-/

namespace OpenMethod.Props

open Spec Examples

variable {n : Bool} {pl : Platform} {p : Program} {gen : Nat} {rep : Report} {img : Image} {m m' : MethodInfo}
  {args : List (Res Ptr)} {xs : List Cls}

/-! ## C21: the inheritance relation -/

/-- C21: after `augment_classes`, a class is in the covariant classes of another one, which is the relation on which the
applicability and the specificity of overriders are decided, if and only if it derives from it in the reflexive and transitive
closure of the registered pairs. -/
theorem C21 {L : Lattice} (hac : Acyclic p) (h : augmentClasses pl p.rtti p.classes = .ok L) :
    (∀ c, c ∈ L.order ↔ Registered p c) ∧ ∀ c, Registered p c → ∀ x, x ∈ L.td c ↔ Derives p x c := by
  have H := augmentClasses_ok hac h
  exact ⟨H.mem_order, fun c hc x => H.mem_td c ((H.mem_order c).2 hc) x⟩

/-- The other relation computed by `augment_classes`, the transitive bases, is only used to assign slots. It is not complete: this
is the cause of C06. -/
theorem C21_bases_refuted : ¬ ∀ (pl : Platform) (p : Program) (L : Lattice), Acyclic p →
    augmentClasses pl p.rtti p.classes = .ok L → ∀ d b, ProperlyDerives p d b → b ∈ L.tb d := by
  intro h
  have hr : Check.ranked late = true := Check.validB_ranked (by decide +kernel)
  have hL : ∃ L, augmentClasses .std late.rtti late.classes = .ok L ∧ 1 ∉ L.tb 5 := by
    have : (match augmentClasses .std late.rtti late.classes with
      | .ok L => decide (1 ∉ L.tb 5)
      | _ => false) = true := by decide +kernel
    split at this
    · rename_i L hL
      exact ⟨L, hL, by simpa using this⟩
    · simp at this
  obtain ⟨L, hL, hn⟩ := hL
  exact hn (h .std late L (Check.acyclic hr) hL 5 1 ⟨(Check.mem_anc hr).1 (by decide +kernel), by decide⟩)

/-- What the list of transitive bases of a class contains: the bases that can be found through the records that come before one of
those of the class. -/
theorem C21_bases {L : Lattice} (hac : Acyclic p) (h : augmentClasses pl p.rtti p.classes = .ok L) (d b : Cls) :
    b ∈ L.tb d ↔ FoundIn p p.classes d b := mem_tb_iff hac h d b

/-- `AllFound` says exactly that the list of transitive bases is complete. It implies `OrderSafe`, the condition under which most of the
properties below are proved. -/
theorem C21_allFound {L : Lattice} (hac : Acyclic p) (h : augmentClasses pl p.rtti p.classes = .ok L) (x : Cls) :
    AllFound p x ↔ ∀ b, ProperlyDerives p x b → b ∈ L.tb x :=
  forall_congr' fun b => imp_congr_right fun _ => (mem_tb_iff hac h x b).symm

/-- A class naming all its bases, and registration of bases first, are safe: all the bases are found. Single inheritance and registration of
derived classes first is safe, because each class finds one base only. Any order is safe for a class if the parameters that accept it are all of
the same class. -/
theorem C21_simple {x : Cls} :
    (ListsAncestors p x → AllFound p x) ∧ (BasesFirst p x → AllFound p x) ∧
    (AllFound p x → OrderSafe p x) ∧ (OneFound p x → OrderSafe p x) ∧ (OneParam p x → OrderSafe p x) :=
  ⟨ListsAncestors.allFound, BasesFirst.allFound, AllFound.orderSafe, OneFound.orderSafe, OneParam.orderSafe⟩

/-! ## C10: slots -/

/-- C10 in full: two virtual parameters that accept a common class have different slots. -/
def C10 : Prop :=
  ∀ (pl : Platform) (n : Bool) (p : Program) (gen : Nat) (rep : Report) (img : Image) (m m' : MethodInfo) (k k' s s' : Nat) (x : Cls),
    p.Valid → install pl n p gen = .ok (rep, img) → m ∈ p.methods → m' ∈ p.methods → (m, k) ≠ (m', k') →
    Takes p m k x → Takes p m' k' x → SlotOf img m k s → SlotOf img m' k' s' → s ≠ s'

/-- Every virtual parameter has a slot. -/
theorem C10_slots (hv : p.Valid) (h : install pl n p gen = .ok (rep, img)) (hm : m ∈ p.methods) {k : Nat} (hk : k < m.vp.length) :
    ∃ s, SlotOf img m k s := by
  obtain ⟨c, bases, _, C, _, I, _, _⟩ := install_ok hv h
  obtain ⟨i, hi⟩ := List.getElem?_of_mem hm
  obtain ⟨t, _, ht, _⟩ := C.table (i := i) (by rw [C.meths, List.getElem?_map, hi]; rfl)
  exact ⟨_, hk, _, slotsStrides_at C.toCompiledBase I hv.ids hi ht, by rw [List.getElem?_append_left (by simpa using hk)]; simp [hk]; rfl⟩

theorem slotOf_iff (hv : p.Valid) {c : Compiled} {bases : List (Option Nat)} (C : CompiledOk n pl p c) (I : ImageOk c gen bases img) {i k s : Nat}
    (hi : p.methods[i]? = some m) (h : SlotOf img m k s) : s = c.slots.slots (i, k) := by
  obtain ⟨hk, ss, h1, h2⟩ := h
  obtain ⟨t, _, ht, _⟩ := C.table (i := i) (by rw [C.meths, List.getElem?_map, hi]; rfl)
  rw [slotsStrides_at C.toCompiledBase I hv.ids hi ht] at h1
  obtain rfl := Option.some.inj h1
  rw [List.getElem?_append_left (by simpa using hk)] at h2
  simp [hk] at h2
  exact h2.symm

/-- C10 does not hold: in `late`, `f5` and `f2` use the same slot of class 5. -/
theorem C10_refuted : ¬ C10 := by
  intro h
  obtain ⟨rep, img, hi, hs⟩ : ∃ rep img, install .std false late 0 = .ok (rep, img) ∧
      (slotsStridesAt img f5.id).bind (·[0]?) = some 0 ∧ (slotsStridesAt img f2.id).bind (·[0]?) = some 0 := by
    have : (match install .std false late 0 with
      | .ok (_, img) => decide ((slotsStridesAt img f5.id).bind (·[0]?) = some 0 ∧ (slotsStridesAt img f2.id).bind (·[0]?) = some 0)
      | _ => false) = true := by decide +kernel
    split at this
    · rename_i rep img hi
      exact ⟨rep, img, hi, by simpa using this⟩
    · simp at this
  have hr : Check.ranked late = true := Check.validB_ranked (by decide +kernel)
  simp only [Option.bind_eq_some_iff] at hs
  obtain ⟨⟨ss, h1, h2⟩, ⟨ss', h3, h4⟩⟩ := hs
  exact h .std false late 0 rep img f5 f2 0 0 0 0 5 late_valid hi (by decide +kernel) (by decide +kernel) (by decide +kernel)
    ⟨_, rfl, (Check.mem_anc hr).1 (by decide +kernel)⟩ ⟨_, rfl, (Check.mem_anc hr).1 (by decide +kernel)⟩
    ⟨by decide +kernel, ss, h1, h2⟩ ⟨by decide +kernel, ss', h3, h4⟩ rfl

/-- C10 when the order of registration is supported for the classes of these parameters, any inheritance graph. -/
theorem C10_partial (hv : p.Valid) (h : install pl n p gen = .ok (rep, img)) (hm : m ∈ p.methods) (hm' : m' ∈ p.methods)
    {k k' s s' : Nat} {x : Cls} (hne : (m, k) ≠ (m', k')) (hx : ∀ b b', (classesOf p m.vp)[k]? = some b → (classesOf p m'.vp)[k']? = some b' → Separated p b b' ∧ Separated p b' b)
    (ht : Takes p m k x) (ht' : Takes p m' k' x)
    (hs : SlotOf img m k s) (hs' : SlotOf img m' k' s') : s ≠ s' := by
  obtain ⟨c, bases, _, C, _, I, _, hL⟩ := install_ok hv h
  obtain ⟨i, hi⟩ := List.getElem?_of_mem hm
  obtain ⟨i', hi'⟩ := List.getElem?_of_mem hm'
  rw [slotOf_iff hv C I hi hs, slotOf_iff hv C I hi' hs']
  obtain ⟨v, hv1, hv2⟩ := ht
  obtain ⟨v', hv1', hv2'⟩ := ht'
  obtain ⟨hb, hb'⟩ := hx (p.rtti.ti v) (p.rtti.ti v') (by simp [classesOf, hv1]) (by simp [classesOf, hv1'])
  refine C.slots.distinct (i, k) (p.rtti.ti v) (i', k') (p.rtti.ti v') x (avoids_of_separated hv.acyclic C.lat hL hb')
    (avoids_of_separated hv.acyclic C.lat hL hb) ?_ ?_ ?_
    ((C.lat.derives_iff _ _).1 hv2) ((C.lat.derives_iff _ _).1 hv2')
  · exact mem_usedByVp.2 ⟨toMeth p.rtti c.lattice m, by rw [C.meths, List.getElem?_map, hi]; rfl, by simp [toMeth, hv1]⟩
  · exact mem_usedByVp.2 ⟨toMeth p.rtti c.lattice m', by rw [C.meths, List.getElem?_map, hi']; rfl, by simp [toMeth, hv1']⟩
  · rintro e
    simp only [Prod.mk.injEq] at e
    obtain ⟨rfl, rfl⟩ := e
    obtain rfl := Option.some.inj (hi.symm.trans hi')
    exact hne rfl

/-! ## C49: v-tables -/

/-- C49: the v-table of a class begins at the lowest and ends at the highest slot of the parameters that accept the class, and a call
only reads it inside the dispatch data: `img.vptr x` is the stored pointer, which may itself lie outside. -/
theorem C49 (hv : p.Valid) {c : Compiled} (hc : compile pl n p = .ok c) (hi : writeGlobal c gen = .ok img) {x : Cls} (hx : Registered p x) :
    (c.vtbl x ≠ [] →
      (∃ m ∈ p.methods, ∃ k, Takes p m k x ∧ SlotOf img m k (c.slots.first x)) ∧
      ∃ m ∈ p.methods, ∃ k, Takes p m k x ∧ SlotOf img m k (c.slots.first x + (c.vtbl x).length - 1)) ∧
    ∀ m ∈ p.methods, ∀ k s, Takes p m k x → SlotOf img m k s →
      c.slots.first x ≤ s ∧ s < c.slots.first x + (c.vtbl x).length ∧ 0 ≤ img.vptr x + s ∧ img.vptr x + s < img.data.length := by
  have C := compile_ok hv.acyclic hv.wf hc
  obtain ⟨bases, img', hi', I⟩ := writeGlobal_ok C gen
  rw [hi] at hi'
  obtain rfl := Res.ok.inj hi'
  have hxo := (C.lat.mem_order x).2 hx
  have back : ∀ mp X, mp ∈ usedByVp c.meths X → Up c.lattice x X →
      ∃ m ∈ p.methods, ∃ k, Takes p m k x ∧ SlotOf img m k (c.slots.slots mp) := by
    rintro ⟨i, k⟩ X hmp hup
    obtain ⟨m', h1, h2⟩ := mem_usedByVp.1 hmp
    rw [C.meths, List.getElem?_map, Option.map_eq_some_iff] at h1
    obtain ⟨m, hm, rfl⟩ := h1
    simp only [toMeth, List.getElem?_map, Option.map_eq_some_iff] at h2
    obtain ⟨v, hv1, rfl⟩ := h2
    have hk := (List.getElem?_eq_some_iff.1 hv1).1
    obtain ⟨t, _, ht, _⟩ := C.table (i := i) (by rw [C.meths, List.getElem?_map, hm]; rfl)
    exact ⟨m, List.mem_of_getElem? hm, k, ⟨v, hv1, (C.lat.derives_iff _ _).2 hup⟩, hk, _, slotsStrides_at C.toCompiledBase I hv.ids hm ht,
      by rw [List.getElem?_append_left (by simpa using hk)]; simp [hk]⟩
  refine ⟨fun hne => ?_, ?_⟩
  · have hpos : 0 < c.slots.size x := by
      rw [← C.vlen]
      exact List.length_pos_iff.2 hne
    obtain ⟨mp, X, h1, h2, h3⟩ := C.slots.first_used x hxo hpos
    obtain ⟨mp', X', h1', h2', h3'⟩ := C.slots.last_used x hxo hpos
    refine ⟨h3 ▸ back mp X h1 h2, ?_⟩
    rw [C.vlen, show c.slots.first x + c.slots.size x - 1 = c.slots.slots mp' by omega]
    exact back mp' X' h1' h2'
  · intro m hm k s ht hs
    obtain ⟨i, hi⟩ := List.getElem?_of_mem hm
    obtain rfl := slotOf_iff hv C I hi hs
    obtain ⟨v, hv1, hv2⟩ := ht
    have hr := C.slots.range (i, k) (p.rtti.ti v) x
      (mem_usedByVp.2 ⟨toMeth p.rtti c.lattice m, by rw [C.meths, List.getElem?_map, hi]; rfl, by simp [toMeth, hv1]⟩)
      ((C.lat.derives_iff _ _).1 hv2)
    rw [C.vlen]
    refine ⟨hr.1, hr.2, ?_⟩
    obtain ⟨start, h1, h2⟩ := I.vtbl x hxo
    have hlt : c.slots.slots (i, k) - c.slots.first x < (c.vtbl x).length := by rw [C.vlen]; omega
    obtain ⟨w, _, hw⟩ := h2 _ _ (List.getElem?_eq_getElem hlt)
    have := (List.getElem?_eq_some_iff.1 hw).1
    omega

/-! ## C12: writes -/

/-- C12: `write_global_data` does not write past its buffer, for any program that `compile` accepts; writing past the buffer is
undefined behaviour in the model. -/
theorem C12 (hv : p.Valid) {c : Compiled} (hc : compile pl n p = .ok c) (gen : Nat) :
    ∃ img, writeGlobal c gen = .ok img ∧ img.data.length ≤ dataSize c := by
  obtain ⟨bases, img, h, I⟩ := writeGlobal_ok (compile_ok hv.acyclic hv.wf hc) gen
  exact ⟨img, h, I.size⟩

/-- C12, v-tables: the unchecked stores in the v-tables of classes, while building dispatch tables, are all inside the v-tables. -/
theorem C12_vtbl (hv : p.Valid) {L : Lattice} {ms : List Meth} (hL : augmentClasses pl p.rtti p.classes = .ok L)
    (hM : augment p.rtti L p.methods = .ok ms) :
    ∃ vtbl, (allWrites pl L (assignSlots pl L (usedByVp ms)).slots ms).foldlM (writeEntry (assignSlots pl L (usedByVp ms)).first)
      (fun c => List.replicate ((assignSlots pl L (usedByVp ms)).size c) { method := 0, vp := 0, group := 0 }) = .ok vtbl := by
  have hlat := augmentClasses_ok hv.acyclic hL
  have hmok := methOk_of_augment hlat hM hv.wf
  obtain ⟨hms, _, _⟩ := augment_ok.1 hM
  have hvp : ∀ m ∈ ms, ∀ v ∈ m.vp, v ∈ L.order := by
    intro m hm v hv
    rw [hms] at hm
    obtain ⟨m', hm', rfl⟩ := List.mem_map.1 hm
    obtain ⟨t, ht, rfl⟩ := List.mem_map.1 hv
    exact (hmok m' hm').vp t ht
  obtain ⟨rk, hctx⟩ := exists_slotCtx hlat hv.acyclic ms hvp
  have hS := assignSlots_ok hctx pl
  obtain ⟨vtbl, hv1, _⟩ := writes_ok (assignSlots pl L (usedByVp ms)).first
    (fun c => List.replicate ((assignSlots pl L (usedByVp ms)).size c) ({ method := 0, vp := 0, group := 0 } : Entry))
    (allWrites pl L (assignSlots pl L (usedByVp ms)).slots ms) (by
      intro w hw
      obtain ⟨mi, m, k, v, n, g, hm, hv, hn, hc, h1, _⟩ := mem_allWrites.1 hw
      have htd := groupsOf_mem pl L (List.mem_of_getElem? hn) hc
      have hvo := hvp m (List.mem_of_getElem? hm) v (List.mem_of_getElem? hv)
      have := hS.range (mi, k) v w.1 (mem_usedByVp.2 ⟨m, hm, hv⟩) ((hctx.mem_td v hvo w.1).1 htd)
      rw [List.length_replicate, h1]
      exact this)
  exact ⟨vtbl, hv1⟩

/-! ## C11: reads -/

/-- C11 in full. In the model, reading outside the dispatch data, or a word of another kind than the one that was written, is
undefined behaviour. -/
def C11 : Prop :=
  ∀ (pl : Platform) (n : Bool) (p : Program) (gen : Nat) (rep : Report) (img : Image) (m : MethodInfo) (args : List (Res Ptr))
    (xs : List Cls) (types : List TypeId), p.Valid → install pl n p gen = .ok (rep, img) → AnyCall p gen img m args xs →
    m.vp.length = 1 ∨ Contiguous m.params → callMethod gen img m args types ≠ .ub

/-- C11 does not hold: when `f2` has two virtual parameters, calling `f5` reads a pointer to a dispatch table as a function. -/
theorem C11_refuted : ¬ C11 := by
  intro h
  obtain ⟨rep, img, args, hv, hi, hc, hr⟩ := runN_any (pl := .std) (n := false) (p := lateMulti) (m := f5) (xs := [5]) (r := .ub)
    (by decide +kernel) (by decide +kernel) (by decide +kernel)
  exact h _ _ _ _ _ _ _ _ _ [] hv hi hc (.inl rfl) hr

/-- C11 when the order of registration is supported. -/
theorem C11_partial (hv : p.Valid) (h : install pl n p gen = .ok (rep, img)) (hc : CallTo p gen img m args xs) (types : List TypeId) :
    callMethod gen img m args types ≠ .ub := by
  obtain ⟨left, _, h2⟩ := call_gen hv h hc types
  rw [h2]
  unfold resultFor resultOf
  split
  · split <;> simp
  · split <;> simp

/-! ## C17: the report -/

theorem cellFor_ambiguous {l : List Nat} (h : cellFor n l = .ambiguous) : n = false ∧ 1 < l.length := by
  unfold cellFor at h
  split at h
  · split at h <;> simp at h
  · rename_i hn
    refine ⟨by simpa using hn, ?_⟩
    match l with
    | [] => simp [cellOf] at h
    | [_] => simp [cellOf] at h
    | _ :: _ :: _ => simp

theorem cellFor_notImplemented {l : List Nat} : cellFor n l = .notImplemented ↔ l = [] := by
  unfold cellFor
  split
  · cases h : l.getLast? with
    | none => simp [List.getLast?_eq_none_iff.1 h]
    | some o =>
      simp only [reduceCtorEq, false_iff]
      rintro rfl
      simp at h
  · match l with
    | [] => simp [cellOf]
    | [_] => simp [cellOf]
    | _ :: _ :: _ => simp [cellOf]

theorem registered_of_accepts {L : Lattice} (hL : LatticeOk p L) (hM : MethOk p L m) (h : Accepts p (classesOf p m.vp) xs) :
    ∀ a ∈ xs, Registered p a := by
  intro a ha
  obtain ⟨j, hj⟩ := List.getElem?_of_mem ha
  obtain ⟨q, hq, hd⟩ := forall₂_get_left h.flip hj
  unfold classesOf at hq
  rw [List.getElem?_map, Option.map_eq_some_iff] at hq
  obtain ⟨t, ht, rfl⟩ := hq
  rcases Relation.ReflTransGen.cases_head hd with rfl | ⟨b, hb, _⟩
  · exact (hL.mem_order _).1 (hM.vp t (List.mem_of_getElem? ht))
  · exact (hL.mem_order _).1 (hL.declared_mem _ _ hb).1

theorem left_nil {more : Nat → Nat → Bool} {ret : Nat → Option Cls} {td : Cls → List Cls} {cands surv left : List Nat} {r : CellResult}
    (h : CellOk n more ret td cands r surv left) : left = [] ↔ cands = [] := by
  constructor
  · rintro rfl
    by_contra hne
    exact remainL_nonempty h.isLeft (h.isSurv.nonempty hne) rfl
  · rintro rfl
    have h1 : surv = [] := by simpa using h.isSurv.sub
    have := remainL_sublist h.isLeft
    rw [h1] at this
    simpa using this

open Classical in
/-- C17, exact value: `not_implemented` is the number of methods for which some tuple of registered classes has no applicable
overrider. -/
theorem C17_notImplemented (hv : p.Valid) (h : install pl n p gen = .ok (rep, img)) :
    rep.notImplemented = p.methods.countP fun m => decide (∃ xs, Callable p m xs ∧ ∀ i, ¬ ApplicableAt p m xs i) := by
  obtain ⟨c, bases, _, C, hi, I, hrep, _⟩ := install_ok hv h
  rw [← hrep, C.report]
  have hT := C.tables
  rw [C.meths] at hT
  have hM := C.methOk
  have hL := C.lat
  simp only [accumulate]
  generalize c.tables = ts at hT
  generalize p.methods = ms at hT hM ⊢
  induction ms generalizing ts with
  | nil =>
    cases hT
    rfl
  | cons m ms ih =>
    cases hT with
    | cons h1 h2 =>
      rename_i t ts
      rw [List.countP_cons, List.countP_cons, ih ts h2 fun m hm => hM m (List.mem_cons_of_mem _ hm)]
      congr 1
      obtain ⟨rs, hT⟩ := h1
      have hMm := hM m (by simp)
      have key : t.notImplemented ≠ 0 ↔ ∃ xs, Callable p m xs ∧ ∀ i, ¬ ApplicableAt p m xs i := by
        rw [hT.notImplemented, ← Nat.pos_iff_ne_zero, List.countP_pos_iff]
        have happ : ∀ xs : List Cls, xs.length = m.vp.length →
            (setBits (argMask c.lattice (toMeth p.rtti c.lattice m).overriders xs) = [] ↔ ∀ i, ¬ ApplicableAt p m xs i) := by
          intro xs hl
          rw [argMask_eq hL hMm hl, List.eq_nil_iff_forall_not_mem]
          exact forall_congr' fun i => not_congr mem_appIdx
        constructor
        · rintro ⟨r, hr, hc⟩
          obtain ⟨ys, surv, left, hok, _, hC⟩ := hT.mem hr
          have hcc := hC.cell
          rw [of_decide_eq_true hc, eq_comm, cellFor_notImplemented, left_nil hC] at hcc
          have hlen : ys.length = m.vp.length := by simpa [toMeth] using hok.length_eq.symm
          have hacc := (accepts_iff hL m.vp hMm.vp ys).1 hok
          refine ⟨ys, ⟨hacc, fun a ha => ?_⟩, (happ ys hlen).1 hcc⟩
          exact registered_of_accepts hL hMm hacc a ha
        · rintro ⟨xs, hcall, hna⟩
          have hok := callable_argsOk hL hMm hcall
          have hlen : xs.length = m.vp.length := by simpa [toMeth] using hok.length_eq.symm
          obtain ⟨r, surv, left, hr, _, hC⟩ := hT.at hok
          refine ⟨r, List.mem_of_getElem? hr, ?_⟩
          rw [decide_eq_true_eq, hC.cell, cellFor_notImplemented, left_nil hC]
          exact (happ xs hlen).2 hna
      by_cases hk : t.notImplemented ≠ 0
      · simp [hk, key.1 hk]
      · have := fun h => hk (key.2 h)
        rw [decide_eq_false hk, decide_eq_false this]

/-- C17, first part, in full: after a clean report, no call reports an error, even when the wrong overrider would be called. -/
theorem C17_clean (hv : p.Valid) (h : install pl n p gen = .ok (rep, img)) (h1 : rep.notImplemented = 0) (h2 : rep.ambiguous = 0)
    (hc : AnyCall p gen img m args xs) (types : List TypeId) (e : Err) : callMethod gen img m args types ≠ .err e := by
  intro he
  obtain ⟨c, bases, _, C, hi, I, hrep, _⟩ := install_ok hv h
  have hcnt : ∀ t ∈ c.tables, t.notImplemented = 0 ∧ t.ambiguous = 0 := by
    intro t ht
    rw [← hrep, C.report] at h1 h2
    simp only [accumulate, List.countP_eq_zero] at h1 h2
    exact ⟨by simpa using h1 t ht, by simpa using h2 t ht⟩
  have key : ∀ f, Word.pf f ∈ img.data → ∃ k, f = .user k := by
    intro f hf
    obtain ⟨i, m', t, rs, hm', ht, hT, cell, hcell, hpf⟩ := pf_word C hi hf
    have h0 := hcnt t (List.mem_of_getElem? ht)
    rw [hT.notImplemented, hT.ambiguous, List.countP_eq_zero, List.countP_eq_zero] at h0
    rw [hT.table, List.mem_map] at hcell
    obtain ⟨r, hr, rfl⟩ := hcell
    cases hcl : r.cell with
    | ovr j =>
      rw [hcl] at hpf
      simp only [pfOf, Option.map_eq_some_iff] at hpf
      obtain ⟨o, _, rfl⟩ := hpf
      exact ⟨_, rfl⟩
    | notImplemented => exact absurd hcl (by simpa using h0.1 r hr)
    | ambiguous =>
      have ha := h0.2 r hr
      obtain ⟨ys, surv, left, _, _, hC⟩ := hT.mem hr
      rw [hC.amb] at ha
      have hcc := hC.cell
      rw [hcl] at hcc
      exact absurd (cellFor_ambiguous hcc.symm).2 (by simpa using ha)
  rcases callMethod_err hc.args he with ⟨id, hw, _⟩ | ⟨id, hw, _⟩
  · obtain ⟨k, hk⟩ := key _ hw
    simp at hk
  · obtain ⟨k, hk⟩ := key _ hw
    simp at hk

/-- C17, second part, in full: each count is witnessed by a call. -/
def C17 : Prop :=
  ∀ (pl : Platform) (p : Program) (gen : Nat) (rep : Report) (img : Image), p.Valid → install pl false p gen = .ok (rep, img) →
    (rep.notImplemented ≠ 0 → ∃ m args xs, AnyCall p gen img m args xs ∧ ∃ a t, callMethod gen img m args [] = .err (.noOverrider a t)) ∧
    (rep.ambiguous ≠ 0 → ∃ m args xs, AnyCall p gen img m args xs ∧ ∃ a t, callMethod gen img m args [] = .err (.ambiguousCall a t))

/-- The second part of C17 does not hold: in `lateNone`, method `g5` has no overrider, but calling it runs the overrider of `f2`. -/
theorem C17_refuted : ¬ C17 := by
  intro h
  obtain ⟨rep, img, hi, hr, hs⟩ : ∃ rep img, install .std false lateNone 0 = .ok (rep, img) ∧ rep.notImplemented ≠ 0 ∧
      ∀ m ∈ lateNone.methods, ∀ x ∈ [1, 2, 3, 4, 5], Check.acceptsB lateNone (classesOf lateNone m.vp) [x] = true →
        errOf (callMethod 0 img m [.ok (img.ptr 0 x)] []) = none := by
    have : (match install .std false lateNone 0 with
      | .ok (rep, img) => decide (rep.notImplemented ≠ 0) && lateNone.methods.all fun m => [1, 2, 3, 4, 5].all fun x =>
          !Check.acceptsB lateNone (classesOf lateNone m.vp) [x] || decide (errOf (callMethod 0 img m [.ok (img.ptr 0 x)] []) = none)
      | _ => false) = true := by decide +kernel
    split at this
    · rename_i rep img hi
      simp only [Bool.and_eq_true, List.all_eq_true, decide_eq_true_eq, Bool.or_eq_true, Bool.not_eq_true', ← Bool.not_eq_true] at this
      exact ⟨rep, img, hi, this.1, fun m hm x hx ha => (this.2 m hm x hx).resolve_left (not_not_intro ha)⟩
    · simp at this
  have hv : Check.validB lateNone = true := by decide +kernel
  obtain ⟨m, args, xs, hc, a, t, he⟩ := (h .std lateNone 0 rep img (Check.valid hv) hi).1 hr
  have hp : m.params = [true] := by
    have : ∀ m ∈ lateNone.methods, m.params = [true] := by decide +kernel
    exact this m hc.mem
  have ha := hc.args
  rw [hp] at ha
  cases ha with
  | virt x h' =>
    cases h'
    have hreg := hc.callable.2 x (by simp)
    have hx : x ∈ [1, 2, 3, 4, 5] := by
      obtain ⟨cr, hcr, rfl⟩ := hreg
      have : ∀ cr ∈ lateNone.classes, lateNone.rtti.ti cr.type ∈ [1, 2, 3, 4, 5] := by decide +kernel
      exact this cr hcr
    have := hs m hc.mem x hx ((Check.accepts (Check.validB_ranked hv)).2 hc.callable.1)
    rw [he] at this
    simp [errOf] at this

/-- C17, second part, when all orders of registration are supported. -/
theorem C17_partial (hv : p.Valid) (h : install pl false p gen = .ok (rep, img)) (ho : ∀ x, Registered p x → OrderSafe p x)
    (hcont : ∀ m ∈ p.methods, m.vp.length = 1 ∨ Contiguous m.params) (types : List TypeId) :
    (rep.notImplemented ≠ 0 → ∃ m args xs, CallTo p gen img m args xs ∧
      ∃ a t, callMethod gen img m args types = .err (.noOverrider a t)) ∧
    (rep.ambiguous ≠ 0 → ∃ m args xs, CallTo p gen img m args xs ∧
      ∃ a t, callMethod gen img m args types = .err (.ambiguousCall a t)) := by
  obtain ⟨c, bases, _, C, hi, I, hrep, hL⟩ := install_ok hv h
  have key : ∀ (i : Nat) (m : MethodInfo) (t : MethTable), p.methods[i]? = some m → c.tables[i]? = some t →
      ∀ rs, TableOk false pl c.lattice (toMeth p.rtti c.lattice m) t rs → ∀ r ∈ rs, ∃ args xs f, CallTo p gen img m args xs ∧
        pfOf (toMeth p.rtti c.lattice m) r.cell = some f ∧ callMethod gen img m args types = enter f types := by
    intro i m t hm ht rs hT r hr
    have hmem := List.mem_of_getElem? hm
    have hM := C.methOk m hmem
    obtain ⟨ys, surv, left, hok, hr', _⟩ := hT.mem hr
    have hacc := (accepts_iff C.lat m.vp hM.vp ys).1 hok
    have hreg := registered_of_accepts C.lat hM hacc
    have hlen : ys.length = m.vp.length := by simpa [toMeth] using hok.length_eq.symm
    have hargs := Check.mkArgs_for (img.ptr gen) m.params ys (hM.wf.kinds.trans hlen.symm)
    have hcall : CallTo p gen img m (Check.mkArgs (img.ptr gen) m.params ys) ys :=
      ⟨hmem, hargs, ⟨hacc, hreg⟩, OrderSafe.call (fun x hx => ho x (hreg x hx)) hmem hacc, hcont m hmem⟩
    obtain ⟨t', rs', cell, f, ss, ht', hT', hcell, hf, hss, hres⟩ := resolve_ok C I hv.ids hm hargs hok
      (slotSafe_of_argsSafe hv.acyclic C.lat C.meths hL hcall.order) hcall.contiguous
    obtain rfl := Option.some.inj (ht.symm.trans ht')
    rw [hT.table, List.getElem?_map, hr', Option.map_some, Option.some.injEq] at hcell
    subst hcell
    refine ⟨_, ys, f, hcall, hf, ?_⟩
    unfold callMethod
    rw [hss, Res.ofOption_some, Res.ok_bind, hres, Res.ok_bind]
  have hex : ∀ t ∈ c.tables, ∃ (i : Nat) (m : MethodInfo) (rs : List CellResult), p.methods[i]? = some m ∧ c.tables[i]? = some t ∧
      TableOk false pl c.lattice (toMeth p.rtti c.lattice m) t rs := by
    intro t ht
    obtain ⟨i, hi⟩ := List.getElem?_of_mem ht
    obtain ⟨m', hm', rs, hT⟩ := forall₂_get_left C.tables.flip hi
    rw [C.meths, List.getElem?_map, Option.map_eq_some_iff] at hm'
    obtain ⟨m, hm, rfl⟩ := hm'
    exact ⟨i, m, rs, hm, hi, hT⟩
  constructor
  · intro hne
    rw [← hrep, C.report, ← Nat.pos_iff_ne_zero] at hne
    simp only [accumulate, List.countP_pos_iff] at hne
    obtain ⟨t, ht, h0⟩ := hne
    obtain ⟨i, m, rs, hm, ht', hT⟩ := hex t ht
    have h0 := of_decide_eq_true h0
    rw [hT.notImplemented, ← Nat.pos_iff_ne_zero, List.countP_pos_iff] at h0
    obtain ⟨r, hr, hc⟩ := h0
    obtain ⟨args, xs, f, h1, h2, h3⟩ := key i m t hm ht' rs hT r hr
    rw [of_decide_eq_true hc] at h2
    obtain rfl := Option.some.inj h2
    exact ⟨m, args, xs, h1, _, _, h3⟩
  · intro hne
    rw [← hrep, C.report, ← Nat.pos_iff_ne_zero] at hne
    simp only [accumulate, List.countP_pos_iff] at hne
    obtain ⟨t, ht, h0⟩ := hne
    obtain ⟨i, m, rs, hm, ht', hT⟩ := hex t ht
    have h0 := of_decide_eq_true h0
    rw [hT.ambiguous, ← Nat.pos_iff_ne_zero, List.countP_pos_iff] at h0
    obtain ⟨r, hr, hamb⟩ := h0
    obtain ⟨_, surv, left, _, _, hC⟩ := hT.mem hr
    obtain ⟨args, xs, f, h1, h2, h3⟩ := key i m t hm ht' rs hT r hr
    rw [hC.amb, decide_eq_true_eq] at hamb
    have hcell : r.cell = .ambiguous := by
      rw [hC.cell, cellFor_false]
      match left, hamb with
      | _ :: _ :: _, _ => rfl
    rw [hcell] at h2
    obtain rfl := Option.some.inj h2
    exact ⟨m, args, xs, h1, _, _, h3⟩

/-! ## C18: the number of cells -/

theorem groups_length {L : Lattice} (hL : LatticeOk p L) (hM : MethOk p L m) {k : Nat} {v : TypeId} (hk : m.vp[k]? = some v) :
    (groupsOf pl L (toMeth p.rtti L m).overriders k (p.rtti.ti v)).length = distinguishable p m k := by
  have G := groupsOf_ok pl L (toMeth p.rtti L m).overriders k (p.rtti.ti v)
  have hvo := hM.vp v (List.mem_of_getElem? hk)
  have hmask : ∀ x, { i | (maskOf L (toMeth p.rtti L m).overriders k x)[i]? = some true } = TakenBy p m k x := by
    intro x
    ext i
    simp only [Set.mem_ofPred_eq, TakenBy, maskOf_get]
    constructor
    · rintro ⟨o', v', ho, hv', hx⟩
      simp only [toMeth, List.getElem?_map, Option.map_eq_some_iff] at ho
      obtain ⟨o, ho, rfl⟩ := ho
      simp only [List.getElem?_map, Option.map_eq_some_iff] at hv'
      obtain ⟨t, ht, rfl⟩ := hv'
      exact ⟨o, t, ho, ht, (hL.mem_td _ (hM.ovp o (List.mem_of_getElem? ho) t (List.mem_of_getElem? ht)) x).1 hx⟩
    · rintro ⟨o, t, ho, ht, hx⟩
      refine ⟨_, p.rtti.ti t, toMeth_overrider ho, by simp [ht], ?_⟩
      exact (hL.mem_td _ (hM.ovp o (List.mem_of_getElem? ho) t (List.mem_of_getElem? ht)) x).2 hx
  have hset : TakenBy p m k '' { x | Takes p m k x } =
      (fun mask : Mask => { i | mask[i]? = some true }) '' { mask | mask ∈ (groupsOf pl L (toMeth p.rtti L m).overriders k (p.rtti.ti v)).map Prod.fst } := by
    ext S
    constructor
    · rintro ⟨x, ⟨v', hv', hx⟩, rfl⟩
      obtain rfl := Option.some.inj (hk.symm.trans hv')
      obtain ⟨g, hg, h1, h2⟩ := G.cover x ((pl.iter_perm _ _).mem_iff.2 ((hL.mem_td _ hvo x).2 hx))
      exact ⟨g.1, List.mem_map_of_mem hg, by dsimp only; rw [h1, hmask]⟩
    · rintro ⟨mask, hm, rfl⟩
      obtain ⟨g, hg, rfl⟩ := List.mem_map.1 hm
      obtain ⟨x, hx⟩ := List.exists_mem_of_ne_nil _ (G.nonempty g hg)
      obtain ⟨h1, h2⟩ := G.mem g hg x hx
      refine ⟨x, ⟨v, hk, (hL.mem_td _ hvo x).1 ((pl.iter_perm _ _).mem_iff.1 h1)⟩, ?_⟩
      dsimp only
      rw [← h2, hmask]
  unfold distinguishable
  rw [hset, Set.InjOn.ncard_image]
  · rw [← List.coe_toFinset, Set.ncard_coe_finset, List.toFinset_card_of_nodup G.nodup, List.length_map]
  · intro a ha b hb hab
    obtain ⟨g, hg, rfl⟩ := List.mem_map.1 ha
    obtain ⟨g', hg', rfl⟩ := List.mem_map.1 hb
    have hlen : ∀ g ∈ groupsOf pl L (toMeth p.rtti L m).overriders k (p.rtti.ti v), g.1.length = (toMeth p.rtti L m).overriders.length := by
      intro g hg
      obtain ⟨x, hx⟩ := List.exists_mem_of_ne_nil _ (G.nonempty g hg)
      rw [← (G.mem g hg x hx).2]
      simp [maskOf]
    refine mask_ext ((hlen g hg).trans (hlen g' hg').symm) fun i => ?_
    exact Set.ext_iff.1 hab i

/-- C18: `report.cells`. -/
theorem C18 (hv : p.Valid) (h : install pl n p gen = .ok (rep, img)) :
    rep.cells = ((p.methods.filter fun m => 2 ≤ m.vp.length).map fun m =>
      ((List.range m.vp.length).map (distinguishable p m)).prod).sum := by
  obtain ⟨c, bases, _, C, hi, I, hrep, _⟩ := install_ok hv h
  rw [← hrep, C.report]
  have hT := C.tables
  rw [C.meths] at hT
  have hM := C.methOk
  have hL := C.lat
  simp only [accumulate]
  generalize c.tables = ts at hT
  generalize p.methods = ms at hT hM ⊢
  induction ms generalizing ts with
  | nil =>
    cases hT
    rfl
  | cons m ms ih =>
    cases hT with
    | cons h1 h2 =>
      rename_i t ts
      obtain ⟨rs, hT⟩ := h1
      have hMm := hM m (by simp)
      rw [List.map_cons, List.sum_cons, ih ts h2 fun m hm => hM m (List.mem_cons_of_mem _ hm), hT.cells]
      have hlen : (toMeth p.rtti c.lattice m).vp.length = m.vp.length := by simp [toMeth]
      rw [hlen]
      by_cases h2 : 2 ≤ m.vp.length
      · rw [if_pos (by omega), List.filter_cons_of_pos (by simpa using h2), List.map_cons, List.sum_cons]
        congr 2
        apply List.ext_getElem?
        intro k
        rw [List.getElem?_map, List.getElem?_map]
        unfold methGroups
        rw [List.getElem?_map, List.getElem?_zipIdx]
        cases hk : m.vp[k]? with
        | none =>
          have := List.getElem?_eq_none_iff.1 hk
          simp [toMeth, this]
        | some v =>
          have hlt := (List.getElem?_eq_some_iff.1 hk).1
          have := groups_length (pl := pl) hL hMm hk
          obtain rfl : m.vp[k] = v := (List.getElem?_eq_some_iff.1 hk).2
          simpa [toMeth, hlt] using this
      · rw [if_neg (by omega), List.filter_cons_of_neg (by simpa using h2), Nat.zero_add]

/-! ## C41: what errors say -/

/-- C41 in full. `types` are the dynamic types of all arguments. -/
def C41 : Prop :=
  ∀ (pl : Platform) (n : Bool) (p : Program) (gen : Nat) (rep : Report) (img : Image) (m : MethodInfo) (args : List (Res Ptr))
    (xs : List Cls) (types ts : List TypeId) (a : Nat), p.Valid → install pl n p gen = .ok (rep, img) → AnyCall p gen img m args xs →
    types.length = m.params.length →
    callMethod gen img m args types = .err (.noOverrider a ts) ∨ callMethod gen img m args types = .err (.ambiguousCall a ts) →
    a = m.vp.length ∧ ts = virtualTypes m.params types

/-- What errors say, in all cases: the number of all parameters, and the dynamic types of the first sixteen arguments. -/
theorem C41_actual (hc : AnyCall p gen img m args xs) {types ts : List TypeId} {a : Nat} (hl : types.length = m.params.length)
    (he : callMethod gen img m args types = .err (.noOverrider a ts) ∨ callMethod gen img m args types = .err (.ambiguousCall a ts)) :
    a = m.params.length ∧ ts = types.take 16 := by
  rcases he with he | he
  · rcases callMethod_err hc.args he with ⟨_, _, h⟩ | ⟨_, _, h⟩
    · simp only [Err.noOverrider.injEq] at h
      exact ⟨h.1.trans hl, h.2⟩
    · simp at h
  · rcases callMethod_err hc.args he with ⟨_, _, h⟩ | ⟨_, _, h⟩
    · simp at h
    · simp only [Err.ambiguousCall.injEq] at h
      exact ⟨h.1.trans hl, h.2⟩

/-- C41 does not hold when there are non-virtual parameters: `gapless` has one virtual parameter, errors say two. -/
theorem C41_refuted : ¬ C41 := by
  intro h
  obtain ⟨rep, img, args, hv, hi, hc, hr⟩ : ∃ rep img args, extraProg.Valid ∧ install .std false extraProg 0 = .ok (rep, img) ∧
      AnyCall extraProg 0 img extra args [1] ∧ callMethod 0 img extra args [7, 1] = .err (.noOverrider 2 [7, 1]) := by
    have hv : Check.validB extraProg = true := by decide +kernel
    have : (match install .std false extraProg 0 with
      | .ok (_, img) => decide (errOf (callMethod 0 img extra (Check.mkArgs (img.ptr 0) extra.params [1]) [7, 1]) = some (.noOverrider 2 [7, 1]))
      | _ => false) = true := by decide +kernel
    split at this
    · rename_i rep img hi
      exact ⟨rep, img, _, Check.valid hv, hi, Check.anyCall hv (by decide +kernel) 0 img, errOf_eq (of_decide_eq_true this)⟩
    · simp at this
  have := (h _ _ _ _ _ _ _ _ _ _ _ _ hv hi hc rfl (.inl hr)).1
  exact absurd this (by decide +kernel)

/-- C41 when all parameters, at most sixteen, are virtual. -/
theorem C41_partial (hv : p.Valid) (hc : AnyCall p gen img m args xs) (hall : ∀ b ∈ m.params, b = true) (h16 : m.params.length ≤ 16)
    {types ts : List TypeId} {a : Nat} (hl : types.length = m.params.length)
    (he : callMethod gen img m args types = .err (.noOverrider a ts) ∨ callMethod gen img m args types = .err (.ambiguousCall a ts)) :
    a = m.vp.length ∧ ts = virtualTypes m.params types := by
  obtain ⟨rfl, rfl⟩ := C41_actual hc hl he
  have hw := hv.wf m hc.mem
  refine ⟨?_, ?_⟩
  · rw [← hw.kinds, List.count_eq_length.2 fun b hb => (hall b hb).symm]
  · rw [List.take_of_length_le (by omega)]
    unfold virtualTypes
    clear he
    generalize m.params = ps at hall hl
    induction ps generalizing types with
    | nil => simpa using hl
    | cons b ps ih =>
      cases types with
      | nil => simp at hl
      | cons t types =>
        obtain rfl := hall b (by simp)
        simp only [List.zip_cons_cons, List.filter_cons_of_pos, List.map_cons]
        rw [← ih (fun b hb => hall b (List.mem_cons_of_mem _ hb)) (by simpa using hl)]

/-! ## The hypotheses can be met -/

/-- The two parameters of `meet` and the parameter of `poke` accept bulldogs, have slots, and their class is separated from itself. -/
example : ∃ rep img, zoo.Valid ∧ install .std false zoo 0 = .ok (rep, img) ∧ Separated zoo 1 1 ∧ Takes zoo meet 0 4 ∧ Takes zoo meet 1 4 ∧
    Takes zoo poke 0 4 ∧ (∃ s, SlotOf img meet 0 s) ∧ (∃ s, SlotOf img meet 1 s) ∧ ∃ s, SlotOf img poke 0 s := by
  obtain ⟨⟨rep, img⟩, hi⟩ := isOk_eq (x := install .std false zoo 0) (by decide +kernel)
  have hr : Check.ranked zoo = true := Check.validB_ranked (by decide +kernel)
  exact ⟨rep, img, zoo_valid, hi, .inl .refl, ⟨_, rfl, (Check.mem_anc hr).1 (by decide +kernel)⟩,
    ⟨_, rfl, (Check.mem_anc hr).1 (by decide +kernel)⟩, ⟨_, rfl, (Check.mem_anc hr).1 (by decide +kernel)⟩,
    C10_slots zoo_valid hi (by decide +kernel) (by decide +kernel), C10_slots zoo_valid hi (by decide +kernel) (by decide +kernel),
    C10_slots zoo_valid hi (by decide +kernel) (by decide +kernel)⟩

/-- The report about the zoo: `meet` has two parameters, which distinguish cats, dogs and other animals; `bark` is not implemented for
cats, and ambiguous for bulldogs. -/
example : (match install .std false zoo 0 with
    | .ok (rep, _) => decide (rep = { cells := 9, notImplemented := 1, ambiguous := 1 })
    | _ => false) = true := by decide +kernel

/-- A clean report: `poke` alone. -/
example : ∃ rep img, (prog zoo.classes [poke]).Valid ∧ install .std false (prog zoo.classes [poke]) 0 = .ok (rep, img) ∧
    rep.notImplemented = 0 ∧ rep.ambiguous = 0 := by
  have : (match install .std false (prog zoo.classes [poke]) 0 with
    | .ok (rep, _) => decide (rep.notImplemented = 0 ∧ rep.ambiguous = 0)
    | _ => false) = true := by decide +kernel
  split at this
  · rename_i rep img hi
    exact ⟨rep, img, Check.valid (by decide +kernel), hi, of_decide_eq_true this⟩
  · simp at this

/-- All registrations of the zoo are order-safe, all methods have contiguous virtual parameters. -/
example : (∀ x, Registered zoo x → OrderSafe zoo x) ∧ ∀ m ∈ zoo.methods, m.vp.length = 1 ∨ Contiguous m.params := by
  have hr : Check.ranked zoo = true := Check.validB_ranked (by decide +kernel)
  refine ⟨?_, ?_⟩
  · rintro x ⟨cr, hcr, rfl⟩
    have : ∀ cr ∈ zoo.classes, Check.orderB zoo (zoo.rtti.ti cr.type) = true := by decide +kernel
    exact Check.order hr (this cr hcr)
  · intro m hm
    have : ∀ m ∈ zoo.methods, Check.contigB m.params = true := by decide +kernel
    exact .inr (Check.contig (this m hm))

/-- An error of a method whose parameters are all virtual. -/
example : run zoo bark [3] = some (.err (.noOverrider 0 [])) ∧ ∀ b ∈ bark.params, b = true := by decide +kernel

/-- The classes of a safe order, neither of which is simple: `4` only names `3`, which was registered with its indirect base `1`
before `2`, its direct base. -/
example : let p := prog [cls 3 [2, 1], cls 4 [3], cls 2 [1], cls 1 []] []
    AllFound p 4 ∧ ¬ ListsAncestors p 4 ∧ ¬ BasesFirst p 4 ∧ ∃ L, augmentClasses .std p.rtti p.classes = .ok L := by
  intro p
  have hr : Check.ranked p = true := by decide +kernel
  refine ⟨Check.allFound hr (by decide +kernel), fun h => ?_, fun h => ?_, ?_⟩
  · exact absurd ((Check.lists hr).2 h) (by decide +kernel)
  · have hd : Derives p 4 3 := (Check.mem_anc hr).1 (by decide +kernel)
    obtain ⟨cr, hcr, _⟩ := h [] (cls 3 [2, 1]) [cls 4 [3], cls 2 [1], cls 1 []] rfl hd 2 (by decide +kernel) (by decide +kernel) 1
      (Check.mem_basesOf.1 (by decide +kernel))
    simp at hcr
  · have : (match augmentClasses .std p.rtti p.classes with
      | .ok _ => true
      | _ => false) = true := by decide +kernel
    split at this
    · exact ⟨_, ‹_›⟩
    · simp at this

/-- Classes registered from the most derived to the root, each with its direct base, beside a class with two bases. -/
def derivedFirst : Program :=
  prog [cls 5 [4], cls 6 [5, 2], cls 4 [3], cls 3 [1], cls 2 [1], cls 1 []]
    [meth 0 [true] [5] [ov [5] 50], meth 1 [true] [4] [ov [4] 40, ov [5] 45], meth 2 [true] [3] [ov [3] 30], meth 3 [true] [1] [ov [1] 10]]

/-- `5` does not know its indirect bases, and `1` is the root of a lattice: `OneFound` and not `AllFound`. -/
example : derivedFirst.Valid ∧ OneFound derivedFirst 5 ∧ ¬ AllFound derivedFirst 5 ∧ OrderSafe derivedFirst 5 ∧
    derivedFirst.methods.map (fun m => run derivedFirst m [5]) = [some (.ok 50), some (.ok 45), some (.ok 30), some (.ok 10)] := by
  have hv : derivedFirst.Valid := Check.valid (by decide +kernel)
  have hr : Check.ranked derivedFirst = true := Check.validB_ranked (by decide +kernel)
  have hL : ∃ L, augmentClasses .std derivedFirst.rtti derivedFirst.classes = .ok L ∧
      (∀ y ∈ Check.anc derivedFirst 5, (L.tb y).length ≤ 1) ∧ 1 ∉ L.tb 5 := by
    have : (match augmentClasses .std derivedFirst.rtti derivedFirst.classes with
      | .ok L => decide ((∀ y ∈ Check.anc derivedFirst 5, (L.tb y).length ≤ 1) ∧ 1 ∉ L.tb 5)
      | _ => false) = true := by decide +kernel
    split at this
    · rename_i L hL
      exact ⟨L, hL, of_decide_eq_true this⟩
    · simp at this
  obtain ⟨L, hL, h1, h2⟩ := hL
  have hone : OneFound derivedFirst 5 := by
    intro y hy b c hb hc
    have h := h1 y ((Check.mem_anc hr).2 hy)
    have hb := (C21_bases hv.acyclic hL y b).2 hb
    have hc := (C21_bases hv.acyclic hL y c).2 hc
    match hl : L.tb y, h, hb, hc with
    | [], _, hb, _ => simp at hb
    | [d], _, hb, hc => simp at hb hc; rw [hb, hc]
    | _ :: _ :: _, h, _, _ => simp at h
  refine ⟨hv, hone, fun h => h2 ?_, hone.orderSafe, by decide +kernel⟩
  exact (C21_allFound hv.acyclic hL 5).1 h 1 ⟨(Check.mem_anc hr).1 (by decide +kernel), by decide⟩

/-- The classes of `late`, with methods of one class only: the order does not matter. -/
def lateOne : Program := prog lateBases [meth 0 [true] [2] [ov [2] 20, ov [4] 40], meth 1 [true, true] [2, 2] [ov [3, 5] 35]]

example : lateOne.Valid ∧ OneParam lateOne 5 ∧ ¬ AllFound lateOne 5 ∧ OrderSafe lateOne 5 ∧
    run lateOne (meth 0 [true] [2] [ov [2] 20, ov [4] 40]) [5] = some (.ok 40) := by
  have hv : lateOne.Valid := Check.valid (by decide +kernel)
  have hr : Check.ranked lateOne = true := Check.validB_ranked (by decide +kernel)
  have hone : OneParam lateOne 5 := by
    rintro b c ⟨m, hm, hb⟩ ⟨m', hm', hc⟩ _ _
    have h : ∀ m ∈ lateOne.methods, ∀ b ∈ classesOf lateOne m.vp, b = 2 := by decide +kernel
    rw [h m hm b hb, h m' hm' c hc]
  refine ⟨hv, hone, fun h => ?_, hone.orderSafe, by decide +kernel⟩
  have hL : ∃ L, augmentClasses .std lateOne.rtti lateOne.classes = .ok L ∧ 1 ∉ L.tb 5 := by
    have : (match augmentClasses .std lateOne.rtti lateOne.classes with
      | .ok L => decide (1 ∉ L.tb 5)
      | _ => false) = true := by decide +kernel
    split at this
    · rename_i L hL
      exact ⟨L, hL, by simpa using this⟩
    · simp at this
  obtain ⟨L, hL, hn⟩ := hL
  exact hn ((C21_allFound hv.acyclic hL 5).1 h 1 ⟨(Check.mem_anc hr).1 (by decide +kernel), by decide⟩)

/-- The classes of `late`, and a method for class 4. -/
def f4 : MethodInfo := meth 3 [true] [4] [ov [4] 40]
def lateSome : Program := prog lateBases [f5, f2, f3, f4]

/-- The order of registration is a problem for some parameters that accept class 5, but not for that of `f4`. -/
example : lateSome.Valid ∧ ¬ OrderSafe lateSome 5 ∧ ArgsSafe lateSome (classesOf lateSome f4.vp) [5] ∧ run lateSome f4 [5] = some (.ok 40) := by
  have hv : lateSome.Valid := Check.valid (by decide +kernel)
  have hr : Check.ranked lateSome = true := Check.validB_ranked (by decide +kernel)
  have hd := fun {d x : Cls} => Check.mem_anc hr (d := d) (x := x)
  have hL : ∃ L, augmentClasses .std lateSome.rtti lateSome.classes = .ok L ∧ (∀ z, 5 ∈ Check.anc lateSome z → 2 ∉ L.tb z) ∧ 1 ∈ L.tb 4 := by
    have : (match augmentClasses .std lateSome.rtti lateSome.classes with
      | .ok L => decide ((∀ z ∈ L.order, 5 ∈ Check.anc lateSome z → 2 ∉ L.tb z) ∧ 1 ∈ L.tb 4)
      | _ => false) = true := by decide +kernel
    split at this
    · rename_i L hL
      obtain ⟨h1, h2⟩ := of_decide_eq_true this
      refine ⟨L, hL, fun z hz ht => ?_, h2⟩
      obtain ⟨pre, cr, post, h3, rfl, -⟩ := (C21_bases hv.acyclic hL z 2).1 ht
      refine h1 _ (((augmentClasses_ok hv.acyclic hL).mem_order _).2 ⟨cr, by rw [h3]; simp, rfl⟩) hz ht
    · simp at this
  obtain ⟨L, hL, h1, h2⟩ := hL
  refine ⟨hv, fun h => ?_, ?_, by decide +kernel⟩
  · have hp : ∀ c ∈ [5, 2], ParamClass lateSome c := by
      have : ∀ c ∈ [5, 2], ∃ m ∈ lateSome.methods, c ∈ classesOf lateSome m.vp := by decide +kernel
      exact this
    rcases h 5 2 (hp 5 (by decide)) (hp 2 (by decide)) .refl (hd.1 (by decide +kernel)) with h | ⟨z, hz, hf⟩ | ⟨-, h⟩
    · exact absurd (hd.2 h) (by decide +kernel)
    · exact h1 z (hd.2 hz) ((C21_bases hv.acyclic hL z 2).2 hf)
    · have := h 4 1 (hd.1 (by decide +kernel)) ⟨hd.1 (by decide +kernel), by decide⟩ ((C21_bases hv.acyclic hL 4 1).1 h2)
      exact absurd (hd.2 this) (by decide +kernel)
  · have hs : ∀ c ∈ [5, 4, 3, 2], Separated lateSome 4 c ∧ Separated lateSome c 4 := by
      have hf : ∀ z c, Check.foundB lateSome z c [] lateSome.classes = true → FoundIn lateSome lateSome.classes z c := fun z c h => by simpa using Check.found h
      intro c hc
      simp only [List.mem_cons, List.not_mem_nil, or_false] at hc
      rcases hc with rfl | rfl | rfl | rfl
      · exact ⟨.inl (hd.1 (by decide +kernel)), .inr (.inl ⟨5, .refl, hf _ _ (by decide +kernel)⟩)⟩
      · exact ⟨.inl .refl, .inl .refl⟩
      · exact ⟨.inr (.inl ⟨4, .refl, hf _ _ (by decide +kernel)⟩), .inl (hd.1 (by decide +kernel))⟩
      · exact ⟨.inr (.inl ⟨4, .refl, hf _ _ (by decide +kernel)⟩), .inl (hd.1 (by decide +kernel))⟩
    refine .cons (fun c ⟨m, hm, hc⟩ _ => hs c ?_) .nil
    have : ∀ m ∈ lateSome.methods, ∀ c ∈ classesOf lateSome m.vp, c ∈ [5, 4, 3, 2] := by decide +kernel
    exact this m hm c hc

end OpenMethod.Props

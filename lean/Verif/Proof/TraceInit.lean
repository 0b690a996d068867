import Verif.Proof.TraceTables

/-!
# Lemmas about tracing: `initialize` does the same with or without trace
-/

namespace OpenMethod

open T Spec

variable {o : Option Bool} {l : Nat}

/-! ## Dispatch tables -/

theorem res_traceGroups {pl : Platform} {L : Lattice} (hL : Closed L) (m : Meth) {vk : Cls × Nat} (hv : vk.1 ∈ L.order) : (traceGroups pl L m vk).res o l = .ok () := by
  unfold traceGroups
  simp only [res_bind, res_line, Res.ok_bind, res_sayClass (hL.named _ hv), res_say, res_indented]
  apply res_each
  intro c hc
  have hc' := hL.named c (hL.td _ hv c ((pl.iter_perm _ _).mem_iff.1 hc))
  simp only [res_bind, res_line, Res.ok_bind, res_sayClass hc', res_say, res_indented]
  rw [res_each]
  · rfl
  · intro ob _
    simp only [res_ite, res_line, res_pure, ite_self]

theorem res_traceStrides (ss : List Nat) : (traceStrides ss).res o l = .ok () := res_each fun _ _ => rfl

theorem res_printT (a b c : Nat) : (printT a b c).res o l = .ok () := by
  unfold printT
  simp

theorem res_traceRank (L : Lattice) (gss : List (List Group)) : (traceRank L gss).res o l = .ok () := by
  unfold traceRank
  simp only [res_indented, res_bind, res_line, Res.ok_bind]
  rw [res_fold_ok (g := fun _ _ => " x "), Res.ok_bind, res_fold_ok (g := fun _ _ => " x ")]
  · rfl
  · intro b a _
    simp
  · intro b a _
    simp

theorem methGroups_named {pl : Platform} {L : Lattice} (hL : Closed L) {m : Meth} (hv : ∀ v ∈ m.vp, v ∈ L.order) :
    ∀ gs ∈ methGroups pl L m, ∀ g ∈ gs, ∀ c ∈ g.2, L.Named c := by
  intro gs hgs g hg c hc
  unfold methGroups at hgs
  obtain ⟨⟨v, k⟩, hvk, rfl⟩ := List.mem_map.1 hgs
  have hv' : v ∈ m.vp := by rw [(List.mem_zipIdx' hvk).2]; exact List.getElem_mem _
  exact hL.named c (hL.td v (hv v hv') c (groupsOf_mem pl L hg hc))

theorem res_buildMethodT {pl : Platform} {n : Bool} {L : Lattice} (hL : Closed L) (s : SlotState) (vtbl : Cls → List Entry) {mi : Meth × Nat} (hne : mi.1.vp ≠ [])
    (hv : ∀ v ∈ mi.1.vp, v ∈ L.order) :
    (buildMethodT pl n L s vtbl mi).res o l = (do
      let v ← (entryWrites s.slots mi.2 (methGroups pl L mi.1)).foldlM (writeEntry s.first) vtbl
      let t ← buildMethod pl n L mi.1
      .ok (v, t)) := by
  have hN := methGroups_named (pl := pl) hL hv
  unfold buildMethodT buildMethod
  simp only [res_bind, res_line, Res.ok_bind, res_indented, res_traceStrides]
  rw [res_each (fun vk hvk => res_traceGroups hL mi.1 (hv vk.1 (by rw [(List.mem_zipIdx' hvk).2]; exact List.getElem_mem _))), Res.ok_bind, res_entries hN]
  congr 1
  funext v
  rw [res_buildTableT n L _ (by
      unfold methGroups
      simpa using hne) _ (by simp) (fun gs hgs => hN gs (by simpa using hgs)), List.map_reverse]
  cases evalCells n (moreAt L mi.1.overriders) (retAt mi.1.overriders) L.td
    (cellMasks ((methGroups pl L mi.1).map fun gs => gs.map (·.1)).reverse (List.replicate mi.1.overriders.length true)) with
  | err e => rfl
  | ub => rfl
  | ok rs => by_cases hn : mi.1.vp.length > 1 <;> simp [hn, res_traceRank, res_printT]

theorem res_buildMethodsT {pl : Platform} {n : Bool} {L : Lattice} (hL : Closed L) (s : SlotState) (vtbl : Cls → List Entry) (ms : List (Meth × Nat))
    (h : ∀ mi ∈ ms, mi.1.vp ≠ [] ∧ ∀ v ∈ mi.1.vp, v ∈ L.order) :
    (buildMethodsT pl n L s vtbl ms).res o l = (do
      let v ← (ms.flatMap fun mi => entryWrites s.slots mi.2 (methGroups pl L mi.1)).foldlM (writeEntry s.first) vtbl
      let ts ← buildMethods pl n L (ms.map (·.1))
      .ok (v, ts)) := by
  induction ms generalizing vtbl with
  | nil => rfl
  | cons mi ms ih =>
    unfold buildMethodsT
    have hmi := h mi (by simp)
    rw [res_bind, res_buildMethodT hL s vtbl hmi.1 hmi.2, List.flatMap_cons, foldlM_append_res, List.map_cons, buildMethods]
    cases hw : (entryWrites s.slots mi.2 (methGroups pl L mi.1)).foldlM (writeEntry s.first) vtbl with
    | err e => exact absurd hw (writeEntries_no_err _ _ _ e)
    | ub => rfl
    | ok v =>
      simp only [Res.ok_bind]
      have ih' := fun v => ih v (fun mi hmi => h mi (by simp [hmi]))
      rcases buildMethod_ok n pl L mi.1 with ⟨hb, _⟩ | ⟨t, _, hb, _⟩
      · rw [hb]
        cases hw' : (ms.flatMap fun mi => entryWrites s.slots mi.2 (methGroups pl L mi.1)).foldlM (writeEntry s.first) v with
        | err e => exact absurd hw' (writeEntries_no_err _ _ _ e)
        | ub => rfl
        | ok v' => rfl
      · rw [hb]
        simp only [Res.ok_bind, res_bind, ih', res_pure]
        cases (ms.flatMap fun mi => entryWrites s.slots mi.2 (methGroups pl L mi.1)).foldlM (writeEntry s.first) v with
        | err e => rfl
        | ub => rfl
        | ok v' =>
          simp only [Res.ok_bind]
          cases buildMethods pl n L (ms.map (·.1)) <;> rfl

theorem res_compileT {pl : Platform} {n : Bool} {p : Program} (hac : Acyclic p) (hwf : ∀ m ∈ p.methods, m.WF) : (compileT pl n p).res o l = compile pl n p := by
  unfold compileT compile
  simp only [res_bind, res_augmentClassesT hac, res_augmentT]
  cases hL : augmentClasses pl p.rtti p.classes with
  | err e => rfl
  | ub => rfl
  | ok L =>
    simp only [Res.ok_bind]
    cases hM : augment p.rtti L p.methods with
    | err e => rfl
    | ub => rfl
    | ok ms =>
      have hlat := augmentClasses_ok hac hL
      have hmok := methOk_of_augment hlat hM hwf
      obtain ⟨hms, _, _⟩ := augment_ok.1 hM
      simp only [Res.ok_bind, res_assignSlotsT hlat.closed]
      rw [res_buildMethodsT hlat.closed]
      · have hz : ms.zipIdx.map (·.1) = ms := by simp
        rw [hz]
        unfold allWrites
        cases (ms.zipIdx.flatMap fun mi => entryWrites (assignSlots pl L (usedByVp ms)).slots mi.2 (methGroups pl L mi.1)).foldlM (writeEntry (assignSlots pl L (usedByVp ms)).first)
          (fun c => List.replicate ((assignSlots pl L (usedByVp ms)).size c) { method := 0, vp := 0, group := 0 }) with
        | err e => rfl
        | ub => rfl
        | ok v =>
          simp only [Res.ok_bind]
          cases buildMethods pl n L ms <;> rfl
      · rintro ⟨m, i⟩ hmi
        have hm : m ∈ ms := by rw [(List.mem_zipIdx' hmi).2]; exact List.getElem_mem _
        rw [hms] at hm
        obtain ⟨m', hm', rfl⟩ := List.mem_map.1 hm
        refine ⟨?_, ?_⟩
        · intro he
          have := (hwf m' hm').pos
          simp [toMeth] at he
          simp [he] at this
        · intro v hv
          obtain ⟨t, ht, rfl⟩ := List.mem_map.1 hv
          exact (hmok m' hm').vp t ht

/-! ## Global data -/

theorem specName_ok {m : Meth} {c : Cell} {f : Pf} (h : pfOf m c = some f) : ∃ t, specName m c = .ok t := by
  cases c with
  | notImplemented => exact ⟨_, rfl⟩
  | ambiguous => exact ⟨_, rfl⟩
  | ovr i =>
    unfold pfOf at h
    cases e : m.overriders[i]? with
    | none => simp [e] at h
    | some ov => exact ⟨.overrider ov.info.pf, by simp [specName, overriderTok, e]⟩

theorem specName_ub {m : Meth} {c : Cell} (h : pfOf m c = none) : specName m c = .ub := by
  cases c with
  | notImplemented => simp [pfOf] at h
  | ambiguous => simp [pfOf] at h
  | ovr i =>
    unfold pfOf at h
    cases e : m.overriders[i]? with
    | none => simp [specName, overriderTok, e]
    | some ov => simp [e] at h

theorem res_entryWordT (c : Compiled) (gen : Nat) (bases : List (Option Nat)) (e : Entry) : (entryWordT c gen bases e).res o l = entryWord c gen bases e := by
  unfold entryWordT entryWord
  simp only [res_bind, res_line, Res.ok_bind, res_lift]
  cases hm : c.meths[e.method]? with
  | none => rfl
  | some m =>
    cases ht : c.tables[e.method]? with
    | none => rfl
    | some t =>
      simp only [Res.ofOption_some, Res.ok_bind]
      by_cases h1 : m.vp.length = 1
      · simp only [if_pos h1, res_bind, res_lift]
        cases hc : t.table[e.group]? with
        | none => rfl
        | some cell =>
          simp only [Res.ofOption_some, Res.ok_bind, res_say, res_indented, res_bind, res_line, res_start, res_lift]
          cases hf : pfOf m cell with
          | none => rw [specName_ub hf]; rfl
          | some f =>
            obtain ⟨t, ht⟩ := specName_ok hf
            rw [ht]
            rfl
      · simp only [if_neg h1, res_bind, res_say, Res.ok_bind, res_indented, res_line]
        by_cases h0 : e.vp = 0
        · simp only [if_pos h0, res_bind, res_lift]
          cases (bases[e.method]?).join <;> rfl
        · simp only [if_neg h0]
          rfl

theorem res_writeVtblT {c : Compiled} {x : Cls} (hx : c.lattice.Named x) (gen cap : Nat) (bases : List (Option Nat)) (s : List Word × (Cls → Int)) :
    (writeVtblT c gen cap bases s x).res o l = writeVtbl c gen cap bases s x := by
  unfold writeVtblT writeVtbl
  simp only [res_bind, res_start, res_say, Res.ok_bind, res_sayClass hx, res_indented, res_fold, res_entryWordT, res_lift, res_pure]
  rfl

theorem res_writeTableT (cap : Nat) (s : List Word × List (Option Nat)) {mt : (Meth × MethTable) × Nat} (hne : mt.1.2.table ≠ [])
    (hc : ∀ cell ∈ mt.1.2.table, ∃ f, pfOf mt.1.1 cell = some f) : (writeTableT cap s mt).res o l = writeTable cap s mt.1 := by
  unfold writeTableT writeTable
  by_cases h1 : mt.1.1.vp.length = 1
  · rw [if_pos h1, if_pos h1]
    rfl
  · rw [if_neg h1, if_neg h1, res_bind, res_ifTrace, Res.ok_bind]
    · simp only [res_bind, res_lift]
      rfl
    · obtain ⟨c, cs, he⟩ := List.exists_cons_of_ne_nil hne
      simp only [res_bind, res_start, Res.ok_bind, res_lift, res_say, res_indented]
      rw [res_each]
      · simp [he]
      · intro cell hcell
        obtain ⟨f, hf⟩ := hc cell hcell
        obtain ⟨t, ht⟩ := specName_ok hf
        simp [ht]

theorem TableOk.next_pf {n : Bool} {pl : Platform} {L : Lattice} {m : Meth} {t : MethTable} {rs : List CellResult} (h : TableOk n pl L m t rs)
    (hlen : ∀ o ∈ m.overriders, o.vp.length = m.vp.length) {i : Nat} {cell : Cell} (hc : t.next i = some cell) : ∃ f, pfOf m cell = some f := by
  rcases h.next_spec i with ⟨h1, _⟩ | ⟨args, r, surv, left, surv', left', ha, _, _, _, hS, hl, hn⟩
  · rw [h1] at hc
    simp at hc
  · rw [hn] at hc
    obtain rfl := Option.some.inj hc
    cases hcell : cellFor n left' with
    | notImplemented => exact ⟨_, rfl⟩
    | ambiguous => exact ⟨_, rfl⟩
    | ovr k =>
      have hk : k ∈ setBits (argMask L m.overriders args) :=
        (List.mem_filter.1 (hS.sub.subset ((remainL_sublist hl).subset (List.mem_of_getLast? (cellFor_ovr hcell))))).1
      rw [mem_setBits_argMask L m.overriders args (fun o ho => by rw [hlen o ho, ha.length_eq])] at hk
      obtain ⟨ov, hov, _⟩ := hk
      exact ⟨.user ov.info.pf, by simp [pfOf, hov]⟩

theorem res_traceNext {mt : Meth × MethTable} (h : ∀ i cell, mt.2.next i = some cell → ∃ f, pfOf mt.1 cell = some f) : (traceNext mt).res o l = .ok () := by
  unfold traceNext
  simp only [res_indented, res_bind, res_line, Res.ok_bind]
  apply res_each
  intro x _
  cases hn : mt.2.next x.2 with
  | none => rfl
  | some cell =>
    obtain ⟨f, hf⟩ := h _ _ hn
    obtain ⟨t, ht⟩ := specName_ok hf
    simp [ht]

theorem prod_pos_nat {ks : List Nat} (h : ∀ k ∈ ks, 0 < k) : 0 < ks.prod := by
  induction ks with
  | nil => simp
  | cons k ks ih =>
    rw [List.prod_cons]
    exact Nat.mul_pos (h k (by simp)) (ih fun k hk => h k (by simp [hk]))

theorem TableOk.ne_nil {n : Bool} {pl : Platform} {p : Program} {L : Lattice} {m : Meth} {t : MethTable} {rs : List CellResult} (h : TableOk n pl L m t rs) (hL : LatticeOk p L)
    (hv : ∀ v ∈ m.vp, v ∈ L.order) : t.table ≠ [] := by
  intro he
  have := h.length
  rw [he, methMasks_length] at this
  have h0 : 0 < ((methGroups pl L m).map List.length).prod := by
    apply prod_pos_nat
    intro k hk
    obtain ⟨gs, hgs, rfl⟩ := List.mem_map.1 hk
    unfold methGroups at hgs
    obtain ⟨⟨v, k⟩, hvk, rfl⟩ := List.mem_map.1 hgs
    exact groupsOf_pos hL pl _ _ (hv v (by rw [(List.mem_zipIdx' hvk).2]; exact List.getElem_mem _))
  simp at this
  omega

theorem foldlM_zipIdx_fst {α β : Type} (f : β → α → Res β) (as : List α) (k : Nat) (b : β) : (as.zipIdx k).foldlM (fun b a => f b a.1) b = as.foldlM f b := by
  induction as generalizing k b with
  | nil => rfl
  | cons a as ih =>
    rw [List.zipIdx_cons, List.foldlM_cons, List.foldlM_cons]
    congr 1
    funext b
    exact ih (k + 1) b

theorem res_writeGlobalT {n : Bool} {pl : Platform} {p : Program} {c : Compiled} (h : CompiledOk n pl p c) (gen : Nat) : (writeGlobalT c gen).res o l = writeGlobal c gen := by
  have hmt : ∀ mt ∈ c.meths.zip c.tables, mt.2.table ≠ [] ∧ (∀ cell ∈ mt.2.table, ∃ f, pfOf mt.1 cell = some f) ∧ ∀ i cell, mt.2.next i = some cell → ∃ f, pfOf mt.1 cell = some f := by
    rintro ⟨m, t⟩ hmt
    obtain ⟨i, hi⟩ := List.getElem?_of_mem hmt
    rw [List.getElem?_zip_eq_some] at hi
    obtain ⟨t', rs, ht, hT⟩ := h.table hi.1
    rw [hi.2] at ht
    obtain rfl := Option.some.inj ht
    obtain ⟨mi, _, rfl, hm⟩ := h.meth hi.1
    have hlen : ∀ o ∈ (toMeth p.rtti c.lattice mi).overriders, o.vp.length = (toMeth p.rtti c.lattice mi).vp.length := by
      intro o ho
      simp only [toMeth, List.mem_map] at ho ⊢
      obtain ⟨ov, hov, rfl⟩ := ho
      simpa using hm.wf.overriders ov hov
    refine ⟨hT.ne_nil h.lat ?_, fun cell hc => hT.cell_pf hlen hc, fun i cell hc => hT.next_pf hlen hc⟩
    intro v hv
    obtain ⟨k, hk⟩ := List.getElem?_of_mem hv
    exact hm.vp_order hk
  unfold writeGlobalT writeGlobal
  simp only [res_bind, res_line, Res.ok_bind, res_pure]
  rw [res_fold, foldlM_congr_mem (g := fun s mt => writeTable (dataSize c) s mt.1), foldlM_zipIdx_fst]
  · congr 1
    funext s
    rw [res_each (fun mt hm => res_traceNext (hmt mt hm).2.2), Res.ok_bind, res_fold,
      foldlM_congr_mem (g := writeVtbl c gen (dataSize c) s.2) (fun s x hx => res_writeVtblT (h.lat.named hx) gen _ _ s)]
    rfl
  · rintro s ⟨mt, k⟩ hm
    have hm' : mt ∈ c.meths.zip c.tables := by rw [(List.mem_zipIdx' hm).2]; exact List.getElem_mem _
    exact res_writeTableT _ s (hmt mt hm').1 (hmt mt hm').2.1

/-! ## `initialize` -/

theorem res_searchPassesT (rnd : Nat → BitVec 64) (ids : List TypeId) (passes M : Nat) (s : Search) : (searchPassesT rnd ids passes M s).res o l = searchPasses rnd ids passes M s := by
  induction passes generalizing M s with
  | zero => rfl
  | succ passes ih =>
    unfold searchPassesT searchPasses
    by_cases h : 31 ≤ M
    · rw [if_pos h, if_pos h]
      rfl
    · rw [if_neg h, if_neg h]
      simp only [res_bind, res_say, Res.ok_bind, res_lift, res_ite, res_pure, ih]

theorem res_vptrInitT (cfg : Config) (rnd : Nat → BitVec 64) (mem : VarId → Option Ptr) (cs : List CtxClass) (s : VptrState) :
    (vptrInitT cfg rnd mem cs s).res o l = vptrInit cfg rnd mem cs s := by
  unfold vptrInitT vptrInit
  by_cases hv : cfg.vector
  · rw [if_pos hv, if_pos hv]
    by_cases ht : cfg.typeHash
    · rw [if_pos ht, if_pos ht]
      unfold hashInitT hashInit
      simp only [res_bind, res_direct, Res.ok_bind, res_searchPassesT, res_lift]
      congr 1
    · rw [if_neg ht, if_neg ht]
      rfl
  · rw [if_neg hv, if_neg hv, res_lift]

/-- With or without trace, `initialize` does the same. -/
theorem initRegistryT_snd (E : Env) {p : Program} (hac : Acyclic p) (hwf : ∀ m ∈ p.methods, m.WF) (s : RegState) (opt : Option Bool) :
    (initRegistryT E p s opt).2 = initRegistry E p s := by
  have h1 : (compileT E.platform E.n2216 p opt 0).2 = compile E.platform E.n2216 p := res_compileT hac hwf
  unfold initRegistryT initRegistry
  rw [← h1]
  rcases hc : compileT E.platform E.n2216 p opt 0 with ⟨w, c | e | _⟩
  · rw [hc] at h1
    have hC : CompiledOk E.n2216 E.platform p c := by
      rcases compile_shape h1.symm hac hwf with ⟨e, he, _⟩ | ⟨he, _⟩ | ⟨c', _, he, _, _, hC⟩
      · simp at he
      · simp at he
      · obtain rfl := Res.ok.inj he
        exact hC
    have h2 : (writeGlobalT c s.fresh opt 0).2 = writeGlobal c s.fresh := res_writeGlobalT hC s.fresh
    dsimp only
    rw [← h2]
    rcases writeGlobalT c s.fresh opt 0 with ⟨w', img | e | _⟩
    · dsimp only
      have h3 : (vptrInitT E.cfg E.rnd (applyImage c.lattice img s).svptr (ctxClasses c.lattice) (applyImage c.lattice img s).vptr opt 0).2 = _ := res_vptrInitT _ _ _ _ _
      rw [← h3]
      rcases vptrInitT E.cfg E.rnd (applyImage c.lattice img s).svptr (ctxClasses c.lattice) (applyImage c.lattice img s).vptr opt 0 with ⟨w'', v | e | _⟩
      · dsimp only
        cases v.error <;> rfl
      · rfl
      · rfl
    · rfl
    · rfl
  · rfl
  · rfl

end OpenMethod

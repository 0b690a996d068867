import Verif.Proof.Tables
import Verif.Proof.Slots
import Verif.Proof.MoreSpecific

/-! # `compile`: slots, v-table entries and tables together -/

namespace OpenMethod

open Spec Relation

/-! ## Parameters -/

theorem mem_allParams {ms : List Meth} {mi k : Nat} {v : Cls} :
    ((mi, k), v) ∈ allParams ms ↔ ∃ m, ms[mi]? = some m ∧ m.vp[k]? = some v := by
  unfold allParams
  simp only [List.mem_flatMap, List.mem_map, Prod.exists, List.mem_zipIdx_iff_getElem?, Prod.mk.injEq]
  constructor
  · rintro ⟨m, mi', hm, v', k', hv, ⟨rfl, rfl⟩, rfl⟩
    exact ⟨m, hm, hv⟩
  · rintro ⟨m, hm, hv⟩
    exact ⟨m, mi, hm, v, k, hv, ⟨rfl, rfl⟩, rfl⟩

theorem mem_usedByVp {ms : List Meth} {mi k : Nat} {c : Cls} :
    (mi, k) ∈ usedByVp ms c ↔ ∃ m, ms[mi]? = some m ∧ m.vp[k]? = some c := by
  unfold usedByVp
  simp only [List.mem_map, List.mem_filter, decide_eq_true_eq, Prod.exists]
  constructor
  · rintro ⟨a, b, c', ⟨h, rfl⟩, he⟩
    simp only [Prod.mk.injEq] at he
    obtain ⟨rfl, rfl⟩ := he
    exact mem_allParams.1 h
  · intro h
    exact ⟨mi, k, c, ⟨mem_allParams.2 h, rfl⟩, rfl⟩

theorem allParams_nodup (ms : List Meth) : ((allParams ms).map (·.1)).Nodup := by
  unfold allParams
  rw [List.map_flatMap, List.nodup_flatMap]
  constructor
  · rintro ⟨m, mi⟩ _
    dsimp only
    rw [List.map_map]
    have h : (m.vp.zipIdx.map (·.2)).Nodup := by rw [List.zipIdx_map_snd]; exact List.nodup_range'
    have : ((fun (x : (Nat × Nat) × Cls) => x.1) ∘ fun (vk : Cls × Nat) => ((mi, vk.2), vk.1)) = (fun k => (mi, k)) ∘ fun (vk : Cls × Nat) => vk.2 := rfl
    rw [this, ← List.map_map]
    exact h.map (fun a b hab => by simpa using hab)
  · have h : (ms.zipIdx.map (·.2)).Nodup := by rw [List.zipIdx_map_snd]; exact List.nodup_range'
    have h' : ms.zipIdx.Pairwise (fun a b => a.2 ≠ b.2) := List.pairwise_map.1 h
    refine h'.imp ?_
    rintro ⟨a, i⟩ ⟨b, j⟩ hij
    simp only [Function.onFun, List.Disjoint, List.map_map]
    intro x hx hx'
    simp only [List.mem_map, Function.comp_apply] at hx hx'
    obtain ⟨_, _, rfl⟩ := hx
    obtain ⟨_, _, he⟩ := hx'
    simp only [Prod.mk.injEq] at he
    exact hij he.1.symm

theorem usedByVp_nodup (ms : List Meth) (c : Cls) : (usedByVp ms c).Nodup := by
  unfold usedByVp
  exact (List.Sublist.map _ List.filter_sublist).nodup (allParams_nodup ms)

/-- Slot allocation is called with what it relies on. -/
theorem exists_slotCtx {p : Program} {L : Lattice} (hL : LatticeOk p L) (hac : Acyclic p) (ms : List Meth)
    (hms : ∀ m ∈ ms, ∀ v ∈ m.vp, v ∈ L.order) : ∃ rk, SlotCtx L (usedByVp ms) rk := by
  obtain ⟨rk, hrk, hrkb⟩ := exists_rank (univ := L.order) hac (fun d b h => (hL.declared_mem d b h).2)
  have hdb : ∀ d b, b ∈ L.db d → TransGen (DeclaredBase p) d b := fun d b h => hL.tb_sound d b (hL.db_sub d b h)
  refine ⟨rk, hL.mem_dd, ?_, ?_, hrkb, ?_, ?_, ?_, usedByVp_nodup ms⟩
  · intro d b h
    have ht := hdb d b h
    constructor
    · obtain ⟨y, hy, _⟩ := (TransGen.head'_iff).1 ht
      exact (hL.declared_mem d y hy).1
    · obtain ⟨y, _, hy⟩ := (TransGen.tail'_iff).1 ht
      exact (hL.declared_mem y b hy).2
  · exact fun d b h => transGen_rank hrk (hdb d b h)
  · intro c hc x
    rw [hL.mem_td c hc, hL.derives_iff]
    rfl
  · rintro c ⟨mi, k⟩ h
    obtain ⟨m, hm, hv⟩ := mem_usedByVp.1 h
    exact hms m (List.mem_of_getElem? hm) c (List.mem_of_getElem? hv)
  · rintro c d ⟨mi, k⟩ h h'
    obtain ⟨m, hm, hv⟩ := mem_usedByVp.1 h
    obtain ⟨m', hm', hv'⟩ := mem_usedByVp.1 h'
    obtain rfl := Option.some.inj (hm.symm.trans hm')
    exact Option.some.inj (hv.symm.trans hv')

/-! ## Stores in v-tables -/

theorem mem_entryWrites {slots : Nat × Nat → Nat} {mi : Nat} {groups : List (List Group)} {w : Cls × Nat × Entry} :
    w ∈ entryWrites slots mi groups ↔
      ∃ k gs n g, groups[k]? = some gs ∧ gs[n]? = some g ∧ w.1 ∈ g.2 ∧ w.2.1 = slots (mi, k) ∧
        w.2.2 = { method := mi, vp := k, group := n } := by
  unfold entryWrites
  simp only [List.mem_flatMap, List.mem_map, Prod.exists, List.mem_zipIdx_iff_getElem?]
  constructor
  · rintro ⟨gs, k, hk, m, cs, n, hn, c, hc, rfl⟩
    exact ⟨k, gs, n, m, cs, hk, hn, hc, rfl, rfl⟩
  · rintro ⟨k, gs, n, m, cs, hk, hn, hc, h1, h2⟩
    refine ⟨gs, k, hk, m, cs, n, hn, w.1, hc, ?_⟩
    rw [← h1, ← h2]

theorem groupsFrom_get (pl : Platform) (L : Lattice) (m : Meth) (k : Nat) (gs : List Group) :
    (methGroups pl L m)[k]? = some gs ↔ ∃ v, m.vp[k]? = some v ∧ gs = groupsOf pl L m.overriders k v := by
  unfold methGroups
  rw [List.getElem?_map, List.getElem?_zipIdx]
  cases m.vp[k]? with
  | none => simp
  | some v => simp [eq_comm]

theorem mem_allWrites {pl : Platform} {L : Lattice} {slots : Nat × Nat → Nat} {ms : List Meth} {w : Cls × Nat × Entry} :
    w ∈ allWrites pl L slots ms ↔
      ∃ mi m k v n g, ms[mi]? = some m ∧ m.vp[k]? = some v ∧ (groupsOf pl L m.overriders k v)[n]? = some g ∧ w.1 ∈ g.2 ∧
        w.2.1 = slots (mi, k) ∧ w.2.2 = { method := mi, vp := k, group := n } := by
  unfold allWrites
  simp only [List.mem_flatMap, Prod.exists, List.mem_zipIdx_iff_getElem?, mem_entryWrites, groupsFrom_get]
  constructor
  · rintro ⟨m, mi, hm, k, gs, n, a, b, ⟨v, hv, rfl⟩, hn, h⟩
    exact ⟨mi, m, k, v, n, a, b, hm, hv, hn, h⟩
  · rintro ⟨mi, m, k, v, n, a, b, hm, hv, hn, h⟩
    exact ⟨m, mi, hm, k, _, n, a, b, ⟨v, hv, rfl⟩, hn, h⟩

/-- The state of v-tables after some stores. -/
structure WroteOk (first : Cls → Nat) (init vtbl : Cls → List Entry) (ws : List (Cls × Nat × Entry)) : Prop where
  length : ∀ x, (vtbl x).length = (init x).length
  last : ∀ w ∈ ws, (∀ w' ∈ ws, w'.1 = w.1 → w'.2.1 = w.2.1 → w' = w) → (vtbl w.1)[w.2.1 - first w.1]? = some w.2.2
  from_ : ∀ x e, e ∈ vtbl x → e ∈ init x ∨ ∃ w ∈ ws, w.1 = x ∧ w.2.2 = e
  inRange : ∀ w ∈ ws, first w.1 ≤ w.2.1

theorem writes_ok (first : Cls → Nat) (init : Cls → List Entry) (ws : List (Cls × Nat × Entry))
    (hr : ∀ w ∈ ws, first w.1 ≤ w.2.1 ∧ w.2.1 < first w.1 + (init w.1).length) :
    ∃ vtbl, ws.foldlM (writeEntry first) init = .ok vtbl ∧ WroteOk first init vtbl ws := by
  suffices H : ∀ (pre suf : List (Cls × Nat × Entry)) (v : Cls → List Entry), ws = pre ++ suf → WroteOk first init v pre →
      ∃ vtbl, suf.foldlM (writeEntry first) v = .ok vtbl ∧ WroteOk first init vtbl ws from
    H [] ws init rfl ⟨fun _ => rfl, by simp, fun _ _ h => .inl h, by simp⟩
  intro pre suf
  induction suf generalizing pre with
  | nil => intro v hl h; exact ⟨v, rfl, by simpa [hl] using h⟩
  | cons w suf ih =>
    intro v hl h
    have hw : w ∈ ws := by rw [hl]; simp
    obtain ⟨hr1, hr2⟩ := hr w hw
    rw [List.foldlM_cons]
    have hok : writeEntry first v w = .ok (Function.update v w.1 ((v w.1).set (w.2.1 - first w.1) w.2.2)) := by
      unfold writeEntry
      rw [if_pos ⟨hr1, by rw [h.length]; omega⟩]
    rw [hok, Res.ok_bind]
    refine ih (pre ++ [w]) _ (by simp [hl]) ⟨?_, ?_, ?_, ?_⟩
    · intro x
      by_cases hx : x = w.1
      · subst hx; simp [h.length]
      · rw [Function.update_of_ne hx]; exact h.length x
    · intro u hu huniq
      by_cases hx : u.1 = w.1
      · rw [hx, Function.update_self]
        by_cases hs : u.2.1 = w.2.1
        · have he : w = u := huniq w (by simp) hx.symm hs.symm
          subst he
          rw [List.getElem?_set_self (by rw [h.length]; omega)]
        · have hu' : u ∈ pre := by
            rcases List.mem_append.1 hu with hu | hu
            · exact hu
            · simp at hu; subst hu; exact absurd rfl hs
          have h1 := h.inRange u hu'
          rw [List.getElem?_set_ne (by rw [hx] at h1; omega)]
          have := h.last u hu' (fun w' hw' => huniq w' (List.mem_append_left _ hw'))
          rwa [hx] at this
      · rw [Function.update_of_ne hx]
        have hu' : u ∈ pre := by
          rcases List.mem_append.1 hu with hu | hu
          · exact hu
          · simp at hu; subst hu; exact absurd rfl hx
        exact h.last u hu' (fun w' hw' => huniq w' (List.mem_append_left _ hw'))
    · intro x e he
      by_cases hx : x = w.1
      · subst hx
        rw [Function.update_self] at he
        rcases List.mem_or_eq_of_mem_set he with he | rfl
        · rcases h.from_ w.1 e he with h' | ⟨u, hu, h1, h2⟩
          · exact .inl h'
          · exact .inr ⟨u, List.mem_append_left _ hu, h1, h2⟩
        · exact .inr ⟨w, by simp, rfl, rfl⟩
      · rw [Function.update_of_ne hx] at he
        rcases h.from_ x e he with h' | ⟨u, hu, h1, h2⟩
        · exact .inl h'
        · exact .inr ⟨u, List.mem_append_left _ hu, h1, h2⟩
    · intro u hu
      rcases List.mem_append.1 hu with hu | hu
      · exact h.inRange u hu
      · simp at hu; subst hu; exact hr1

/-! ## `compile` -/

/-- What is known of the result of `compile`, whatever the cells of the dispatch tables. -/
structure CompiledBase (pl : Platform) (p : Program) (c : Compiled) : Prop where
  lat : LatticeOk p c.lattice
  meths : c.meths = p.methods.map (toMeth p.rtti c.lattice)
  methOk : ∀ m ∈ p.methods, MethOk p c.lattice m
  slots : SlotsOk c.lattice (usedByVp c.meths) c.slots
  shapes : List.Forall₂ (TableBase pl c.lattice) c.meths c.tables
  vlen : ∀ x, (c.vtbl x).length = c.slots.size x
  /-- the entry of a parameter in the v-table of a class that it accepts -/
  entry : ∀ (mi : Nat) (m : Meth) (k : Nat) (v x : Cls), c.meths[mi]? = some m → m.vp[k]? = some v → x ∈ c.lattice.td v →
    SlotSafe c.lattice (usedByVp c.meths) v x →
    (c.vtbl x)[c.slots.slots (mi, k) - c.slots.first x]? =
      some { method := mi, vp := k, group := groupIx (groupsOf pl c.lattice m.overriders k v) x }
  /-- the origin of entries -/
  entries : ∀ x e, e ∈ c.vtbl x → e = { method := 0, vp := 0, group := 0 } ∨
    ∃ m v, c.meths[e.method]? = some m ∧ m.vp[e.vp]? = some v ∧ e.group < (groupsOf pl c.lattice m.overriders e.vp v).length
  report : c.report = accumulate c.tables

/-- What is known of the result of `compile`. -/
structure CompiledOk (n : Bool) (pl : Platform) (p : Program) (c : Compiled) : Prop extends CompiledBase pl p c where
  tables : List.Forall₂ (fun m t => ∃ rs, TableOk n pl c.lattice m t rs) c.meths c.tables

/-- Slots and v-tables do not depend on the dispatch tables. -/
theorem compile_base {pl : Platform} {p : Program} {L : Lattice} {ms : List Meth} (hac : Acyclic p) (hwf : ∀ m ∈ p.methods, m.WF)
    (hL : augmentClasses pl p.rtti p.classes = .ok L) (hM : augment p.rtti L p.methods = .ok ms) :
    ∃ vtbl, (allWrites pl L (assignSlots pl L (usedByVp ms)).slots ms).foldlM (writeEntry (assignSlots pl L (usedByVp ms)).first)
        (fun c => List.replicate ((assignSlots pl L (usedByVp ms)).size c) { method := 0, vp := 0, group := 0 }) = .ok vtbl ∧
      ∀ ts, List.Forall₂ (TableBase pl L) ms ts →
        CompiledBase pl p { lattice := L, meths := ms, slots := assignSlots pl L (usedByVp ms), tables := ts, vtbl := vtbl, report := accumulate ts } := by
  have hlat := augmentClasses_ok hac hL
  have hmok := methOk_of_augment hlat hM hwf
  obtain ⟨hms, _, _⟩ := augment_ok.1 hM
  have hvp : ∀ m ∈ ms, ∀ v ∈ m.vp, v ∈ L.order := by
    intro m hm v hv
    rw [hms] at hm
    obtain ⟨m', hm', rfl⟩ := List.mem_map.1 hm
    obtain ⟨t, ht, rfl⟩ := List.mem_map.1 hv
    exact (hmok m' hm').vp t ht
  obtain ⟨rk, hctx⟩ := exists_slotCtx hlat hac ms hvp
  have hS := assignSlots_ok hctx pl
  generalize assignSlots pl L (usedByVp ms) = s at hS ⊢
  have hpar : ∀ w ∈ allWrites pl L s.slots ms, ∃ mi k v, (mi, k) ∈ usedByVp ms v ∧ Up L w.1 v ∧ w.2.1 = s.slots (mi, k) := by
    intro w hw
    obtain ⟨mi, m, k, v, n, g, hm, hv, hn, hc, h1, _⟩ := mem_allWrites.1 hw
    have htd := groupsOf_mem pl L (List.mem_of_getElem? hn) hc
    have hvo := hvp m (List.mem_of_getElem? hm) v (List.mem_of_getElem? hv)
    exact ⟨mi, k, v, mem_usedByVp.2 ⟨m, hm, hv⟩, (hctx.mem_td v hvo w.1).1 htd, h1⟩
  obtain ⟨vtbl, hv1, hv2⟩ := writes_ok s.first
    (fun c => List.replicate (s.size c) ({ method := 0, vp := 0, group := 0 } : Entry)) (allWrites pl L s.slots ms) (by
      intro w hw
      obtain ⟨mi, k, v, hu, hup, he⟩ := hpar w hw
      have := hS.range (mi, k) v w.1 hu hup
      rw [List.length_replicate, he]
      exact this)
  refine ⟨vtbl, hv1, fun ts ht2 => ⟨hlat, hms, hmok, hS, ht2, ?_, ?_, ?_, rfl⟩⟩
  · intro x; rw [hv2.length]; simp
  · intro mi m k v x hm hv hx hsafe
    dsimp only at hm hx hsafe ⊢
    obtain ⟨g, hg, _, hgc⟩ := groupsOf_get pl L m.overriders k hx
    have hw : (x, s.slots (mi, k),
        ({ method := mi, vp := k, group := groupIx (groupsOf pl L m.overriders k v) x } : Entry)) ∈
        allWrites pl L s.slots ms := mem_allWrites.2 ⟨mi, m, k, v, _, g, hm, hv, hg, hgc, rfl, rfl⟩
    refine hv2.last _ hw ?_
    rintro ⟨x', sl, e⟩ hw' hx' hs'
    dsimp only at hx' hs'
    subst hx'
    obtain ⟨mi', m', k', v', n', g', hm', hv', hn', hc', h1', h2'⟩ := mem_allWrites.1 hw'
    dsimp only at hc' h1' h2'
    have hx2 := groupsOf_mem pl L (List.mem_of_getElem? hn') hc'
    have hvo := hvp m (List.mem_of_getElem? hm) v (List.mem_of_getElem? hv)
    have hvo' := hvp m' (List.mem_of_getElem? hm') v' (List.mem_of_getElem? hv')
    have heq : (mi', k') = (mi, k) := by
      by_contra hne
      have hu := mem_usedByVp.2 ⟨m', hm', hv'⟩
      obtain ⟨ha, ha'⟩ := hsafe v' (List.ne_nil_of_mem hu) ((hctx.mem_td v' hvo' x').1 hx2)
      exact hS.distinct (mi', k') v' (mi, k) v x' ha ha' hu (mem_usedByVp.2 ⟨m, hm, hv⟩) hne
        ((hctx.mem_td v' hvo' x').1 hx2) ((hctx.mem_td v hvo x').1 hx) (by rw [← h1', hs'])
    simp only [Prod.mk.injEq] at heq
    obtain ⟨rfl, rfl⟩ := heq
    obtain rfl := Option.some.inj (hm.symm.trans hm')
    obtain rfl := Option.some.inj (hv.symm.trans hv')
    have := groupIx_eq (groupsOf_ok pl L m.overriders k' v) hn' hc'
    rw [h2', hs', this]
  · intro x e he
    rcases hv2.from_ x e he with h' | ⟨w, hw, rfl, rfl⟩
    · exact .inl (List.eq_of_mem_replicate h')
    · obtain ⟨mi, m, k, v, n, g, hm, hv, hn, hc, h1, h2⟩ := mem_allWrites.1 hw
      rw [h2]
      exact .inr ⟨m, v, hm, hv, (List.getElem?_eq_some_iff.1 hn).1⟩

theorem compile_shape {n : Bool} {pl : Platform} {p : Program} {r : Res Compiled} (h : compile pl n p = r) (hac : Acyclic p)
    (hwf : ∀ m ∈ p.methods, m.WF) :
    (∃ e, r = .err e ∧ (augmentClasses pl p.rtti p.classes = .err e ∨
        ∃ L, augmentClasses pl p.rtti p.classes = .ok L ∧ augment p.rtti L p.methods = .err e)) ∨
    (r = .ub ∧ (augmentClasses pl p.rtti p.classes = .ub ∨
        ∃ L, augmentClasses pl p.rtti p.classes = .ok L ∧ (augment p.rtti L p.methods = .ub ∨
          ∃ ms, augment p.rtti L p.methods = .ok ms ∧ ∃ m ∈ ms, MethUb n L m))) ∨
    ∃ c ms, r = .ok c ∧ augmentClasses pl p.rtti p.classes = .ok c.lattice ∧ augment p.rtti c.lattice p.methods = .ok ms ∧
      CompiledOk n pl p c := by
  unfold compile at h
  cases hL : augmentClasses pl p.rtti p.classes with
  | err e => rw [hL] at h; exact .inl ⟨e, h.symm, .inl rfl⟩
  | ub => rw [hL] at h; exact .inr (.inl ⟨h.symm, .inl rfl⟩)
  | ok L =>
    rw [hL] at h
    simp only [Res.ok_bind] at h
    cases hM : augment p.rtti L p.methods with
    | err e => rw [hM] at h; exact .inl ⟨e, h.symm, .inr ⟨L, rfl, hM⟩⟩
    | ub => rw [hM] at h; exact .inr (.inl ⟨h.symm, .inr ⟨L, rfl, .inl hM⟩⟩)
    | ok ms =>
      rw [hM] at h
      simp only [Res.ok_bind] at h
      obtain ⟨vtbl, hv1, hb⟩ := compile_base hac hwf hL hM
      rw [hv1] at h
      simp only [Res.ok_bind] at h
      obtain ⟨ht1, ht2⟩ | ⟨ts, ht1, ht2⟩ := buildMethods_ok n pl L ms
      · rw [ht1] at h
        exact .inr (.inl ⟨h.symm, .inr ⟨L, rfl, .inr ⟨ms, hM, ht2⟩⟩⟩)
      rw [ht1] at h
      simp only [Res.ok_bind, Res.pure_eq] at h
      exact .inr (.inr ⟨_, ms, h.symm, rfl, hM, hb ts (ht2.imp fun _ _ h => h.choose_spec.base), ht2⟩)

/-- `compile` establishes its guarantees whenever it succeeds. -/
theorem compile_ok {n : Bool} {pl : Platform} {p : Program} {c : Compiled} (hac : Acyclic p) (hwf : ∀ m ∈ p.methods, m.WF)
    (h : compile pl n p = .ok c) : CompiledOk n pl p c := by
  rcases compile_shape h hac hwf with ⟨e, he, _⟩ | ⟨he, _⟩ | ⟨c', ms, he, _, _, hc⟩
  · simp at he
  · simp at he
  · obtain rfl := Res.ok.inj he
    exact hc

end OpenMethod

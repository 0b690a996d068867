import Verif.Proof.Compile
import Verif.Model.Global

/-! # `write_global_data`: layout of the words -/

namespace OpenMethod

open Spec

/-- Emission of a list of words. -/
theorem emit_all {α : Type} (cap : Nat) (f : α → Res Word) (l : List α) (mem : List Word) (hcap : mem.length + l.length ≤ cap)
    (hf : ∀ a ∈ l, ∃ w, f a = .ok w) :
    ∃ ws, l.foldlM (fun mem a => do let w ← f a; emit cap mem w) mem = .ok (mem ++ ws) ∧
      List.Forall₂ (fun a w => f a = .ok w) l ws := by
  induction l generalizing mem with
  | nil => exact ⟨[], by simp, .nil⟩
  | cons a l ih =>
    obtain ⟨w, hw⟩ := hf a (by simp)
    simp only [List.length_cons] at hcap
    obtain ⟨ws, h1, h2⟩ := ih (mem ++ [w]) (by simp; omega) (fun b hb => hf b (by simp [hb]))
    refine ⟨w :: ws, ?_, .cons hw h2⟩
    have he : emit cap mem w = .ok (mem ++ [w]) := by unfold emit; rw [if_pos (by omega)]
    rw [List.foldlM_cons, hw]
    simp only [Res.ok_bind, he]
    rw [h1]
    simp

/-- The words of a dispatch table are at `base`. -/
def TableAt (mem : List Word) (base : Nat) (m : Meth) (t : MethTable) : Prop :=
  ∀ (j : Nat) (cell : Cell), t.table[j]? = some cell → ∃ f, pfOf m cell = some f ∧ mem[base + j]? = some (.pf f)

theorem TableAt.append {mem : List Word} {base : Nat} {m : Meth} {t : MethTable} (h : TableAt mem base m t) (ws : List Word) :
    TableAt (mem ++ ws) base m t := by
  intro j cell hj
  obtain ⟨f, hf, hm⟩ := h j cell hj
  refine ⟨f, hf, ?_⟩
  rw [List.getElem?_append_left (List.getElem?_eq_some_iff.1 hm).1]
  exact hm

/-- State after some iterations of the loop over methods. -/
structure TablesAt (mts : List (Meth × MethTable)) (s : List Word × List (Option Nat)) : Prop where
  size : s.1.length ≤ (mts.map (·.2.table.length)).sum
  bases : s.2.length = mts.length
  multi : ∀ (i : Nat) (m : Meth) (t : MethTable), mts[i]? = some (m, t) → m.vp.length ≠ 1 →
    ∃ base, s.2[i]? = some (some base) ∧ TableAt s.1 base m t

theorem writeTable_ok (cap : Nat) (pre : List (Meth × MethTable)) (m : Meth) (t : MethTable) (s : List Word × List (Option Nat))
    (h : TablesAt pre s) (hcap : (pre.map (·.2.table.length)).sum + t.table.length ≤ cap)
    (hpf : ∀ cell ∈ t.table, ∃ f, pfOf m cell = some f) :
    ∃ s', writeTable cap s (m, t) = .ok s' ∧ TablesAt (pre ++ [(m, t)]) s' := by
  have hsum : ((pre ++ [(m, t)]).map (·.2.table.length)).sum = (pre.map (·.2.table.length)).sum + t.table.length := by simp
  unfold writeTable
  by_cases ha : m.vp.length = 1
  · rw [if_pos ha]
    refine ⟨_, rfl, ⟨?_, ?_, ?_⟩⟩
    · rw [hsum]; exact h.size.trans (by omega)
    · simp [h.bases]
    · intro i m' t' hi hne
      rcases Nat.lt_or_ge i pre.length with hlt | hge
      · rw [List.getElem?_append_left hlt] at hi
        obtain ⟨base, hb, hT⟩ := h.multi i m' t' hi hne
        refine ⟨base, ?_, hT⟩
        dsimp only
        rw [List.getElem?_append_left (by rw [h.bases]; exact hlt)]
        exact hb
      · rw [List.getElem?_append_right hge] at hi
        have := (List.getElem?_eq_some_iff.1 hi).1
        simp at this
        have hi0 : i - pre.length = 0 := by omega
        rw [hi0] at hi
        simp at hi
        obtain ⟨rfl, rfl⟩ := hi
        exact absurd ha hne
  · rw [if_neg ha]
    obtain ⟨ws, h1, h2⟩ := emit_all cap (fun cell => do let f ← Res.ofOption (pfOf m cell); return Word.pf f) t.table s.1
      (by have := h.size; omega) (by
        intro cell hc
        obtain ⟨f, hf⟩ := hpf cell hc
        exact ⟨.pf f, by rw [hf]; rfl⟩)
    have e : (fun mem cell => do
        let f ← Res.ofOption (pfOf m cell)
        emit cap mem (.pf f)) = (fun mem cell => do
        let w ← (do let f ← Res.ofOption (pfOf m cell); return Word.pf f : Res Word)
        emit cap mem w) := by
      funext mem cell
      cases pfOf m cell <;> rfl
    dsimp only
    rw [e, h1]
    refine ⟨_, rfl, ⟨?_, ?_, ?_⟩⟩
    · rw [hsum, List.length_append, ← h2.length_eq]
      have := h.size
      omega
    · simp [h.bases]
    · intro i m' t' hi hne
      rcases Nat.lt_or_ge i pre.length with hlt | hge
      · rw [List.getElem?_append_left hlt] at hi
        obtain ⟨base, hb, hT⟩ := h.multi i m' t' hi hne
        refine ⟨base, ?_, hT.append ws⟩
        dsimp only
        rw [List.getElem?_append_left (by rw [h.bases]; exact hlt)]
        exact hb
      · rw [List.getElem?_append_right hge] at hi
        have := (List.getElem?_eq_some_iff.1 hi).1
        simp at this
        have hi0 : i - pre.length = 0 := by omega
        rw [hi0] at hi
        simp at hi
        obtain ⟨rfl, rfl⟩ := hi
        refine ⟨s.1.length, ?_, ?_⟩
        · dsimp only
          rw [List.getElem?_append_right (by rw [h.bases]; exact hge), h.bases, hi0]
          rfl
        · intro j cell hj
          obtain ⟨hl, hR⟩ := List.forall₂_iff_get.1 h2
          have hjl := (List.getElem?_eq_some_iff.1 hj).1
          have hr := hR j hjl (hl ▸ hjl)
          simp only [List.get_eq_getElem] at hr
          have hcell : m.overriders = m.overriders := rfl
          have hje : t.table[j] = cell := by rw [List.getElem?_eq_getElem hjl] at hj; exact Option.some.inj hj
          rw [hje, Res.bind_eq_ok] at hr
          obtain ⟨f, hf, hfw⟩ := hr
          rw [Res.ofOption_eq_ok] at hf
          refine ⟨f, hf, ?_⟩
          rw [List.getElem?_append_right (by omega), Nat.add_sub_cancel_left, List.getElem?_eq_getElem (hl ▸ hjl)]
          rw [← Res.ok.inj hfw]

theorem writeTables_ok (cap : Nat) (mts : List (Meth × MethTable)) (hcap : (mts.map (·.2.table.length)).sum ≤ cap)
    (hpf : ∀ mt ∈ mts, ∀ cell ∈ mt.2.table, ∃ f, pfOf mt.1 cell = some f) :
    ∃ s, mts.foldlM (writeTable cap) ([], []) = .ok s ∧ TablesAt mts s := by
  refine foldlM_exists TablesAt _ mts _ ⟨by simp, rfl, by simp⟩ ?_
  rintro pre ⟨m, t⟩ post s hl h
  have hmem : (m, t) ∈ mts := by rw [hl]; simp
  refine writeTable_ok cap pre m t s h ?_ (hpf _ hmem)
  rw [hl] at hcap
  simp at hcap
  omega

/-- The words of a v-table, and the pointer to it. -/
def VtblAt (c : Compiled) (gen : Nat) (bases : List (Option Nat)) (mem : List Word) (vptr : Cls → Int) (x : Cls) : Prop :=
  ∃ start : Nat, vptr x = (start : Int) - c.slots.first x ∧
    ∀ (j : Nat) (e : Entry), (c.vtbl x)[j]? = some e → ∃ w, entryWord c gen bases e = .ok w ∧ mem[start + j]? = some w

theorem VtblAt.append {c : Compiled} {gen : Nat} {bases : List (Option Nat)} {mem : List Word} {vptr : Cls → Int} {x : Cls}
    (h : VtblAt c gen bases mem vptr x) (ws : List Word) : VtblAt c gen bases (mem ++ ws) vptr x := by
  obtain ⟨start, h1, h2⟩ := h
  refine ⟨start, h1, fun j e hj => ?_⟩
  obtain ⟨w, hw, hm⟩ := h2 j e hj
  exact ⟨w, hw, by rw [List.getElem?_append_left (List.getElem?_eq_some_iff.1 hm).1]; exact hm⟩

theorem writeVtbl_ok (c : Compiled) (gen cap : Nat) (bases : List (Option Nat)) (s : List Word × (Cls → Int)) (x : Cls)
    (hcap : s.1.length + (c.vtbl x).length ≤ cap) (hw : ∀ e ∈ c.vtbl x, ∃ w, entryWord c gen bases e = .ok w) :
    ∃ ws start, writeVtbl c gen cap bases s x = .ok (s.1 ++ ws, Function.update s.2 x start) ∧ ws.length = (c.vtbl x).length ∧
      VtblAt c gen bases (s.1 ++ ws) (Function.update s.2 x start) x := by
  unfold writeVtbl
  dsimp only
  obtain ⟨ws, h1, h2⟩ := emit_all cap (entryWord c gen bases) (c.vtbl x) s.1 hcap hw
  rw [h1]
  refine ⟨ws, _, rfl, h2.length_eq.symm, s.1.length, by simp, ?_⟩
  intro j e hj
  obtain ⟨hl, hR⟩ := List.forall₂_iff_get.1 h2
  have hjl := (List.getElem?_eq_some_iff.1 hj).1
  have hr := hR j hjl (hl ▸ hjl)
  simp only [List.get_eq_getElem] at hr
  have hje : (c.vtbl x)[j] = e := by rw [List.getElem?_eq_getElem hjl] at hj; exact Option.some.inj hj
  rw [hje] at hr
  refine ⟨_, hr, ?_⟩
  rw [List.getElem?_append_right (by omega), Nat.add_sub_cancel_left, List.getElem?_eq_getElem (hl ▸ hjl)]

theorem TableAt.of_prefix {mem mem' : List Word} {base : Nat} {m : Meth} {t : MethTable} (h : TableAt mem base m t)
    (hp : mem <+: mem') : TableAt mem' base m t := by
  obtain ⟨ws, rfl⟩ := hp
  exact h.append ws

/-- What `write_global_data` writes. -/
structure ImageOk (c : Compiled) (gen : Nat) (bases : List (Option Nat)) (img : Image) : Prop where
  size : img.data.length ≤ dataSize c
  multi : ∀ (i : Nat) (m : Meth) (t : MethTable), c.meths[i]? = some m → c.tables[i]? = some t → m.vp.length ≠ 1 →
    ∃ base, bases[i]? = some (some base) ∧ TableAt img.data base m t
  vtbl : ∀ x ∈ c.lattice.order, VtblAt c gen bases img.data img.vptr x
  slotsStrides : img.slotsStrides = slotsStridesOf c
  next : img.next = (c.meths.zip c.tables).flatMap fun mt => nextStores mt.1 mt.2

theorem zip_get {α β : Type} {l : List α} {l' : List β} {i : Nat} {a : α} {b : β} (ha : l[i]? = some a) (hb : l'[i]? = some b) :
    (l.zip l')[i]? = some (a, b) := by
  rw [List.getElem?_zip_eq_some]
  exact ⟨ha, hb⟩

theorem sum_map_zip_le {α β : Type} (l : List α) (l' : List β) (f : β → Nat) :
    ((l.zip l').map fun x => f x.2).sum ≤ (l'.map f).sum := by
  induction l generalizing l' with
  | nil => simp
  | cons a l ih =>
    cases l' with
    | nil => simp
    | cons b l' =>
      simp only [List.zip_cons_cons, List.map_cons, List.sum_cons]
      exact Nat.add_le_add_left (ih l') _

/-- `write_global_data` succeeds if cells and entries designate existing things. -/
theorem writeGlobal_of {c : Compiled} (gen : Nat) (hnd : c.lattice.order.Nodup)
    (hpf : ∀ mt ∈ c.meths.zip c.tables, ∀ cell ∈ mt.2.table, ∃ f, pfOf mt.1 cell = some f)
    (hw : ∀ bases, (∀ (i : Nat) (m : Meth) (t : MethTable), c.meths[i]? = some m → c.tables[i]? = some t → m.vp.length ≠ 1 →
        ∃ base, bases[i]? = some (some base)) →
      ∀ x ∈ c.lattice.order, ∀ e ∈ c.vtbl x, ∃ w, entryWord c gen bases e = .ok w) :
    ∃ bases img, writeGlobal c gen = .ok img ∧ ImageOk c gen bases img := by
  have hsz := sum_map_zip_le c.meths c.tables (fun t => t.table.length)
  have hcap : dataSize c = (c.tables.map (·.table.length)).sum + (c.lattice.order.map fun x => (c.vtbl x).length).sum := rfl
  obtain ⟨s, hs, T⟩ := writeTables_ok (dataSize c) (c.meths.zip c.tables) (by omega) hpf
  have hbases : ∀ (i : Nat) (m : Meth) (t : MethTable), c.meths[i]? = some m → c.tables[i]? = some t → m.vp.length ≠ 1 →
      ∃ base, s.2[i]? = some (some base) ∧ TableAt s.1 base m t :=
    fun i m t hm ht hne => T.multi i m t (zip_get hm ht) hne
  have hw' := hw s.2 (fun i m t hm ht hne => by
    obtain ⟨base, hb, _⟩ := hbases i m t hm ht hne
    exact ⟨base, hb⟩)
  obtain ⟨v, hv, hv1, hv2, hv3⟩ := foldlM_exists
    (fun (pre : List Cls) (v : List Word × (Cls → Int)) => s.1 <+: v.1 ∧
      v.1.length ≤ (c.tables.map (·.table.length)).sum + (pre.map fun x => (c.vtbl x).length).sum ∧
      ∀ x ∈ pre, VtblAt c gen s.2 v.1 v.2 x)
    (writeVtbl c gen (dataSize c) s.2) c.lattice.order (s.1, fun _ => 0)
    ⟨List.prefix_rfl, by have := T.size; simp; omega, by simp⟩ (by
      rintro pre x post v hl ⟨h1, h2, h3⟩
      have hx : x ∈ c.lattice.order := by rw [hl]; simp
      have hnx : x ∉ pre := by
        rw [hl] at hnd
        intro h
        exact (List.nodup_append.1 hnd).2.2 x h x (by simp) rfl
      obtain ⟨ws, start, hok, hwl, hvt⟩ := writeVtbl_ok c gen (dataSize c) s.2 v x (by
        rw [hcap, hl]
        simp only [List.map_append, List.map_cons, List.sum_append, List.sum_cons]
        omega) (hw' x hx)
      refine ⟨_, hok, h1.trans (List.prefix_append _ _), ?_, ?_⟩
      · simp only [List.length_append, List.map_append, List.map_cons, List.map_nil, List.sum_append, List.sum_cons,
          List.sum_nil]
        omega
      · intro y hy
        rcases List.mem_append.1 hy with hy' | hy
        · obtain ⟨st, e1, e2⟩ := (h3 y hy').append ws
          refine ⟨st, ?_, e2⟩
          dsimp only
          rw [Function.update_of_ne (by rintro rfl; exact hnx hy')]
          exact e1
        · simp at hy; subst hy; exact hvt)
  refine ⟨s.2, ⟨v.1, v.2, slotsStridesOf c, (c.meths.zip c.tables).flatMap fun mt => nextStores mt.1 mt.2⟩, ?_, ?_⟩
  · unfold writeGlobal
    dsimp only
    rw [hs]
    simp only [Res.ok_bind]
    rw [hv]
    rfl
  · refine ⟨by rw [hcap]; exact hv2, ?_, hv3, rfl, rfl⟩
    intro i m t hm ht hne
    obtain ⟨base, hb, hT⟩ := hbases i m t hm ht hne
    exact ⟨base, hb, hT.of_prefix hv1⟩

/-- Cells designate existing overriders. -/
theorem TableOk.cell_pf {n : Bool} {pl : Platform} {L : Lattice} {m : Meth} {t : MethTable} {rs : List CellResult}
    (h : TableOk n pl L m t rs) (hlen : ∀ o ∈ m.overriders, o.vp.length = m.vp.length) {cell : Cell} (hc : cell ∈ t.table) :
    ∃ f, pfOf m cell = some f := by
  rw [h.table] at hc
  obtain ⟨r, hr, rfl⟩ := List.mem_map.1 hc
  obtain ⟨args, surv, left, ha, hg, hC⟩ := h.mem hr
  cases hrc : r.cell with
  | notImplemented => exact ⟨_, rfl⟩
  | ambiguous => exact ⟨_, rfl⟩
  | ovr o =>
    have hs : left.getLast? = some o := cellFor_ovr (hC.cell ▸ hrc)
    have ho : o ∈ setBits (argMask L m.overriders args) :=
      hC.isSurv.sub.subset ((remainL_sublist hC.isLeft).subset (List.mem_of_getLast? hs))
    rw [mem_setBits_argMask L m.overriders args (fun o ho => by rw [hlen o ho, ha.length_eq])] at ho
    obtain ⟨ov, hov, _⟩ := ho
    exact ⟨.user ov.info.pf, by simp [pfOf, hov]⟩

theorem forall₂_get {α β : Type} {R : α → β → Prop} {l : List α} {l' : List β} (h : List.Forall₂ R l l') {i : Nat} {a : α}
    (ha : l[i]? = some a) : ∃ b, l'[i]? = some b ∧ R a b := by
  obtain ⟨hl, hR⟩ := List.forall₂_iff_get.1 h
  obtain ⟨hi, rfl⟩ := List.getElem?_eq_some_iff.1 ha
  exact ⟨l'[i], List.getElem?_eq_getElem (hl ▸ hi), hR i hi (hl ▸ hi)⟩

theorem methGroups_single (pl : Platform) (L : Lattice) (m : Meth) (v : Cls) (hv : m.vp = [v]) :
    methGroups pl L m = [groupsOf pl L m.overriders 0 v] := by
  unfold methGroups
  rw [hv]
  rfl

theorem td_self {p : Program} {L : Lattice} (hL : LatticeOk p L) {c : Cls} (hc : c ∈ L.order) : c ∈ L.td c :=
  (hL.mem_td c hc c).2 .refl

theorem groupsOf_pos {p : Program} {L : Lattice} (hL : LatticeOk p L) (pl : Platform) (os : List Ovr) (k : Nat) {v : Cls}
    (hv : v ∈ L.order) : 0 < (groupsOf pl L os k v).length := by
  obtain ⟨g, hg, _⟩ := groupsOf_get pl L os k (td_self hL hv)
  exact Nat.lt_of_le_of_lt (Nat.zero_le _) (List.getElem?_eq_some_iff.1 hg).1

theorem CompiledBase.meth {pl : Platform} {p : Program} {c : Compiled} (h : CompiledBase pl p c) {i : Nat} {m : Meth}
    (hm : c.meths[i]? = some m) : ∃ mi, p.methods[i]? = some mi ∧ m = toMeth p.rtti c.lattice mi ∧ MethOk p c.lattice mi := by
  rw [h.meths, List.getElem?_map, Option.map_eq_some_iff] at hm
  obtain ⟨mi, hmi, rfl⟩ := hm
  exact ⟨mi, hmi, rfl, h.methOk mi (List.mem_of_getElem? hmi)⟩

theorem CompiledOk.table {n : Bool} {pl : Platform} {p : Program} {c : Compiled} (h : CompiledOk n pl p c) {i : Nat} {m : Meth}
    (hm : c.meths[i]? = some m) : ∃ t rs, c.tables[i]? = some t ∧ TableOk n pl c.lattice m t rs := by
  obtain ⟨t, ht, rs, hT⟩ := forall₂_get h.tables hm
  exact ⟨t, rs, ht, hT⟩

theorem CompiledBase.shape {pl : Platform} {p : Program} {c : Compiled} (h : CompiledBase pl p c) {i : Nat} {m : Meth}
    (hm : c.meths[i]? = some m) : ∃ t, c.tables[i]? = some t ∧ TableBase pl c.lattice m t :=
  forall₂_get h.shapes hm

theorem TableBase.cell_pf {pl : Platform} {L : Lattice} {m : Meth} {t : MethTable} (h : TableBase pl L m t) {cell : Cell} (hc : cell ∈ t.table) :
    ∃ f, pfOf m cell = some f := by
  cases cell with
  | notImplemented => exact ⟨_, rfl⟩
  | ambiguous => exact ⟨_, rfl⟩
  | ovr o => exact ⟨.user (m.overriders[o]'(h.range o hc)).info.pf, by simp [pfOf, h.range o hc]⟩

theorem MethOk.vp_order {p : Program} {L : Lattice} {mi : MethodInfo} (h : MethOk p L mi) {k : Nat} {v : Cls}
    (hv : (toMeth p.rtti L mi).vp[k]? = some v) : v ∈ L.order := by
  simp only [toMeth, List.getElem?_map, Option.map_eq_some_iff] at hv
  obtain ⟨t, ht, rfl⟩ := hv
  exact h.vp t (List.mem_of_getElem? ht)

theorem MethOk.ovp_length {p : Program} {L : Lattice} {mi : MethodInfo} (h : MethOk p L mi) :
    ∀ o ∈ (toMeth p.rtti L mi).overriders, o.vp.length = (toMeth p.rtti L mi).vp.length := by
  intro o ho
  simp only [toMeth, List.mem_map] at ho ⊢
  obtain ⟨o', ho', rfl⟩ := ho
  simpa using h.wf.overriders o' ho'

/-- Every entry of a v-table can be turned into a word. -/
theorem CompiledBase.entryWord_ok {pl : Platform} {p : Program} {c : Compiled} (h : CompiledBase pl p c)
    (gen : Nat) (bases : List (Option Nat))
    (hb : ∀ (i : Nat) (m : Meth) (t : MethTable), c.meths[i]? = some m → c.tables[i]? = some t → m.vp.length ≠ 1 →
        ∃ base, bases[i]? = some (some base)) (x : Cls) (hx : x ∈ c.lattice.order) (e : Entry) (he : e ∈ c.vtbl x) :
    ∃ w, entryWord c gen bases e = .ok w := by
  -- the method of the entry exists and, for a uni-method, so does the group
  have key : ∃ m v, c.meths[e.method]? = some m ∧ m.vp[e.vp]? = some v ∧
      e.group < (groupsOf pl c.lattice m.overriders e.vp v).length := by
    rcases h.entries x e he with rfl | h'
    · -- the v-table is not empty, hence there is a method
      have hpos : 0 < c.slots.size x := by
        rw [← h.vlen x]; exact List.length_pos_of_mem he
      obtain ⟨⟨mi, k⟩, X, hu, _, _⟩ := h.slots.first_used x hx hpos
      obtain ⟨m', hm', _⟩ := mem_usedByVp.1 hu
      have h0 : 0 < c.meths.length := Nat.lt_of_le_of_lt (Nat.zero_le _) (List.getElem?_eq_some_iff.1 hm').1
      obtain ⟨m0, hm0⟩ : ∃ m0, c.meths[0]? = some m0 := ⟨_, List.getElem?_eq_getElem h0⟩
      obtain ⟨mi0, _, rfl, hok⟩ := h.meth hm0
      have hl : 0 < (toMeth p.rtti c.lattice mi0).vp.length := by simpa [toMeth] using hok.wf.pos
      have hv0 := List.getElem?_eq_getElem hl
      exact ⟨_, _, hm0, hv0, groupsOf_pos h.lat pl _ _ (hok.vp_order hv0)⟩
    · exact h'
  obtain ⟨m, v, hm, hv, hg⟩ := key
  obtain ⟨t, ht, hT⟩ := h.shape hm
  unfold entryWord
  rw [hm, ht]
  simp only [Res.ofOption_some, Res.ok_bind]
  by_cases ha : m.vp.length = 1
  · rw [if_pos ha]
    obtain ⟨v', hv'⟩ := List.length_eq_one_iff.1 ha
    have hk : e.vp = 0 := by
      have := (List.getElem?_eq_some_iff.1 hv).1
      omega
    rw [hv', hk] at hv
    simp at hv
    subst hv
    have hlen : e.group < t.table.length := by
      rw [hT.length, methMasks_length, methGroups_single pl c.lattice m v' hv']
      simpa [hk] using hg
    rw [List.getElem?_eq_getElem hlen]
    obtain ⟨f, hf⟩ := hT.cell_pf (List.getElem_mem hlen)
    exact ⟨.pf f, by simp [hf]⟩
  · rw [if_neg ha]
    by_cases hk : e.vp = 0
    · rw [if_pos hk]
      obtain ⟨base, hbase⟩ := hb e.method m t hm ht ha
      exact ⟨_, by rw [hbase]; rfl⟩
    · rw [if_neg hk]
      exact ⟨_, rfl⟩

/-- `write_global_data` succeeds after `compile`. -/
theorem writeGlobal_base {pl : Platform} {p : Program} {c : Compiled} (h : CompiledBase pl p c) (gen : Nat) :
    ∃ bases img, writeGlobal c gen = .ok img ∧ ImageOk c gen bases img := by
  refine writeGlobal_of gen h.lat.nodup_order ?_ (fun bases hb => h.entryWord_ok gen bases hb)
  rintro ⟨m, t⟩ hmt cell hc
  obtain ⟨i, hi⟩ := List.getElem?_of_mem hmt
  rw [List.getElem?_zip_eq_some] at hi
  obtain ⟨t', ht', hT⟩ := h.shape hi.1
  obtain rfl := Option.some.inj (hi.2.symm.trans ht')
  exact hT.cell_pf hc

theorem writeGlobal_ok {n : Bool} {pl : Platform} {p : Program} {c : Compiled} (h : CompiledOk n pl p c) (gen : Nat) :
    ∃ bases img, writeGlobal c gen = .ok img ∧ ImageOk c gen bases img :=
  writeGlobal_base h.toCompiledBase gen

end OpenMethod

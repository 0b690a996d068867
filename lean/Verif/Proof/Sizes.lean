import Verif.Proof.Numbers
import Verif.Proof.Refine
import Verif.Model.Sizes

/-! # Computations modulo the number of values of `std::size_t` -/

namespace OpenMethod

open Spec

variable {B : Nat} {pl : Platform} {n : Bool} {p : Program} {c : Compiled} {L : Lattice}

theorem prod_pos' {ns : List Nat} (h : ∀ n ∈ ns, 0 < n) : 0 < ns.prod := by
  induction ns with
  | nil => simp
  | cons a ns ih =>
    rw [List.prod_cons]
    exact Nat.mul_pos (h a List.mem_cons_self) (ih fun n hn => h n (List.mem_cons_of_mem _ hn))

theorem le_prod {ns : List Nat} (h : ∀ n ∈ ns, 0 < n) {a : Nat} (ha : a ∈ ns) : a ≤ ns.prod := by
  induction ns with
  | nil => cases ha
  | cons b ns ih =>
    have h' : ∀ n ∈ ns, 0 < n := fun n hn => h n (List.mem_cons_of_mem _ hn)
    rw [List.prod_cons]
    rcases List.mem_cons.1 ha with rfl | ha
    · exact Nat.le_mul_of_pos_right _ (prod_pos' h')
    · exact (ih h' ha).trans (Nat.le_mul_of_pos_left _ (h b List.mem_cons_self))

theorem stridesW_eq (ns : List Nat) : ∀ (s : Nat), (∀ n ∈ ns, 0 < n) → s * ns.prod < B → stridesW B s ns = stridesFrom s ns := by
  induction ns with
  | nil => intro s _ _; rfl
  | cons a ns ih =>
    intro s h hB
    cases ns with
    | nil => rfl
    | cons b ns =>
      have h' : ∀ n ∈ b :: ns, 0 < n := fun n hn => h n (List.mem_cons_of_mem _ hn)
      rw [List.prod_cons, ← Nat.mul_assoc] at hB
      have hlt : s * a < B := (Nat.le_mul_of_pos_right _ (prod_pos' h')).trans_lt hB
      rw [stridesW, stridesFrom, Nat.mod_eq_of_lt hlt, ih (s * a) h' hB]
      · simp
      · simp

theorem strides_le (ns : List Nat) : ∀ (s : Nat), (∀ n ∈ ns, 0 < n) → ∀ x ∈ stridesFrom s ns, x ≤ s * ns.prod := by
  induction ns with
  | nil => intro s _ x hx; cases hx
  | cons a ns ih =>
    intro s h x hx
    cases ns with
    | nil => cases hx
    | cons b ns =>
      have h' : ∀ n ∈ b :: ns, 0 < n := fun n hn => h n (List.mem_cons_of_mem _ hn)
      rw [stridesFrom] at hx
      · rw [List.prod_cons, ← Nat.mul_assoc]
        rcases List.mem_cons.1 hx with rfl | hx
        · exact Nat.le_mul_of_pos_right _ (prod_pos' h')
        · exact ih (s * a) h' x hx
      · simp

theorem cellsW_eq {ns : List Nat} (h : ∀ n ∈ ns, 0 < n) (hB : ns.prod < B) : cellsW B ns = ns.prod := by
  have key : ∀ (ns : List Nat) (s : Nat), (∀ n ∈ ns, 0 < n) → s * ns.prod < B → ns.foldl (fun cells n => cells * n % B) s = s * ns.prod := by
    intro ns
    induction ns with
    | nil => intro s _ _; simp
    | cons a ns ih =>
      intro s h hB
      have h' : ∀ n ∈ ns, 0 < n := fun n hn => h n (List.mem_cons_of_mem _ hn)
      rw [List.prod_cons, ← Nat.mul_assoc] at hB ⊢
      have hlt : s * a < B := (Nat.le_mul_of_pos_right _ (prod_pos' h')).trans_lt hB
      rw [List.foldl_cons, Nat.mod_eq_of_lt hlt]
      exact ih (s * a) h' hB
  have := key ns 1 h (by simpa using hB)
  simpa [cellsW] using this

theorem foldl_mod {α : Type} (f : α → Nat) (l : List α) : ∀ (s : Nat), s + (l.map f).sum < B → l.foldl (fun n a => (n + f a) % B) s = s + (l.map f).sum := by
  induction l with
  | nil => intro s _; simp
  | cons a l ih =>
    intro s h
    rw [List.map_cons, List.sum_cons, ← Nat.add_assoc] at h ⊢
    rw [List.foldl_cons, Nat.mod_eq_of_lt (by omega)]
    exact ih _ h

theorem countP_sum {α : Type} (q : α → Prop) [DecidablePred q] (l : List α) : (l.map fun a => if q a then 1 else 0).sum = l.countP (fun a => decide (q a)) := by
  induction l with
  | nil => rfl
  | cons a l ih =>
    rw [List.map_cons, List.sum_cons, List.countP_cons, ih]
    by_cases h : q a <;> simp [h] <;> omega

/-! ## The tables of methods -/

theorem groups_pos (h : LatticeOk p L) {m : Meth} (hm : ∀ v ∈ m.vp, v ∈ L.order) : ∀ k ∈ (methGroups pl L m).map List.length, 0 < k := by
  intro k hk
  obtain ⟨g, hg, rfl⟩ := List.mem_map.1 hk
  obtain ⟨vk, hvk, rfl⟩ := List.mem_map.1 hg
  obtain ⟨v, i⟩ := vk
  exact groupsOf_pos h pl _ _ (hm v (List.fst_mem_of_mem_zipIdx hvk))

theorem TableOk.cellCount {m : Meth} {t : MethTable} {rs : List CellResult} (h : TableOk n pl L m t rs) : t.table.length = ((methGroups pl L m).map List.length).prod := by
  rw [h.table, List.length_map, ← h.results.length_eq, methMasks_length]

theorem buildMethodW_eq (hL : LatticeOk p L) {m : Meth} (hm : ∀ v ∈ m.vp, v ∈ L.order) {t : MethTable} {rs : List CellResult} (hT : TableOk n pl L m t rs)
    (hB : t.table.length < B) (h : buildMethod pl n L m = .ok t) : buildMethodW B pl n L m = .ok t := by
  have hg := groups_pos (pl := pl) hL hm
  have hl := hT.cellCount
  have hrs : rs.length = t.table.length := by rw [hT.table, List.length_map]
  unfold buildMethodW
  rw [h, Res.ok_bind, hT.groups, stridesW_eq _ 1 hg (by omega), cellsW_eq hg (by omega),
    Nat.mod_eq_of_lt (a := t.notImplemented) (by
      rw [hT.notImplemented]
      exact List.countP_le_length.trans_lt (by omega)),
    Nat.mod_eq_of_lt (a := t.ambiguous) (by
      rw [hT.ambiguous]
      exact List.countP_le_length.trans_lt (by omega)), ← hT.strides, ← hT.cells, ← hT.groups]
  rfl

theorem buildMethodsW_eq (hL : LatticeOk p L) : ∀ {ms : List Meth} {ts : List MethTable}, (∀ m ∈ ms, ∀ v ∈ m.vp, v ∈ L.order) →
    List.Forall₂ (fun m t => ∃ rs, TableOk n pl L m t rs) ms ts → (∀ t ∈ ts, t.table.length < B) → buildMethods pl n L ms = .ok ts →
    buildMethodsW B pl n L ms = .ok ts := by
  intro ms ts hm hT
  induction hT with
  | nil => intro _ _; rfl
  | @cons m t ms ts h _ ih =>
    intro hB hb
    obtain ⟨rs, h⟩ := h
    rw [buildMethods] at hb
    simp only [Res.bind_eq_ok, Res.pure_eq, Res.ok.injEq, List.cons.injEq] at hb
    obtain ⟨t', h1, ts', h2, rfl, rfl⟩ := hb
    rw [buildMethodsW, buildMethodW_eq hL (hm m List.mem_cons_self) h (hB t' List.mem_cons_self) h1, Res.ok_bind,
      ih (fun m hm' => hm m (List.mem_cons_of_mem _ hm')) (fun t ht => hB t (List.mem_cons_of_mem _ ht)) h2]
    rfl

theorem mem_sum_le {l : List Nat} {a : Nat} (h : a ∈ l) : a ≤ l.sum := by
  have := sublist_sum (List.singleton_sublist.2 h)
  simpa using this

theorem vp_order (C : CompiledOk n pl p c) : ∀ m ∈ c.meths, ∀ v ∈ m.vp, v ∈ c.lattice.order := by
  intro m hm v hv
  rw [C.meths] at hm
  obtain ⟨m', hm', rfl⟩ := List.mem_map.1 hm
  obtain ⟨t, ht, rfl⟩ := List.mem_map.1 hv
  exact (C.methOk m' hm').vp t ht

/-- All numbers related to the table of a method are at most the number of its cells. -/
theorem table_bounds (C : CompiledOk n pl p c) {i : Nat} {m : Meth} {t : MethTable} (hm : c.meths[i]? = some m) (ht : c.tables[i]? = some t) :
    0 < t.table.length ∧ (∀ s ∈ t.strides, s ≤ t.table.length) ∧ (∀ g ∈ t.groups, g.length ≤ t.table.length) ∧ t.cells ≤ t.table.length ∧
      t.notImplemented ≤ t.table.length ∧ t.ambiguous ≤ t.table.length := by
  obtain ⟨t', rs, ht', hT⟩ := C.table hm
  obtain rfl := Option.some.inj (ht.symm.trans ht')
  have hg := groups_pos (pl := pl) C.lat (vp_order C m (List.mem_of_getElem? hm))
  have hrs : rs.length = t.table.length := by rw [hT.table, List.length_map]
  refine ⟨?_, fun s hs => ?_, fun g hgm => ?_, ?_, ?_, ?_⟩
  · rw [hT.cellCount]; exact prod_pos' hg
  · rw [hT.cellCount]
    rw [hT.strides] at hs
    simpa using strides_le _ 1 hg s hs
  · rw [hT.cellCount]
    rw [hT.groups] at hgm
    exact le_prod hg (List.mem_map_of_mem hgm)
  · rw [hT.cells, hT.cellCount]
    split
    · exact le_rfl
    · exact Nat.zero_le _
  · rw [hT.notImplemented, ← hrs]; exact List.countP_le_length
  · rw [hT.ambiguous, ← hrs]; exact List.countP_le_length

theorem table_le_data {t : MethTable} (ht : t ∈ c.tables) : t.table.length ≤ dataSize c := by
  have := mem_sum_le (List.mem_map_of_mem (f := fun t : MethTable => t.table.length) ht)
  unfold dataSize
  omega

theorem sum_le_sum' {α : Type} {f g : α → Nat} {l : List α} (h : ∀ a ∈ l, f a ≤ g a) : (l.map f).sum ≤ (l.map g).sum := by
  induction l with
  | nil => exact le_rfl
  | cons a l ih =>
    rw [List.map_cons, List.map_cons, List.sum_cons, List.sum_cons]
    have := h a List.mem_cons_self
    have := ih fun a ha => h a (List.mem_cons_of_mem _ ha)
    omega

theorem tables_bounds (C : CompiledOk n pl p c) : ∀ t ∈ c.tables, 0 < t.table.length ∧ (∀ s ∈ t.strides, s ≤ t.table.length) ∧ (∀ g ∈ t.groups, g.length ≤ t.table.length) ∧
    t.cells ≤ t.table.length ∧ t.notImplemented ≤ t.table.length ∧ t.ambiguous ≤ t.table.length := by
  intro t ht
  obtain ⟨i, hi⟩ := List.getElem?_of_mem ht
  have hlt : i < c.meths.length := by rw [C.tables.length_eq]; exact (List.getElem?_eq_some_iff.1 hi).1
  exact table_bounds C (List.getElem?_eq_getElem hlt) hi

theorem accumulateW_eq (C : CompiledOk n pl p c) (hB : dataSize c < B) : accumulateW B c.tables = accumulate c.tables := by
  have hb := tables_bounds C
  have hsum : (c.tables.map (·.table.length)).sum < B := by unfold dataSize at hB; omega
  have key : ∀ f : MethTable → Nat, (∀ t ∈ c.tables, f t ≤ t.table.length) → c.tables.foldl (fun n t => (n + f t) % B) 0 = (c.tables.map f).sum := by
    intro f hf
    have := sum_le_sum' hf
    rw [foldl_mod f c.tables 0 (by omega), Nat.zero_add]
  unfold accumulateW accumulate
  rw [key _ fun t ht => (hb t ht).2.2.2.1, key _ fun t ht => ?_, key _ fun t ht => ?_, countP_sum, countP_sum]
  · have := (hb t ht).1
    split <;> omega
  · have := (hb t ht).1
    split <;> omega

theorem dataSizeW_eq (hB : dataSize c < B) : dataSizeW B c = dataSize c := by
  unfold dataSizeW
  unfold dataSize at hB ⊢
  rw [foldl_mod (fun t : MethTable => t.table.length) c.tables 0 (by omega), Nat.zero_add, foldl_mod (fun x => (c.vtbl x).length) _ _ hB]

theorem map_eq_self {α : Type} {f : α → α} {l : List α} (h : ∀ a ∈ l, f a = a) : l.map f = l := by
  conv_rhs => rw [← List.map_id l]
  exact List.map_congr_left h

theorem compileW_eq (hv : p.Valid) (hc : compile pl n p = .ok c) (hB : dataSize c < B) : compileW B pl n p = .ok c := by
  have C := compile_ok hv.acyclic hv.wf hc
  have hT := tables_bounds C
  unfold compile at hc
  simp only [Res.bind_eq_ok, Res.pure_eq, Res.ok.injEq] at hc
  obtain ⟨L, hL, ms, hms, vtbl, hvt, ts, hts, rfl⟩ := hc
  have hw : (allWrites pl L (assignSlots pl L (usedByVp ms)).slots ms).map (Entry.wrap B) = allWrites pl L (assignSlots pl L (usedByVp ms)).slots ms := by
    refine map_eq_self fun w hw => ?_
    obtain ⟨mi, m, k, v, j, g, hm, hvk, hj, _, _, he⟩ := mem_allWrites.1 hw
    obtain ⟨t, rs, ht, hTab⟩ := C.table hm
    have h1 : (groupsOf pl L m.overriders k v).length ≤ t.table.length := by
      refine (table_bounds C hm ht).2.2.1 _ ?_
      rw [hTab.groups]
      exact List.mem_of_getElem? ((groupsFrom_get pl L m k _).2 ⟨v, hvk, rfl⟩)
    have h2 := table_le_data (List.mem_of_getElem? ht)
    have h3 := (List.getElem?_eq_some_iff.1 hj).1
    obtain ⟨a, b, e⟩ := w
    dsimp only at he
    subst he
    unfold Entry.wrap
    dsimp only
    rw [Nat.mod_eq_of_lt (by omega)]
  unfold compileW
  rw [hL, Res.ok_bind, hms, Res.ok_bind]
  dsimp only
  rw [hw, hvt, Res.ok_bind, buildMethodsW_eq C.lat (vp_order C) C.tables (fun t ht => (table_le_data ht).trans_lt hB) hts, Res.ok_bind,
    show accumulateW B ts = accumulate ts from accumulateW_eq C hB]
  rfl

theorem writeGlobalW_eq (gen : Nat) (hB : dataSize c < B) : writeGlobalW B c gen = writeGlobal c gen := by
  unfold writeGlobalW writeGlobal
  rw [dataSizeW_eq hB]

/-! ## Calls -/

/-- Addresses of tables are in the vector. -/
def Addrs (data : List Word) : Prop := ∀ q, Word.addr q ∈ data → 0 ≤ q.off

theorem foldlM_keeps {α β : Type} {P : β → Prop} {f : β → α → Res β} (hf : ∀ b a b', P b → f b a = .ok b' → P b') : ∀ (l : List α) {b b' : β},
    P b → l.foldlM f b = .ok b' → P b' := by
  intro l
  induction l with
  | nil =>
    intro b b' hb h
    rw [List.foldlM_nil, Res.pure_eq] at h
    exact Res.ok.inj h ▸ hb
  | cons a l ih =>
    intro b b' hb h
    rw [List.foldlM_cons, Res.bind_eq_ok] at h
    obtain ⟨b1, h1, h2⟩ := h
    exact ih (hf _ _ _ hb h1) h2

theorem emit_addrs {cap : Nat} {mem mem' : List Word} {w : Word} (hm : Addrs mem) (hw : ∀ q, w = .addr q → 0 ≤ q.off) (h : emit cap mem w = .ok mem') : Addrs mem' := by
  unfold emit at h
  split at h
  · obtain rfl := Res.ok.inj h
    intro q hq
    rcases List.mem_append.1 hq with hq | hq
    · exact hm q hq
    · exact hw q (List.mem_singleton.1 hq).symm
  · cases h

theorem entryWord_addr {gen : Nat} {bases : List (Option Nat)} {e : Entry} {w : Word} (h : entryWord c gen bases e = .ok w) : ∀ q, w = .addr q → 0 ≤ q.off := by
  rintro q rfl
  unfold entryWord at h
  simp only [Res.bind_eq_ok] at h
  obtain ⟨m, _, t, _, h⟩ := h
  split at h
  · simp only [Res.bind_eq_ok, Res.pure_eq, Res.ok.injEq] at h
    obtain ⟨_, _, _, _, h⟩ := h
    cases h
  · split at h
    · simp only [Res.bind_eq_ok, Res.pure_eq, Res.ok.injEq] at h
      obtain ⟨base, _, h⟩ := h
      obtain rfl := Word.addr.inj h
      exact Int.natCast_nonneg _
    · cases h

theorem writeGlobal_addrs {gen : Nat} {img : Image} (h : writeGlobal c gen = .ok img) : Addrs img.data := by
  unfold writeGlobal at h
  simp only [Res.bind_eq_ok, Res.pure_eq, Res.ok.injEq] at h
  obtain ⟨s, h1, v, h2, rfl⟩ := h
  have hs : Addrs s.1 := by
    refine foldlM_keeps (P := fun s : List Word × List (Option Nat) => Addrs s.1) ?_ _ (b := ([], [])) (by intro q hq; cases hq) h1
    intro s mt s' hs h
    unfold writeTable at h
    split at h
    · obtain rfl := Res.ok.inj h; exact hs
    · simp only [Res.bind_eq_ok, Res.pure_eq, Res.ok.injEq] at h
      obtain ⟨mem, h, rfl⟩ := h
      refine foldlM_keeps (P := Addrs) ?_ _ hs h
      intro mem cell mem' hm h
      simp only [Res.bind_eq_ok] at h
      obtain ⟨f, _, h⟩ := h
      exact emit_addrs hm (fun q hq => by cases hq) h
  refine foldlM_keeps (P := fun s : List Word × (Cls → Int) => Addrs s.1) ?_ _ (b := (s.1, fun _ => 0)) hs h2
  intro s x s' hs h
  unfold writeVtbl at h
  simp only [Res.bind_eq_ok, Res.pure_eq, Res.ok.injEq] at h
  obtain ⟨mem, h, rfl⟩ := h
  refine foldlM_keeps (P := Addrs) ?_ _ hs h
  intro mem e mem' hm h
  simp only [Res.bind_eq_ok] at h
  obtain ⟨w, hw, h⟩ := h
  exact emit_addrs hm (entryWord_addr hw) h

theorem readWord_lt {gen : Nat} {data : List Word} {q : Ptr} {w : Word} (h : readWord gen data q = .ok w) : q.off < data.length ∧ w ∈ data := by
  unfold readWord at h
  split at h
  · rename_i hq
    rw [Res.ofOption_eq_ok] at h
    have := (List.getElem?_eq_some_iff.1 h).1
    exact ⟨by omega, List.mem_of_getElem? h⟩
  · cases h

/-- A pointer that is only moved forward, and is in the vector in the end, is in the vector all the time. -/
theorem resolveMultiNext_off {gen : Nat} {data : List Word} {ss : List Nat} {arity : Nat} (ks : List Bool) : ∀ {va : Nat} {d : Ptr} {as : List (Res Ptr)} {w : Word},
    resolveMultiNext (readWord gen data) ss arity va d ks as = .ok w → d.off < data.length := by
  induction ks with
  | nil => intro va d as w h; simp [resolveMultiNext] at h
  | cons k ks ih =>
    intro va d as w h
    cases as with
    | nil => simp [resolveMultiNext] at h
    | cons a as =>
      rw [resolveMultiNext, Res.bind_eq_ok] at h
      obtain ⟨d', h1, h2⟩ := h
      have h3 : d'.off < data.length := by
        split at h2
        · exact (readWord_lt h2).1
        · exact ih h2
      unfold nextDispatch at h1
      split at h1
      · simp only [Res.bind_eq_ok, Res.ok.injEq] at h1
        obtain ⟨_, _, _, _, stride, _, _, _, i, _, rfl⟩ := h1
        have : (d.add (i * stride)).off = d.off + (i * stride : Nat) := rfl
        omega
      · obtain rfl := Res.ok.inj h1
        exact h3

theorem resolveMultiNextW_eq {gen : Nat} {data : List Word} {ss : List Nat} {arity : Nat} (hB : data.length ≤ B) (ks : List Bool) :
    ∀ {va : Nat} {d : Ptr} {as : List (Res Ptr)} {w : Word}, 0 ≤ d.off → resolveMultiNext (readWord gen data) ss arity va d ks as = .ok w →
    resolveMultiNextW B data.length (readWord gen data) ss arity va d ks as = .ok w := by
  induction ks with
  | nil => intro va d as w _ h; simp [resolveMultiNext] at h
  | cons k ks ih =>
    intro va d as w hd h
    cases as with
    | nil => simp [resolveMultiNext] at h
    | cons a as =>
      rw [resolveMultiNext, Res.bind_eq_ok] at h
      obtain ⟨d', h1, h2⟩ := h
      have h3 : d'.off < data.length := by
        split at h2
        · exact (readWord_lt h2).1
        · exact resolveMultiNext_off _ h2
      have h4 : nextDispatchW B data.length (readWord gen data) ss arity va d k a = .ok d' ∧ 0 ≤ d'.off := by
        unfold nextDispatch at h1
        unfold nextDispatchW
        split at h1
        · rename_i hk
          simp only [Res.bind_eq_ok, Res.ok.injEq] at h1
          obtain ⟨vtbl, e1, slot, e2, stride, e3, wd, e4, i, e5, rfl⟩ := h1
          have he : (d.add (i * stride)).off = d.off + (i * stride : Nat) := rfl
          have hlt : i * stride < B := by omega
          rw [if_pos hk, e1, Res.ok_bind, e2, Res.ok_bind, e3, Res.ok_bind, e4, Res.ok_bind, e5, Res.ok_bind, Nat.mod_eq_of_lt hlt]
          unfold Ptr.addIn
          rw [if_pos ⟨hd, by omega⟩]
          exact ⟨rfl, by omega⟩
        · rename_i hk
          obtain rfl := Res.ok.inj h1
          rw [if_neg hk]
          exact ⟨rfl, hd⟩
      rw [resolveMultiNextW, h4.1, Res.ok_bind]
      split at h2
      · rename_i he
        rw [if_pos he]
        exact h2
      · rename_i he
        rw [if_neg he]
        exact ih h4.2 h2

theorem resolveMultiFirstW_eq {gen : Nat} {data : List Word} {ss : List Nat} {arity : Nat} (hB : data.length ≤ B) (ha : Addrs data) (ks : List Bool) :
    ∀ {as : List (Res Ptr)} {w : Word}, resolveMultiFirst (readWord gen data) ss arity ks as = .ok w →
    resolveMultiFirstW B data.length (readWord gen data) ss arity ks as = .ok w := by
  induction ks with
  | nil => intro as w h; simp [resolveMultiFirst] at h
  | cons k ks ih =>
    intro as w h
    cases as with
    | nil => cases k <;> simp [resolveMultiFirst] at h
    | cons a as =>
      cases k with
      | false => exact ih h
      | true =>
        rw [resolveMultiFirst] at h
        simp only [Res.bind_eq_ok] at h
        obtain ⟨vtbl, e1, slot, e2, wd, e3, d, e4, h⟩ := h
        rw [resolveMultiFirstW, e1, Res.ok_bind, e2, Res.ok_bind, e3, Res.ok_bind, e4, Res.ok_bind]
        refine resolveMultiNextW_eq hB ks ?_ h
        cases wd with
        | addr q =>
          obtain rfl := Res.ok.inj e4
          exact ha q (readWord_lt e3).2
        | pf _ => cases e4
        | idx _ => cases e4

end OpenMethod

import Verif.Proof.Global
import Verif.SpecCall

/-! # Calls: what the words read by `resolve` designate -/

namespace OpenMethod

open Spec

theorem ArgsFor.count {ptr : Cls → Ptr} {ks : List Bool} {as : List (Res Ptr)} {xs : List Cls} (h : ArgsFor ptr ks as xs) :
    ks.count true = xs.length := by
  induction h with
  | nil => rfl
  | virt x _ ih => simp [ih]
  | other r _ ih => simp [ih]

theorem ArgsFor.drop_false {ptr : Cls → Ptr} {a : Nat} {ks : List Bool} {as : List (Res Ptr)} {xs : List Cls}
    (h : ArgsFor ptr (List.replicate a false ++ ks) as xs) : ∃ pre as', as = pre ++ as' ∧ pre.length = a ∧ ArgsFor ptr ks as' xs := by
  induction a generalizing as with
  | zero => exact ⟨[], as, rfl, rfl, by simpa using h⟩
  | succ a ih =>
    rw [List.replicate_succ, List.cons_append] at h
    cases h with
    | other r h =>
      obtain ⟨pre, as', rfl, hl, h'⟩ := ih h
      exact ⟨r :: pre, as', rfl, by simp [hl], h'⟩

variable {n : Bool} {pl : Platform} {p : Program} {c : Compiled}

theorem CompiledBase.td_order (h : CompiledBase pl p c) {v x : Cls} (hv : v ∈ c.lattice.order) (hx : x ∈ c.lattice.td v) :
    x ∈ c.lattice.order := by
  have hd := (h.lat.mem_td v hv x).1 hx
  rcases Relation.ReflTransGen.cases_head hd with rfl | ⟨y, hy, _⟩
  · exact hv
  · exact (h.lat.declared_mem x y hy).1

/-- The slot of a parameter lies in the v-table of a class that it accepts. -/
theorem CompiledBase.slot_range (h : CompiledBase pl p c) {i k : Nat} {m : Meth} {v x : Cls} (hm : c.meths[i]? = some m)
    (hv : m.vp[k]? = some v) (hx : x ∈ c.lattice.td v) :
    c.slots.first x ≤ c.slots.slots (i, k) ∧ c.slots.slots (i, k) < c.slots.first x + c.slots.size x := by
  obtain ⟨mi, _, hmi, hok⟩ := h.meth hm
  have hvo := hok.vp_order (hmi ▸ hv)
  exact h.slots.range (i, k) v x (mem_usedByVp.2 ⟨m, hm, hv⟩) ((h.lat.derives_iff x v).1 ((h.lat.mem_td v hvo x).1 hx))

/-- The word that a call reads in a v-table. -/
theorem read_entry (h : CompiledBase pl p c) {gen : Nat} {bases : List (Option Nat)} {img : Image} (I : ImageOk c gen bases img)
    {i k : Nat} {m : Meth} {v x : Cls} (hm : c.meths[i]? = some m) (hv : m.vp[k]? = some v) (hx : x ∈ c.lattice.td v)
    (hsafe : SlotSafe c.lattice (usedByVp c.meths) v x) :
    ∃ w, entryWord c gen bases { method := i, vp := k, group := groupIx (groupsOf pl c.lattice m.overriders k v) x } = .ok w ∧
      readWord gen img.data ((img.ptr gen x).add (c.slots.slots (i, k))) = .ok w := by
  obtain ⟨mi, _, hmi, hok⟩ := h.meth hm
  have hvo := hok.vp_order (hmi ▸ hv)
  have hxo := h.td_order hvo hx
  obtain ⟨start, hst, hvt⟩ := I.vtbl x hxo
  obtain ⟨hr1, hr2⟩ := h.slot_range hm hv hx
  obtain ⟨w, hw, hd⟩ := hvt _ _ (h.entry i m k v x hm hv hx hsafe)
  refine ⟨w, hw, ?_⟩
  have hoff : ((img.ptr gen x).add (c.slots.slots (i, k))).off = ((start + (c.slots.slots (i, k) - c.slots.first x) : Nat) : Int) := by
    simp only [Image.ptr, Ptr.add, hst]
    omega
  unfold readWord
  rw [if_pos ⟨rfl, by rw [hoff]; exact Int.natCast_nonneg _⟩, hoff, Int.toNat_natCast, hd]
  rfl

/-- The content of `slots_strides`. -/
theorem slotsStrides_at (h : CompiledBase pl p c) {gen : Nat} {bases : List (Option Nat)} {img : Image} (I : ImageOk c gen bases img)
    (hids : (p.methods.map (·.id)).Nodup) {i : Nat} {mi : MethodInfo} {t : MethTable} (hm : p.methods[i]? = some mi)
    (ht : c.tables[i]? = some t) :
    slotsStridesAt img mi.id = some (((List.range mi.vp.length).map fun k => c.slots.slots (i, k)) ++ t.strides) := by
  have hmm : c.meths[i]? = some (toMeth p.rtti c.lattice mi) := by rw [h.meths, List.getElem?_map, hm]; rfl
  have hmem : (mi.id, ((List.range mi.vp.length).map fun k => c.slots.slots (i, k)) ++ t.strides) ∈ slotsStridesOf c := by
    unfold slotsStridesOf
    rw [List.mem_map]
    refine ⟨((toMeth p.rtti c.lattice mi, t), i), ?_, ?_⟩
    · rw [List.mem_zipIdx_iff_getElem?]
      exact zip_get hmm ht
    · simp [toMeth]
  have hkeys : ((slotsStridesOf c).map (·.1)).Nodup := by
    have : (slotsStridesOf c).map (·.1) = p.methods.map (·.id) := by
      unfold slotsStridesOf
      rw [List.map_map]
      have e1 : (c.meths.zip c.tables).zipIdx.map ((fun x : Nat × List Nat => x.1) ∘ fun x : (Meth × MethTable) × Nat =>
          (x.1.1.info.id, ((List.range x.1.1.vp.length).map fun k => c.slots.slots (x.2, k)) ++ x.1.2.strides)) =
          (((c.meths.zip c.tables).zipIdx.map Prod.fst).map Prod.fst).map (fun m : Meth => m.info.id) := by
        rw [List.map_map, List.map_map]; rfl
      rw [e1, List.zipIdx_map_fst, List.map_fst_zip (by rw [h.shapes.length_eq]), h.meths, List.map_map]
      rfl
    rw [this]; exact hids
  unfold slotsStridesAt
  rw [I.slotsStrides]
  obtain ⟨x, hx⟩ : ∃ x, (slotsStridesOf c).reverse.find? (fun x => x.1 = mi.id) = some x := by
    rw [← Option.isSome_iff_exists, List.find?_isSome]
    exact ⟨_, List.mem_reverse.2 hmem, by simp⟩
  rw [hx]
  have hx1 := List.find?_some hx
  have hx2 := List.mem_reverse.1 (List.mem_of_find?_eq_some hx)
  have : x = (mi.id, ((List.range mi.vp.length).map fun k => c.slots.slots (i, k)) ++ t.strides) :=
    List.inj_on_of_nodup_map hkeys hx2 hmem (by simpa using hx1)
  rw [this]
  rfl

/-- The first component: an address in the dispatch table, for a multi-method. -/
theorem entryWord_first {gen : Nat} {bases : List (Option Nat)} {i : Nat} {m : Meth} {t : MethTable} {base g : Nat} {w : Word}
    (hm : c.meths[i]? = some m) (ht : c.tables[i]? = some t) (ha : m.vp.length ≠ 1) (hb : bases[i]? = some (some base))
    (hw : entryWord c gen bases { method := i, vp := 0, group := g } = .ok w) :
    w = .addr { gen := gen, off := (base + g : Nat) } := by
  unfold entryWord at hw
  simp only [hm, ht, Res.ofOption_some, Res.ok_bind, ha, if_false, if_true, hb, Option.join_some, Res.pure_eq, Res.ok.injEq] at hw
  exact hw.symm

theorem entryWord_other {gen : Nat} {bases : List (Option Nat)} {i k : Nat} {m : Meth} {t : MethTable} {g : Nat} {w : Word}
    (hm : c.meths[i]? = some m) (ht : c.tables[i]? = some t) (ha : m.vp.length ≠ 1) (hk : k ≠ 0)
    (hw : entryWord c gen bases { method := i, vp := k, group := g } = .ok w) : w = .idx g := by
  unfold entryWord at hw
  simp only [hm, ht, Res.ofOption_some, Res.ok_bind, ha, if_false, hk, Res.pure_eq, Res.ok.injEq] at hw
  exact hw.symm

theorem entryWord_uni {gen : Nat} {bases : List (Option Nat)} {i : Nat} {m : Meth} {t : MethTable} {g : Nat} {w : Word}
    (hm : c.meths[i]? = some m) (ht : c.tables[i]? = some t) (ha : m.vp.length = 1)
    (hw : entryWord c gen bases { method := i, vp := 0, group := g } = .ok w) :
    ∃ cell f, t.table[g]? = some cell ∧ pfOf m cell = some f ∧ w = .pf f := by
  unfold entryWord at hw
  simp only [hm, ht, Res.ofOption_some, Res.ok_bind, ha, if_true, Res.bind_eq_ok, Res.ofOption_eq_ok, Res.pure_eq,
    Res.ok.injEq] at hw
  obtain ⟨cell, h1, f, h2, h3⟩ := hw
  exact ⟨cell, f, h1, h2, h3.symm⟩

/-- Parameters that are not virtual only move the counter. -/
theorem resolveMultiNext_false (rd : Ptr → Res Word) (ss : List Nat) (arity : Nat) (g : Nat) (rest : List Bool) (va : Nat) (d : Ptr)
    (as : List (Res Ptr)) (hva : va < arity) (hlen : arity ≤ va + g) (hl : g ≤ as.length) :
    resolveMultiNext rd ss arity va d (List.replicate g false ++ rest) as = rd d := by
  induction g generalizing va as with
  | zero => omega
  | succ g ih =>
    cases as with
    | nil => simp at hl
    | cons a as =>
      rw [List.replicate_succ, List.cons_append, resolveMultiNext]
      have : nextDispatch rd ss arity va d false a = .ok d := rfl
      rw [this, Res.ok_bind]
      by_cases he : va + 1 = arity
      · rw [if_pos he]
      · rw [if_neg he]
        exact ih (va + 1) as (by omega) (by omega) (by simpa using hl)

/-- The displacements of the arguments after the first: those that follow it immediately. -/
theorem resolveMultiNext_ok (rd : Ptr → Res Word) (slots strides : List Nat) (arity : Nat) (hs : slots.length = arity)
    (ptr : Cls → Ptr) (b : Nat) (rest : List Bool) (xs ys : List Cls) (gs : List Nat) (va : Nat) (d : Ptr) (as : List (Res Ptr)) (hva : 1 ≤ va)
    (hlt : va < arity) (hle : va + xs.length ≤ arity) (hlen : arity ≤ va + xs.length + b) (hgl : gs.length = xs.length) (hst : strides.length + 1 = arity)
    (hargs : ArgsFor ptr (List.replicate xs.length true ++ (List.replicate b false ++ rest)) as (xs ++ ys))
    (hread : ∀ (j : Nat) (x : Cls) (g : Nat), xs[j]? = some x → gs[j]? = some g →
      ∃ s, slots[va + j]? = some s ∧ rd ((ptr x).add s) = .ok (.idx g)) :
    resolveMultiNext rd (slots ++ strides) arity va d (List.replicate xs.length true ++ (List.replicate b false ++ rest)) as =
      rd (d.add (List.zipWith (· * ·) gs (strides.drop (va - 1))).sum) := by
  induction xs generalizing gs va d as with
  | nil =>
    obtain rfl : gs = [] := List.eq_nil_of_length_eq_zero (by simpa using hgl)
    simp only [List.length_nil, List.replicate_zero, List.nil_append, Nat.add_zero] at hlen hargs ⊢
    obtain ⟨pre, as', rfl, hl, _⟩ := hargs.drop_false
    rw [resolveMultiNext_false rd _ arity b rest va d _ hlt hlen (by simp [hl])]
    simp [Ptr.add]
  | cons x xs ih =>
    cases gs with
    | nil => simp at hgl
    | cons g gs =>
      simp only [List.length_cons] at hle hlen hgl hargs ⊢
      rw [List.replicate_succ, List.cons_append] at hargs ⊢
      rw [List.cons_append] at hargs
      cases hargs with
      | @virt _ as' _ _ hargs =>
        have hlt : va - 1 < strides.length := by omega
        obtain ⟨s, hsl, hrd⟩ := hread 0 x g (by simp) (by simp)
        rw [Nat.add_zero] at hsl
        have hslt := (List.getElem?_eq_some_iff.1 hsl).1
        have e1 : (slots ++ strides)[va]? = some s := by rw [List.getElem?_append_left hslt]; exact hsl
        have e2 : (slots ++ strides)[arity + va - 1]? = some strides[va - 1] := by
          rw [List.getElem?_append_right (by omega), hs]
          rw [show arity + va - 1 - arity = va - 1 by omega]
          exact List.getElem?_eq_getElem hlt
        have hnd : nextDispatch rd (slots ++ strides) arity va d true (.ok (ptr x)) = .ok (d.add (g * strides[va - 1])) := by
          unfold nextDispatch
          simp [e1, e2, hrd, Word.asIdx]
        rw [resolveMultiNext, hnd, Res.ok_bind]
        have hdrop : strides.drop (va - 1) = strides[va - 1] :: strides.drop va := by
          rw [List.drop_eq_getElem_cons hlt, show va - 1 + 1 = va by omega]
        rw [hdrop, List.zipWith_cons_cons, List.sum_cons]
        have hadd : ∀ (a b : Nat), (d.add a).add b = d.add (a + b) := by
          intro a b; simp [Ptr.add, Int.add_assoc]
        by_cases hend : va + 1 = arity
        · rw [if_pos hend]
          obtain rfl : xs = [] := List.eq_nil_of_length_eq_zero (by omega)
          obtain rfl : gs = [] := List.eq_nil_of_length_eq_zero (by simpa using hgl)
          simp
        · rw [if_neg hend]
          rw [ih gs (va + 1) _ as' (by omega) (by omega) (by omega) (by omega) (by omega) hargs]
          · rw [hadd, show va + 1 - 1 = va by omega]
          · intro j x' g' hx' hg'
            obtain ⟨s', h1, h2⟩ := hread (j + 1) x' g' (by simpa using hx') (by simpa using hg')
            exact ⟨s', by rw [show va + 1 + j = va + (j + 1) by omega]; exact h1, h2⟩

theorem resolveUni_skip (rd : Ptr → Res Word) (ss : List Nat) (a : Nat) (ks : List Bool) (pre as : List (Res Ptr))
    (hl : pre.length = a) : resolveUni rd ss (List.replicate a false ++ ks) (pre ++ as) = resolveUni rd ss ks as := by
  induction a generalizing pre with
  | zero => obtain rfl : pre = [] := List.eq_nil_of_length_eq_zero hl; rfl
  | succ a ih =>
    cases pre with
    | nil => simp at hl
    | cons r pre =>
      rw [List.replicate_succ, List.cons_append, List.cons_append, resolveUni]
      exact ih pre (by simpa using hl)

theorem resolveMultiFirst_skip (rd : Ptr → Res Word) (ss : List Nat) (arity a : Nat) (ks : List Bool) (pre as : List (Res Ptr))
    (hl : pre.length = a) :
    resolveMultiFirst rd ss arity (List.replicate a false ++ ks) (pre ++ as) = resolveMultiFirst rd ss arity ks as := by
  induction a generalizing pre with
  | zero => obtain rfl : pre = [] := List.eq_nil_of_length_eq_zero hl; rfl
  | succ a ih =>
    cases pre with
    | nil => simp at hl
    | cons r pre =>
      rw [List.replicate_succ, List.cons_append, List.cons_append, resolveMultiFirst]
      exact ih pre (by simpa using hl)

/-- The parameters of a uni-method: exactly one is virtual. -/
theorem split_single {params : List Bool} (h : params.count true = 1) :
    ∃ a ks, params = List.replicate a false ++ true :: ks := by
  induction params with
  | nil => simp at h
  | cons b l ih =>
    cases b with
    | true => exact ⟨0, l, rfl⟩
    | false =>
      obtain ⟨a, ks, rfl⟩ := ih (by simpa using h)
      exact ⟨a + 1, ks, by simp [List.replicate_succ]⟩

theorem ixsFrom_length (pl : Platform) (L : Lattice) (os : List Ovr) (n : Nat) (vs as : List Cls) (h : vs.length = as.length) :
    (ixsFrom pl L os n vs as).length = vs.length := by
  induction vs generalizing n as with
  | nil => rfl
  | cons v vs ih =>
    cases as with
    | nil => simp at h
    | cons a as => simp [ixsFrom, ih (n + 1) as (by simpa using h)]

theorem ixsFrom_get (pl : Platform) (L : Lattice) (os : List Ovr) (n : Nat) (vs as : List Cls) (j : Nat) (v a : Cls)
    (hv : vs[j]? = some v) (ha : as[j]? = some a) :
    (ixsFrom pl L os n vs as)[j]? = some (groupIx (groupsOf pl L os (n + j) v) a) := by
  induction vs generalizing n as j with
  | nil => simp at hv
  | cons w vs ih =>
    cases as with
    | nil => simp at ha
    | cons b as =>
      cases j with
      | zero => simp at hv ha; subst hv; subst ha; simp [ixsFrom]
      | succ j =>
        simp only [ixsFrom, List.getElem?_cons_succ] at hv ha ⊢
        rw [ih (n + 1) as j hv ha, show n + 1 + j = n + (j + 1) by omega]

/-- The first of the groups of a parameter has an element. -/
theorem group_zero (h : CompiledBase pl p c) (os : List Ovr) (k : Nat) {v : Cls} (hv : v ∈ c.lattice.order) :
    ∃ z ∈ c.lattice.td v, groupIx (groupsOf pl c.lattice os k v) z = 0 := by
  have hG := groupsOf_ok pl c.lattice os k v
  have hvv : v ∈ c.lattice.td v := (h.lat.mem_td v hv v).2 .refl
  obtain ⟨g, hg, _⟩ := hG.cover v ((pl.iter_perm _ _).mem_iff.2 hvv)
  obtain ⟨g0, h0⟩ : ∃ g0, (groupsOf pl c.lattice os k v)[0]? = some g0 :=
    ⟨_, List.getElem?_eq_getElem (List.length_pos_of_mem hg)⟩
  have hm := List.mem_of_getElem? h0
  obtain ⟨z, hz⟩ := List.exists_mem_of_ne_nil _ (hG.nonempty g0 hm)
  exact ⟨z, groupsOf_mem pl c.lattice hm hz, groupIx_eq hG h0 hz⟩

theorem zipWith_mul_zero (gs hs ss : List Nat) (hh : ∀ g ∈ hs, g = 0) :
    (List.zipWith (· * ·) (gs ++ hs) ss).sum = (List.zipWith (· * ·) gs ss).sum := by
  induction gs generalizing ss with
  | nil =>
    simp only [List.nil_append, List.zipWith_nil_left, List.sum_nil]
    induction hs generalizing ss with
    | nil => simp
    | cons g hs ih =>
      cases ss with
      | nil => simp
      | cons s ss =>
        rw [List.zipWith_cons_cons, List.sum_cons, ih (fun g hg => hh g (by simp [hg])), hh g (by simp), Nat.zero_mul, Nat.add_zero]
  | cons g gs ih =>
    cases ss with
    | nil => simp
    | cons s ss => rw [List.cons_append, List.zipWith_cons_cons, List.zipWith_cons_cons, List.sum_cons, List.sum_cons, ih]

theorem ixsFrom_append (pl : Platform) (L : Lattice) (os : List Ovr) (n : Nat) (vs xs zs : List Cls) (h : xs.length ≤ vs.length) :
    ixsFrom pl L os n vs (xs ++ zs) = ixsFrom pl L os n (vs.take xs.length) xs ++ ixsFrom pl L os (n + xs.length) (vs.drop xs.length) zs := by
  induction xs generalizing n vs with
  | nil => simp [ixsFrom]
  | cons x xs ih =>
    cases vs with
    | nil => simp at h
    | cons v vs =>
      rw [List.cons_append, ixsFrom, ih (n + 1) vs (by simpa using h)]
      simp [ixsFrom, Nat.add_assoc, Nat.add_comm 1]

/-- A call reads the cell for the classes of the virtual arguments that follow the first one immediately; if the next virtual
arguments are far enough, they are ignored, and the cell is the one for classes in the first groups. -/
theorem resolve_gap_base (h : CompiledBase pl p c) {gen : Nat} {bases : List (Option Nat)} {img : Image} (I : ImageOk c gen bases img)
    (hids : (p.methods.map (·.id)).Nodup) {i : Nat} {mi : MethodInfo} (hmi : p.methods[i]? = some mi)
    {ks : List Bool} {args : List (Res Ptr)} {xs ys zs : List Cls} (hargs : ArgsFor (img.ptr gen) ks args (xs ++ ys)) (hyz : ys.length = zs.length)
    (hok : ArgsOk c.lattice (toMeth p.rtti c.lattice mi) (xs ++ zs))
    (hsafe : ∀ (k : Nat) (v x : Cls), (toMeth p.rtti c.lattice mi).vp[k]? = some v → xs[k]? = some x → SlotSafe c.lattice (usedByVp c.meths) v x)
    (hzs : ∀ (j : Nat) (v z : Cls), (toMeth p.rtti c.lattice mi).vp[xs.length + j]? = some v → zs[j]? = some z →
      groupIx (groupsOf pl c.lattice (toMeth p.rtti c.lattice mi).overriders (xs.length + j) v) z = 0)
    (hcont : Leading ks xs.length) :
    ∃ t cell f ss, c.tables[i]? = some t ∧
      t.table[argOffset pl c.lattice (toMeth p.rtti c.lattice mi) (xs ++ zs)]? = some cell ∧
      pfOf (toMeth p.rtti c.lattice mi) cell = some f ∧ slotsStridesAt img mi.id = some ss ∧
      resolve (readWord gen img.data) ss mi.arity ks args = .ok f := by
  have hm : c.meths[i]? = some (toMeth p.rtti c.lattice mi) := by rw [h.meths, List.getElem?_map, hmi]; rfl
  have hM := h.methOk mi (List.mem_of_getElem? hmi)
  obtain ⟨t, ht, hT⟩ := h.shape hm
  have hss := slotsStrides_at h I hids hmi ht
  obtain ⟨cell, hcell⟩ : ∃ cell, t.table[argOffset pl c.lattice (toMeth p.rtti c.lattice mi) (xs ++ zs)]? = some cell :=
    ⟨_, List.getElem?_eq_getElem (by rw [hT.length]; exact (List.getElem?_eq_some_iff.1 (methMasks_get pl c.lattice _ _ hok)).1)⟩
  obtain ⟨f, hf⟩ := hT.cell_pf (List.mem_of_getElem? hcell)
  have hlen : mi.vp.length = xs.length + zs.length := by
    have := hok.length_eq
    simpa [toMeth] using this
  have hvl : (toMeth p.rtti c.lattice mi).vp.length = mi.vp.length := by simp [toMeth]
  refine ⟨t, cell, f, _, ht, hcell, hf, hss, ?_⟩
  -- what is read for parameter `k`
  have hread : ∀ (k : Nat) (x : Cls), xs[k]? = some x → ∃ v, (toMeth p.rtti c.lattice mi).vp[k]? = some v ∧
      ∃ w, entryWord c gen bases { method := i, vp := k, group := groupIx (groupsOf pl c.lattice (toMeth p.rtti c.lattice mi).overriders k v) x } = .ok w ∧
        readWord gen img.data ((img.ptr gen x).add (c.slots.slots (i, k))) = .ok w := by
    intro k x hx
    have hlt := (List.getElem?_eq_some_iff.1 hx).1
    obtain ⟨v, hv, hvx⟩ := forall₂_get (List.Forall₂.flip hok) (show (xs ++ zs)[k]? = some x by rw [List.getElem?_append_left hlt]; exact hx)
    exact ⟨v, hv, read_entry h I hm hv hvx (hsafe k v x hv hx)⟩
  have hslot : ∀ k, k < mi.vp.length → (((List.range mi.vp.length).map fun k => c.slots.slots (i, k)))[k]? = some (c.slots.slots (i, k)) := by
    intro k hk
    rw [List.getElem?_map, List.getElem?_range hk]; rfl
  unfold resolve MethodInfo.arity
  by_cases hone : mi.vp.length = 1
  · -- uni-method
    rw [if_pos hone]
    obtain ⟨hk, _⟩ := hcont
    obtain rfl : zs = [] := List.eq_nil_of_length_eq_zero (by omega)
    obtain rfl : ys = [] := List.eq_nil_of_length_eq_zero (by simpa using hyz)
    simp only [List.append_nil] at hargs hok hcell ⊢
    obtain ⟨a, ks, hp⟩ := split_single (hargs.count.trans (by simpa [hone] using hlen.symm))
    rw [hp] at hargs ⊢
    obtain ⟨pre, as', rfl, hpl, hargs'⟩ := hargs.drop_false
    rw [resolveUni_skip _ _ _ _ _ _ hpl]
    cases hargs' with
    | @virt _ as'' xs' x hargs'' =>
      obtain rfl : xs' = [] := List.eq_nil_of_length_eq_zero (by simp at hlen; omega)
      obtain ⟨v, hv, w, hw, hr⟩ := hread 0 x (by simp)
      have hvs : (toMeth p.rtti c.lattice mi).vp = [v] := by
        obtain ⟨v', hv'⟩ := List.length_eq_one_iff.1 (hvl.trans hone)
        rw [hv'] at hv
        simp at hv
        rw [hv', hv]
      obtain ⟨cell, f', h1, h2, rfl⟩ := entryWord_uni hm ht (hvl.trans hone) hw
      have hoff : argOffset pl c.lattice (toMeth p.rtti c.lattice mi) [x] =
          groupIx (groupsOf pl c.lattice (toMeth p.rtti c.lattice mi).overriders 0 v) x := by
        unfold argOffset
        rw [methGroups_single pl c.lattice _ v hvs, hvs]
        simp [ixsFrom, offsetOf]
      rw [hoff, h1] at hcell
      obtain rfl := Option.some.inj hcell
      rw [h2] at hf
      obtain rfl := Option.some.inj hf
      have e0 : (((List.range mi.vp.length).map fun k => c.slots.slots (i, k)) ++ t.strides)[0]? = some (c.slots.slots (i, 0)) := by
        rw [List.getElem?_append_left (by simp [hone])]
        exact hslot 0 (by omega)
      simp only [resolveUni, e0, Res.ofOption_some, Res.ok_bind, hr, Word.asPf]
  · -- multi-method
    rw [if_neg hone]
    obtain ⟨hpos, a, b, rest, hp, hb⟩ := hcont
    rw [hargs.count, List.length_append] at hb
    rw [hp] at hargs ⊢
    obtain ⟨pre, as', rfl, hpl, hargs'⟩ := hargs.drop_false
    rw [resolveMultiFirst_skip _ _ _ _ _ _ _ hpl]
    cases xs with
    | nil => simp at hpos
    | cons x xs =>
      simp only [List.length_cons] at hargs' hlen hb hzs ⊢
      rw [List.replicate_succ, List.cons_append] at hargs' ⊢
      rw [List.cons_append] at hargs'
      cases hargs' with
      | @virt _ as'' _ _ hargs'' =>
        obtain ⟨v, hv, w, hw, hr⟩ := hread 0 x (by simp)
        obtain ⟨base, hbase, hTab⟩ := I.multi i _ t hm ht (by rw [hvl]; exact hone)
        have hw' := entryWord_first hm ht (by rw [hvl]; exact hone) hbase hw
        subst hw'
        have e0 : (((List.range mi.vp.length).map fun k => c.slots.slots (i, k)) ++ t.strides)[0]? = some (c.slots.slots (i, 0)) := by
          rw [List.getElem?_append_left (by simp; omega)]
          exact hslot 0 (by omega)
        simp only [resolveMultiFirst, e0, Res.ofOption_some, Res.ok_bind, hr, Word.asPtr]
        -- sizes and indices
        obtain ⟨vs, hvs⟩ : ∃ vs, (toMeth p.rtti c.lattice mi).vp = v :: vs := by
          cases hvv : (toMeth p.rtti c.lattice mi).vp with
          | nil => rw [hvv] at hv; simp at hv
          | cons v' vs => rw [hvv] at hv; simp at hv; exact ⟨vs, by rw [hv]⟩
        have hvsl : vs.length = xs.length + zs.length := by
          have := hok.length_eq
          rw [hvs] at this
          simpa using this
        have hgl : (methGroups pl c.lattice (toMeth p.rtti c.lattice mi)).map List.length =
            (groupsOf pl c.lattice (toMeth p.rtti c.lattice mi).overriders 0 v).length ::
              (groupsFrom pl c.lattice (toMeth p.rtti c.lattice mi).overriders 1 vs).map List.length := by
          rw [methGroups_eq, hvs, groupsFrom_cons, List.map_cons]
        have hfl : ((groupsFrom pl c.lattice (toMeth p.rtti c.lattice mi).overriders 1 vs).map List.length).length = vs.length := by
          simp [groupsFrom]
        have hstl : t.strides.length = vs.length := by
          rw [hT.strides, hgl, stridesFrom_length, hfl]
        have hixl : (ixsFrom pl c.lattice (toMeth p.rtti c.lattice mi).overriders 1 (vs.take xs.length) xs).length = xs.length := by
          rw [ixsFrom_length _ _ _ _ _ _ (by simp; omega)]; simp; omega
        have hnext := resolveMultiNext_ok (readWord gen img.data) ((List.range mi.vp.length).map fun k => c.slots.slots (i, k))
          t.strides mi.vp.length (by simp) (img.ptr gen) b rest xs ys
          (ixsFrom pl c.lattice (toMeth p.rtti c.lattice mi).overriders 1 (vs.take xs.length) xs) 1
          { gen := gen, off := ((base + groupIx (groupsOf pl c.lattice (toMeth p.rtti c.lattice mi).overriders 0 v) x : Nat) : Int) }
          as'' le_rfl (by omega) (by omega) (by omega) hixl (by omega) hargs'' (by
            intro j y g hy hg
            obtain ⟨v', hv', w', hw', hr'⟩ := hread (j + 1) y (by simpa using hy)
            have hvj : vs[j]? = some v' := by rw [hvs] at hv'; simpa using hv'
            have hjl := (List.getElem?_eq_some_iff.1 hy).1
            have hgj := ixsFrom_get pl c.lattice (toMeth p.rtti c.lattice mi).overriders 1 (vs.take xs.length) xs j v' y
              (by rw [List.getElem?_take_of_lt hjl]; exact hvj) hy
            rw [hg] at hgj
            have hg' := Option.some.inj hgj
            have hw'' := entryWord_other hm ht (by rw [hvl]; exact hone) (Nat.succ_ne_zero j) hw'
            refine ⟨c.slots.slots (i, j + 1), ?_, ?_⟩
            · rw [Nat.add_comm 1 j]
              apply hslot
              omega
            · rw [hr', hw'', hg', Nat.add_comm 1 j])
        rw [hnext]
        -- the position is the one of the cell
        have hpos2 : argOffset pl c.lattice (toMeth p.rtti c.lattice mi) (x :: (xs ++ zs)) =
            groupIx (groupsOf pl c.lattice (toMeth p.rtti c.lattice mi).overriders 0 v) x +
            (List.zipWith (· * ·) (ixsFrom pl c.lattice (toMeth p.rtti c.lattice mi).overriders 1 (vs.take xs.length) xs) t.strides).sum := by
          unfold argOffset
          rw [hgl, hvs, ixsFrom, offsetOf_strides _ _ _ _ _ (by
            rw [hfl, ixsFrom_length _ _ _ _ _ _ (by simpa using hvsl)]), hT.strides, hgl, Nat.mul_one,
            ixsFrom_append _ _ _ _ _ _ _ (by omega), zipWith_mul_zero]
          intro g hg
          obtain ⟨j, hj⟩ := List.getElem?_of_mem hg
          have hjl := (List.getElem?_eq_some_iff.1 hj).1
          rw [ixsFrom_length _ _ _ _ _ _ (by simp; omega)] at hjl
          have hjz : j < zs.length := by simp at hjl; omega
          have hvj : (vs.drop xs.length)[j]? = some vs[xs.length + j] := by
            rw [List.getElem?_drop, List.getElem?_eq_getElem]
          have hgj := ixsFrom_get pl c.lattice (toMeth p.rtti c.lattice mi).overriders (1 + xs.length) (vs.drop xs.length) zs j _ _ hvj
            (List.getElem?_eq_getElem hjz)
          rw [hj, Option.some.injEq] at hgj
          rw [hgj, show 1 + xs.length + j = xs.length + 1 + j by omega]
          exact hzs j _ _ (by rw [hvs, show xs.length + 1 + j = (xs.length + j) + 1 by omega, List.getElem?_cons_succ, List.getElem?_eq_getElem])
            (List.getElem?_eq_getElem hjz)
        obtain ⟨f', hf', hdat⟩ := hTab _ _ hcell
        rw [hf] at hf'
        obtain rfl := Option.some.inj hf'
        rw [List.cons_append, hpos2] at hdat
        simp only [Nat.sub_self, List.drop_zero]
        unfold readWord
        rw [if_pos ⟨rfl, by simp [Ptr.add]; omega⟩]
        have hoff : (({ gen := gen, off := ((base + groupIx (groupsOf pl c.lattice (toMeth p.rtti c.lattice mi).overriders 0 v) x : Nat) : Int) } : Ptr).add
            (List.zipWith (· * ·) (ixsFrom pl c.lattice (toMeth p.rtti c.lattice mi).overriders 1 (vs.take xs.length) xs) t.strides).sum).off.toNat =
            base + (groupIx (groupsOf pl c.lattice (toMeth p.rtti c.lattice mi).overriders 0 v) x +
            (List.zipWith (· * ·) (ixsFrom pl c.lattice (toMeth p.rtti c.lattice mi).overriders 1 (vs.take xs.length) xs) t.strides).sum) := by
          simp only [Ptr.add]; omega
        rw [hoff, hdat]
        rfl

theorem resolve_gap (h : CompiledOk n pl p c) {gen : Nat} {bases : List (Option Nat)} {img : Image} (I : ImageOk c gen bases img)
    (hids : (p.methods.map (·.id)).Nodup) {i : Nat} {mi : MethodInfo} (hmi : p.methods[i]? = some mi)
    {ks : List Bool} {args : List (Res Ptr)} {xs ys zs : List Cls} (hargs : ArgsFor (img.ptr gen) ks args (xs ++ ys)) (hyz : ys.length = zs.length)
    (hok : ArgsOk c.lattice (toMeth p.rtti c.lattice mi) (xs ++ zs))
    (hsafe : ∀ (k : Nat) (v x : Cls), (toMeth p.rtti c.lattice mi).vp[k]? = some v → xs[k]? = some x → SlotSafe c.lattice (usedByVp c.meths) v x)
    (hzs : ∀ (j : Nat) (v z : Cls), (toMeth p.rtti c.lattice mi).vp[xs.length + j]? = some v → zs[j]? = some z →
      groupIx (groupsOf pl c.lattice (toMeth p.rtti c.lattice mi).overriders (xs.length + j) v) z = 0)
    (hcont : Leading ks xs.length) :
    ∃ t rs cell f ss, c.tables[i]? = some t ∧ TableOk n pl c.lattice (toMeth p.rtti c.lattice mi) t rs ∧
      t.table[argOffset pl c.lattice (toMeth p.rtti c.lattice mi) (xs ++ zs)]? = some cell ∧
      pfOf (toMeth p.rtti c.lattice mi) cell = some f ∧ slotsStridesAt img mi.id = some ss ∧
      resolve (readWord gen img.data) ss mi.arity ks args = .ok f := by
  obtain ⟨t, cell, f, ss, ht, h1⟩ := resolve_gap_base h.toCompiledBase I hids hmi hargs hyz hok hsafe hzs hcont
  obtain ⟨t', rs, ht', hT⟩ := h.table (i := i) (m := toMeth p.rtti c.lattice mi) (by rw [h.meths, List.getElem?_map, hmi]; rfl)
  obtain rfl := Option.some.inj (ht.symm.trans ht')
  exact ⟨t, rs, cell, f, ss, ht, hT, h1⟩

theorem Contiguous.leading {params : List Bool} (h : Contiguous params) (hp : 1 ≤ params.count true) : Leading params (params.count true) := by
  obtain ⟨a, n, b, rfl⟩ := h
  simp only [List.count_append, List.count_replicate] at hp ⊢
  simp only [beq_self_eq_true, if_true, show (false == true) = false from rfl] at hp ⊢
  exact ⟨hp, a, b, [], by simp, by simp [List.count_append, List.count_replicate]⟩

theorem single_leading {params : List Bool} (h : params.count true = 1) : Leading params 1 := by
  obtain ⟨a, ks, rfl⟩ := split_single h
  exact ⟨le_rfl, a, 0, ks, by simp, by omega⟩

theorem split_first {params : List Bool} (h : 0 < params.count true) :
    ∃ a ks, params = List.replicate a false ++ true :: ks := by
  induction params with
  | nil => simp at h
  | cons b l ih =>
    cases b with
    | true => exact ⟨0, l, rfl⟩
    | false =>
      obtain ⟨a, ks, rfl⟩ := ih (by simpa using h)
      exact ⟨a + 1, ks, by simp [List.replicate_succ]⟩

theorem leading_two {params : List Bool} (h2 : params.count true = 2) (hn : ¬ Contiguous params) : Leading params 1 := by
  obtain ⟨a, ks, rfl⟩ := split_first (params := params) (by omega)
  have hk : ks.count true = 1 := by
    simpa [List.count_append, List.count_replicate] using h2
  refine ⟨le_rfl, a, 1, ks.drop 1, ?_, by omega⟩
  cases ks with
  | nil => simp at hk
  | cons b ks =>
    cases b with
    | false => rfl
    | true =>
      exfalso
      have h0 : ks.count true = 0 := by simpa using hk
      apply hn
      refine ⟨a, 2, ks.length, ?_⟩
      have : ks = List.replicate ks.length false := by
        rw [List.eq_replicate_iff]
        refine ⟨rfl, fun b hb => ?_⟩
        cases b with
        | false => rfl
        | true => exact absurd hb (List.count_eq_zero.1 h0)
      conv_lhs => rw [this]
      simp [List.replicate_succ]

/-- A call reads the cell for the classes of its virtual arguments. For a multi-method, virtual parameters must be
contiguous. -/
theorem resolve_ok_base (h : CompiledBase pl p c) {gen : Nat} {bases : List (Option Nat)} {img : Image} (I : ImageOk c gen bases img)
    (hids : (p.methods.map (·.id)).Nodup) {i : Nat} {mi : MethodInfo} (hmi : p.methods[i]? = some mi)
    {ks : List Bool} {args : List (Res Ptr)} {xs : List Cls} (hargs : ArgsFor (img.ptr gen) ks args xs)
    (hok : ArgsOk c.lattice (toMeth p.rtti c.lattice mi) xs)
    (hsafe : ∀ (k : Nat) (v x : Cls), (toMeth p.rtti c.lattice mi).vp[k]? = some v → xs[k]? = some x → SlotSafe c.lattice (usedByVp c.meths) v x)
    (hcont : mi.vp.length = 1 ∨ Contiguous ks) :
    ∃ t cell f ss, c.tables[i]? = some t ∧
      t.table[argOffset pl c.lattice (toMeth p.rtti c.lattice mi) xs]? = some cell ∧
      pfOf (toMeth p.rtti c.lattice mi) cell = some f ∧ slotsStridesAt img mi.id = some ss ∧
      resolve (readWord gen img.data) ss mi.arity ks args = .ok f := by
  have hlen : mi.vp.length = xs.length := by
    have := hok.length_eq
    simpa [toMeth] using this
  have hcount := hargs.count
  have hl : Leading ks xs.length := by
    rw [← hcount]
    rcases hcont with h1 | h1
    · rw [show ks.count true = 1 by omega]
      exact single_leading (by omega)
    · refine h1.leading ?_
      have := (h.methOk mi (List.mem_of_getElem? hmi)).wf.pos
      omega
  have := resolve_gap_base h I hids hmi (xs := xs) (ys := []) (zs := []) (by simpa using hargs) rfl (by simpa using hok) hsafe (by simp) hl
  simpa using this

theorem resolve_ok (h : CompiledOk n pl p c) {gen : Nat} {bases : List (Option Nat)} {img : Image} (I : ImageOk c gen bases img)
    (hids : (p.methods.map (·.id)).Nodup) {i : Nat} {mi : MethodInfo} (hmi : p.methods[i]? = some mi)
    {ks : List Bool} {args : List (Res Ptr)} {xs : List Cls} (hargs : ArgsFor (img.ptr gen) ks args xs)
    (hok : ArgsOk c.lattice (toMeth p.rtti c.lattice mi) xs)
    (hsafe : ∀ (k : Nat) (v x : Cls), (toMeth p.rtti c.lattice mi).vp[k]? = some v → xs[k]? = some x → SlotSafe c.lattice (usedByVp c.meths) v x)
    (hcont : mi.vp.length = 1 ∨ Contiguous ks) :
    ∃ t rs cell f ss, c.tables[i]? = some t ∧ TableOk n pl c.lattice (toMeth p.rtti c.lattice mi) t rs ∧
      t.table[argOffset pl c.lattice (toMeth p.rtti c.lattice mi) xs]? = some cell ∧
      pfOf (toMeth p.rtti c.lattice mi) cell = some f ∧ slotsStridesAt img mi.id = some ss ∧
      resolve (readWord gen img.data) ss mi.arity ks args = .ok f := by
  obtain ⟨t, cell, f, ss, ht, h1⟩ := resolve_ok_base h.toCompiledBase I hids hmi hargs hok hsafe hcont
  obtain ⟨t', rs, ht', hT⟩ := h.table (i := i) (m := toMeth p.rtti c.lattice mi) (by rw [h.meths, List.getElem?_map, hmi]; rfl)
  obtain rfl := Option.some.inj (ht.symm.trans ht')
  exact ⟨t, rs, cell, f, ss, ht, hT, h1⟩

end OpenMethod

import Verif.Proof.Words
import Verif.Proof.Outcome
import Verif.SpecNext
import Mathlib.Data.List.Nodup
import Mathlib.Data.Finset.Card

/-! # What `initialize` stores in `next` -/

namespace OpenMethod

open Spec

/-! ## Stores -/

theorem find?_reverse_unique {β : Type} (l : List (VarId × β)) (v : VarId) (f : β) (h : (v, f) ∈ l) (hu : ∀ f', (v, f') ∈ l → f' = f) :
    (l.reverse.find? (fun x => x.1 = v)).map (·.2) = some f := by
  cases hf : l.reverse.find? (fun x => x.1 = v) with
  | none =>
    rw [List.find?_eq_none] at hf
    exact absurd (decide_eq_true rfl) (hf (v, f) (by simpa using h))
  | some x =>
    have h1 := List.find?_some hf
    have h2 := List.mem_of_find?_eq_some hf
    obtain ⟨w, g⟩ := x
    simp only [decide_eq_true_eq] at h1
    subst h1
    simp [hu g (by simpa using h2)]

theorem find?_reverse_none {β : Type} (l : List (VarId × β)) (v : VarId) (h : ∀ f, (v, f) ∉ l) :
    (l.reverse.find? (fun x => x.1 = v)).map (·.2) = none := by
  rw [Option.map_eq_none_iff, List.find?_eq_none]
  rintro ⟨w, g⟩ hm he
  simp only [decide_eq_true_eq] at he
  subst he
  exact h g (by simpa using hm)

/-- In a list of lists without repetition, an element has one position. -/
theorem flatMap_pos {α β γ : Type} (g : α → List β) (f : β → γ) (l : List α) (h : ((l.flatMap g).map f).Nodup) {i i' : Nat} {a a' : α}
    {j j' : Nat} {b b' : β} (hi : l[i]? = some a) (hi' : l[i']? = some a') (hj : (g a)[j]? = some b) (hj' : (g a')[j']? = some b')
    (he : f b = f b') : i = i' ∧ j = j' := by
  rw [List.map_flatMap, List.nodup_flatMap] at h
  obtain ⟨h1, h2⟩ := h
  have hij : ∀ {i i' : Nat} {a a' : α} {j j' : Nat} {b b' : β}, l[i]? = some a → l[i']? = some a' → (g a)[j]? = some b →
      (g a')[j']? = some b' → f b = f b' → ¬ i < i' := by
    intro i i' a a' j j' b b' hi hi' hj hj' he hlt
    obtain ⟨l1, rfl⟩ := List.getElem?_eq_some_iff.1 hi
    obtain ⟨l2, rfl⟩ := List.getElem?_eq_some_iff.1 hi'
    have := List.pairwise_iff_getElem.1 h2 i i' l1 l2 hlt
    exact this (List.mem_map_of_mem (List.mem_of_getElem? hj)) (he ▸ List.mem_map_of_mem (List.mem_of_getElem? hj'))
  have e : i = i' := by
    rcases Nat.lt_trichotomy i i' with h | h | h
    · exact absurd h (hij hi hi' hj hj' he)
    · exact h
    · exact absurd h (hij hi' hi hj' hj he.symm)
  subst e
  obtain rfl := Option.some.inj (hi.symm.trans hi')
  refine ⟨rfl, ?_⟩
  have hn := h1 a (List.mem_of_getElem? hi)
  have e1 : ((g a).map f)[j]? = some (f b) := by rw [List.getElem?_map, hj]; rfl
  have e2 : ((g a).map f)[j']? = some (f b) := by rw [List.getElem?_map, hj', he]; rfl
  exact (List.getElem?_inj (List.getElem?_eq_some_iff.1 e1).1 hn).1 (e1.trans e2.symm)

variable {n : Bool} {pl : Platform} {p : Program} {c : Compiled} {gen : Nat} {bases : List (Option Nat)} {img : Image}

theorem mem_nextStores {m : Meth} {t : MethTable} {v : VarId} {f : Pf} :
    (v, f) ∈ nextStores m t ↔ ∃ j o cell, m.overriders[j]? = some o ∧ t.next j = some cell ∧ pfOf m cell = some f ∧ o.info.next = v := by
  unfold nextStores
  simp only [List.mem_filterMap, Prod.exists, List.mem_zipIdx_iff_getElem?]
  constructor
  · rintro ⟨o, j, ho, h⟩
    split at h
    · rename_i cell hc
      simp only [Option.map_eq_some_iff, Prod.mk.injEq] at h
      obtain ⟨g, hg, h1, rfl⟩ := h
      exact ⟨j, o, cell, ho, hc, hg, h1⟩
    · simp at h
  · rintro ⟨j, o, cell, ho, hc, hf, rfl⟩
    refine ⟨o, j, ho, ?_⟩
    rw [hc]
    simp [hf]

/-- The content of the `next` variable of an overrider. -/
theorem nextAt_eq (C : CompiledBase pl p c) (I : ImageOk c gen bases img) (hD : p.Distinct) {i : Nat} {m : MethodInfo} {t : MethTable}
    (hi : p.methods[i]? = some m) (ht : c.tables[i]? = some t) {j : Nat} {o : OverriderInfo} (ho : m.overriders[j]? = some o) :
    nextAt img o.next = (t.next j).bind (pfOf (toMeth p.rtti c.lattice m)) := by
  have hmem : ∀ f, (o.next, f) ∈ img.next ↔ (t.next j).bind (pfOf (toMeth p.rtti c.lattice m)) = some f := by
    intro f
    rw [I.next]
    simp only [List.mem_flatMap, Prod.exists, mem_nextStores]
    constructor
    · rintro ⟨M, t', hmt, j', o', cell, ho', hc, hf, hv⟩
      obtain ⟨i', hi'⟩ := List.getElem?_of_mem hmt
      rw [List.getElem?_zip_eq_some] at hi'
      obtain ⟨hM, ht'⟩ := hi'
      rw [C.meths, List.getElem?_map, Option.map_eq_some_iff] at hM
      obtain ⟨m', hm', rfl⟩ := hM
      simp only [toMeth, List.getElem?_map, Option.map_eq_some_iff] at ho'
      obtain ⟨oi, hoi, rfl⟩ := ho'
      obtain ⟨rfl, rfl⟩ := flatMap_pos (·.overriders) (·.next) p.methods hD.next hi hm' ho hoi hv.symm
      obtain rfl := Option.some.inj (hi.symm.trans hm')
      obtain rfl := Option.some.inj (ht.symm.trans ht')
      rw [hc]; exact hf
    · intro h
      rw [Option.bind_eq_some_iff] at h
      obtain ⟨cell, hc, hf⟩ := h
      refine ⟨toMeth p.rtti c.lattice m, t, ?_, j, _, cell, toMeth_overrider ho, hc, hf, rfl⟩
      refine List.mem_of_getElem? (i := i) ?_
      rw [List.getElem?_zip_eq_some, C.meths, List.getElem?_map, hi]
      exact ⟨rfl, ht⟩
  unfold nextAt
  cases h : (t.next j).bind (pfOf (toMeth p.rtti c.lattice m)) with
  | none => exact find?_reverse_none _ _ fun f hf => by rw [hmem, h] at hf; simp at hf
  | some f => exact find?_reverse_unique _ _ _ ((hmem f).2 h) fun f' hf' => by rw [hmem, h] at hf'; exact (Option.some.inj hf').symm

theorem callable_of_argsOk {L : Lattice} (hL : LatticeOk p L) {m : MethodInfo} (hm : MethOk p L m) {xs : List Cls}
    (hargs : ArgsOk L (toMeth p.rtti L m) xs) : Callable p m xs := by
  refine ⟨(accepts_iff hL m.vp hm.vp xs).1 hargs, fun x hx => ?_⟩
  obtain ⟨q, hq, hxq⟩ : ∃ q ∈ m.vp.map p.rtti.ti, x ∈ L.td q := by
    obtain ⟨i, hi⟩ := List.getElem?_of_mem hx
    obtain ⟨q, hq, hR⟩ := forall₂_get_left (List.Forall₂.flip hargs) hi
    exact ⟨q, List.mem_of_getElem? hq, hR⟩
  obtain ⟨t, ht, rfl⟩ := List.mem_map.1 hq
  have hd := (hL.mem_td _ (hm.vp t ht) x).1 hxq
  have hreg := (hL.mem_order (p.rtti.ti t)).1 (hm.vp t ht)
  rcases Relation.ReflTransGen.cases_head hd with rfl | ⟨b, ⟨cr, hcr, hx, _⟩, _⟩
  · exact hreg
  · exact ⟨cr, hcr, hx⟩

theorem moreAt_domB (hac : Acyclic p) {L : Lattice} (hL : LatticeOk p L) {m : MethodInfo} (hm : MethOk p L m) :
    moreAt L (toMeth p.rtti L m).overriders = domB p m := by
  funext i j
  rw [Bool.eq_iff_iff, moreAt_iff hL hac hm, domB_iff]

/-- `next` of an overrider: nothing when it is selected for no arguments, otherwise what is selected for some of the arguments
for which it is selected, when it is left out. -/
theorem next_core (hv : p.Valid) (C : CompiledOk false pl p c) {m : MethodInfo} (hmem : m ∈ p.methods) {t : MethTable} {rs : List CellResult}
    (T : TableOk false pl c.lattice (toMeth p.rtti c.lattice m) t rs) (j : Nat) :
    (t.next j = none ∧ ∀ ys, Callable p m ys → survIdx p m (appIdx p m ys) ≠ [j]) ∨
    ∃ ys, Callable p m ys ∧ survIdx p m (appIdx p m ys) = [j] ∧
      t.next j = some (cellOf (survIdx p m ((appIdx p m ys).filter (· ≠ j)))) := by
  have hM := C.methOk m hmem
  have hmore := moreAt_domB hv.acyclic C.lat hM
  have happ : ∀ ys, ArgsOk c.lattice (toMeth p.rtti c.lattice m) ys →
      setBits (argMask c.lattice (toMeth p.rtti c.lattice m).overriders ys) = appIdx p m ys := by
    intro ys h
    have hlen : ys.length = m.vp.length := by
      have := h.length_eq
      simpa [toMeth] using this.symm
    rw [argMask_eq C.lat hM hlen]; rfl
  rcases T.next_spec j with ⟨h1, h2⟩ | ⟨ys, r, surv, left, surv', left', ha, _, hc, hC, hS, hl, hn⟩
  · refine .inl ⟨h1, fun ys hy he => ?_⟩
    have ha := callable_argsOk C.lat hM hy
    obtain ⟨r, surv, left, hr, _, hC⟩ := T.at ha
    refine h2 r (List.mem_of_getElem? hr) ?_
    have hl := hC.isLeft
    rw [remainL_false] at hl
    rw [hC.cell, cellFor_false, ← Res.ok.inj hl, hC.isSurv.eq, hmore, happ ys ha]
    exact cellOf_ovr.2 he
  · refine .inr ⟨ys, callable_of_argsOk C.lat hM ha, ?_⟩
    have hl1 := hC.isLeft
    rw [remainL_false] at hl1 hl
    obtain rfl := Res.ok.inj hl1
    obtain rfl := Res.ok.inj hl
    have hcell := hC.cell
    rw [hc, cellFor_false, eq_comm, cellOf_ovr] at hcell
    have hs := hC.isSurv.eq
    rw [hmore, happ ys ha] at hs
    refine ⟨by rw [← hcell]; exact hs.symm, ?_⟩
    have hs' := hS.eq
    rw [hcell, hmore, happ ys ha] at hs'
    rw [hn, cellFor_false, hs']
    simp [survIdx]

/-! ## Arguments for which an overrider is selected -/

theorem Accepts.trans' {qs as bs : List Cls} (h1 : Accepts p qs as) (h2 : Accepts p as bs) : Accepts p qs bs := by
  unfold Accepts at *
  induction h1 generalizing bs with
  | nil => cases h2; exact .nil
  | cons h _ ih => cases h2 with | cons h' h2 => exact .cons (h'.trans h) (ih h2)

theorem Accepts.refl' (qs : List Cls) : Accepts p qs qs := by
  unfold Accepts
  induction qs with
  | nil => exact .nil
  | cons q qs ih => exact .cons .refl ih

theorem accepts_get {qs as : List Cls} (hl : qs.length = as.length)
    (h : ∀ (i : Nat) q a, qs[i]? = some q → as[i]? = some a → Derives p a q) : Accepts p qs as := by
  unfold Accepts
  rw [List.forall₂_iff_get]
  exact ⟨hl, fun i h1 h2 => h i _ _ (List.getElem?_eq_getElem h1) (List.getElem?_eq_getElem h2)⟩

/-- The method has one virtual parameter, or classes that can be passed to it have no unrelated bases. -/
def PlainMethod (p : Program) (m : MethodInfo) : Prop :=
  m.vp.length = 1 ∨ ∀ ys, Callable p m ys → ∀ y ∈ ys, SingleInheritance p y

/-- A more specific overrider that applies to the same arguments only takes arguments that the other takes. -/
theorem PlainMethod.nested (hv : p.Valid) {m : MethodInfo} (hmem : m ∈ p.methods) (h : PlainMethod p m) : Nested p m := by
  intro ys hy o ho o' ho' hA hA' hmore
  have hw := hv.wf m hmem
  rcases h with h | h
  · obtain ⟨x, hx⟩ := classesOf_one (p := p) ((hw.overriders o ho).trans h)
    obtain ⟨y, hy⟩ := classesOf_one (p := p) ((hw.overriders o' ho').trans h)
    have := (moreSpecific_one hx hy).1 hmore
    rw [hx, hy]
    exact .cons this.1.1 .nil
  · refine accepts_get (by simp [classesOf, hw.overriders o ho, hw.overriders o' ho']) ?_
    intro i q a hq ha
    obtain ⟨x, hx, hxq⟩ := forall₂_get_left hA' hq
    obtain ⟨x', hx', hxa⟩ := forall₂_get_left hA ha
    obtain rfl := Option.some.inj (hx.symm.trans hx')
    rcases h ys hy x (List.mem_of_getElem? hx) a q hxa hxq with h' | h'
    · exact h'
    · by_cases he : a = q
      · subst he; exact .refl
      · exact absurd ⟨h', Ne.symm he⟩ (hmore.2 i a q ha hq)

theorem classesOf_antisymm (hac : Acyclic p) {qs rs : List Cls} (h1 : Accepts p qs rs) (h2 : Accepts p rs qs) : qs = rs := by
  unfold Accepts at *
  induction h1 with
  | nil => rfl
  | cons h _ ih => cases h2 with | cons h' h2 => rw [ih h2, hac _ _ h' h]

/-- `o'` takes strictly more arguments than `o`. -/
def Wider (p : Program) (o o' : OverriderInfo) : Prop :=
  Accepts p (classesOf p o'.vp) (classesOf p o.vp) ∧ classesOf p o.vp ≠ classesOf p o'.vp

theorem Wider.trans (hac : Acyclic p) {a b c : OverriderInfo} (h1 : Wider p a b) (h2 : Wider p b c) : Wider p a c := by
  refine ⟨Accepts.trans' h2.1 h1.1, fun he => ?_⟩
  have h := h1.1
  rw [he] at h
  exact h2.2 (classesOf_antisymm hac h h2.1)

theorem moreSpecific_ne {a b : OverriderInfo} (h : MoreSpecific p a b) : classesOf p a.vp ≠ classesOf p b.vp := by
  intro he
  obtain ⟨i, x, y, hx, hy, hd⟩ := h.1
  rw [he, hy] at hx
  exact hd.2 (Option.some.inj hx).symm

theorem Wider.moreSpecific (hac : Acyclic p) {a b : OverriderInfo} (h : Wider p a b) : MoreSpecific p a b := by
  have hget : ∀ (i : Nat) (x y : Cls), (classesOf p a.vp)[i]? = some x → (classesOf p b.vp)[i]? = some y → Derives p x y := by
    intro i x y hx hy
    obtain ⟨x', hx', hd⟩ := forall₂_get_left h.1 hy
    obtain rfl := Option.some.inj (hx.symm.trans hx')
    exact hd
  have hlen : (classesOf p b.vp).length = (classesOf p a.vp).length := h.1.length_eq
  refine ⟨?_, fun i x y hx hy hd => hd.2 (hac _ _ hd.1 (hget i x y hx hy))⟩
  by_contra hno
  push Not at hno
  refine h.2 (List.ext_getElem? fun i => ?_)
  cases hx : (classesOf p a.vp)[i]? with
  | none =>
    rw [List.getElem?_eq_none_iff] at hx
    rw [eq_comm, List.getElem?_eq_none_iff]
    omega
  | some x =>
    obtain ⟨y, hy⟩ : ∃ y, (classesOf p b.vp)[i]? = some y := by
      have := (List.getElem?_eq_some_iff.1 hx).1
      exact ⟨_, List.getElem?_eq_getElem (by omega)⟩
    by_contra hne
    refine hno i x y hx hy ⟨hget i x y hx hy, ?_⟩
    rintro rfl
    exact hne hy.symm

theorem Spec.Nested.transitive (hac : Acyclic p) {m : MethodInfo} (h : Nested p m) {ys : List Cls} (hy : Callable p m ys) : TransitiveAt p m ys := by
  rintro i j k ⟨a, ha, hA⟩ ⟨b, hb, hB⟩ ⟨c, hc, hC⟩ ⟨a', b', ha', hb', h1⟩ ⟨b'', c', hb'', hc', h2⟩
  obtain rfl := Option.some.inj (ha.symm.trans ha')
  obtain rfl := Option.some.inj (hb.symm.trans hb')
  obtain rfl := Option.some.inj (hb.symm.trans hb'')
  obtain rfl := Option.some.inj (hc.symm.trans hc')
  have ma := List.mem_of_getElem? ha
  have mb := List.mem_of_getElem? hb
  have mc := List.mem_of_getElem? hc
  have w1 : Wider p a b := ⟨h ys hy a ma b mb hA hB h1, moreSpecific_ne h1⟩
  have w2 : Wider p b c := ⟨h ys hy b mb c mc hB hC h2, moreSpecific_ne h2⟩
  exact ⟨a, c, ha, hc, (w1.trans hac w2).moreSpecific hac⟩

/-- When an overrider is the only survivor, it dominates the other candidates. -/
theorem survIdx_dominates {m : MethodInfo} {is : List Nat} {j : Nat} (hs : survIdx p m is = [j])
    (htr : ∀ x ∈ is, ∀ y ∈ is, ∀ z ∈ is, Dominates p m x y → Dominates p m y z → Dominates p m x z) {k : Nat} (hk : k ∈ is) (hne : k ≠ j) :
    Dominates p m j k := by
  have S := survIdx_surv (p := p) m is
  rw [hs] at S
  rcases S.dominated (domB_irrefl p m) (fun x hx y hy z hz h1 h2 => domB_iff.2 (htr x hx y hy z hz (domB_iff.1 h1) (domB_iff.1 h2))) k hk with h | ⟨y, hy, h⟩
  · simp at h; exact absurd h hne
  · simp at hy; subst hy; exact domB_iff.1 h

theorem survIdx_expected {m : MethodInfo} {ys : List Cls} (ht : TransitiveAt p m ys) {j : Nat} (hs : survIdx p m (appIdx p m ys) = [j]) :
    Expected p m ys (.run j) := by
  have hm := mem_survIdx ht
  rw [hs] at hm
  exact ⟨(hm j).1 (by simp), fun k hk => by simpa using (hm k).2 hk⟩

theorem expected_dominates {m : MethodInfo} {ys : List Cls} (ht : TransitiveAt p m ys) {j : Nat} (h : Expected p m ys (.run j)) {k : Nat}
    (hk : ApplicableAt p m ys k) (hne : k ≠ j) : Dominates p m j k := by
  have S := survIdx_surv (p := p) m (appIdx p m ys)
  have hnd := S.sub.nodup (appIdx_nodup p m ys)
  have hm := mem_survIdx ht
  have hs : survIdx p m (appIdx p m ys) = [j] := by
    have h1 := (hm j).2 h.1
    have h2 : ∀ k ∈ survIdx p m (appIdx p m ys), k = j := fun k hk => h.2 k ((hm k).1 hk)
    generalize survIdx p m (appIdx p m ys) = is at h1 h2 hnd
    match is with
    | [] => simp at h1
    | [a] => rw [h2 a (by simp)]
    | a :: b :: l => rw [h2 a (by simp), h2 b (by simp)] at hnd; simp at hnd
  exact survIdx_dominates hs (fun x hx y hy z hz => ht x y z (mem_appIdx.1 hx) (mem_appIdx.1 hy) (mem_appIdx.1 hz)) (mem_appIdx.2 hk) hne

theorem Spec.Nested.covered (hac : Acyclic p) {m : MethodInfo} (h : Nested p m) : Covered p m := by
  intro ys hy
  have ht := h.transitive hac hy
  refine ⟨ht, fun i o ho hE o' ho' hA' => ?_⟩
  obtain ⟨k, hk⟩ := List.getElem?_of_mem ho'
  obtain ⟨⟨o1, ho1, hA⟩, _⟩ := hE.1
  obtain rfl := Option.some.inj (ho.symm.trans ho1)
  by_cases he : k = i
  · subst he
    obtain rfl := Option.some.inj (ho.symm.trans hk)
    exact Accepts.refl' _
  · obtain ⟨a, b, ha, hb, hd⟩ := expected_dominates ht hE ⟨o', hk, hA'⟩ he
    obtain rfl := Option.some.inj (ho.symm.trans ha)
    obtain rfl := Option.some.inj (hk.symm.trans hb)
    exact h ys hy _ (List.mem_of_getElem? ho) _ ho' hA hA' hd

theorem PlainMethod.covered (hv : p.Valid) {m : MethodInfo} (hmem : m ∈ p.methods) (h : PlainMethod p m) : Covered p m :=
  (h.nested hv hmem).covered hv.acyclic

/-- All arguments for which an overrider is selected have the same applicable overriders. -/
theorem appIdx_selected {m : MethodInfo} (h : Covered p m) {ys : List Cls}
    (hy : Callable p m ys) {j : Nat} {o : OverriderInfo} (ho : m.overriders[j]? = some o) (hs : survIdx p m (appIdx p m ys) = [j]) :
    appIdx p m ys = appIdx p m (classesOf p o.vp) ∧ Applicable p o ys := by
  obtain ⟨htr, hcov⟩ := h ys hy
  have hE := survIdx_expected htr hs
  obtain ⟨⟨o1, ho1, hA⟩, _⟩ := hE.1
  obtain rfl := Option.some.inj (ho.symm.trans ho1)
  refine ⟨?_, hA⟩
  unfold appIdx
  congr 1
  apply List.map_congr_left
  intro o' ho'
  rw [decide_eq_decide]
  exact ⟨hcov j o ho hE o' ho', fun hA' => Accepts.trans' hA' hA⟩

/-! ## Leaving an overrider out -/

theorem filter_zipIdx_erase {α : Type} (P : α → Bool) (L l : List α) (k : Nat) (h : ∀ j, L[k + j]? = l[j]?) (j : Nat) :
    ((((l.map P).zipIdx k).filter (·.1)).map (·.2) |>.filter (· ≠ k + j)).map (fun i => L[i]?) = ((l.eraseIdx j).filter P).map some := by
  induction l generalizing k j with
  | nil => rfl
  | cons a l ih =>
    have hk : ∀ j, L[k + 1 + j]? = l[j]? := by intro j; rw [show k + 1 + j = k + (j + 1) by omega, h]; rfl
    have h0 : L[k]? = some a := by have := h 0; simpa using this
    rw [List.map_cons, List.zipIdx_cons]
    cases j with
    | zero =>
      have hge : ((((l.map P).zipIdx (k + 1)).filter (·.1)).map (·.2)).filter (· ≠ k) = (((l.map P).zipIdx (k + 1)).filter (·.1)).map (·.2) := by
        rw [List.filter_eq_self]
        intro i hi
        obtain ⟨⟨b, i'⟩, hb, rfl⟩ := List.mem_map.1 hi
        have := List.le_snd_of_mem_zipIdx (List.mem_filter.1 hb).1
        simp at this ⊢
        omega
      have hmap := filter_zipIdx_map P L l (k + 1) hk
      rw [List.eraseIdx_cons_zero, ← hmap]
      by_cases hp : P a = true
      · rw [List.filter_cons_of_pos (by simpa using hp), List.map_cons, List.filter_cons_of_neg (by simp), Nat.add_zero, hge, List.map_map]; rfl
      · rw [List.filter_cons_of_neg (by simpa using hp), Nat.add_zero, hge, List.map_map]; rfl
    | succ j =>
      have ih' := ih (k + 1) hk j
      rw [show k + 1 + j = k + (j + 1) by omega] at ih'
      rw [List.eraseIdx_cons_succ]
      by_cases hp : P a = true
      · rw [List.filter_cons_of_pos (by simpa using hp), List.map_cons, List.filter_cons_of_pos (by simp), List.map_cons, ih', h0,
          List.filter_cons_of_pos hp, List.map_cons]
      · rw [List.filter_cons_of_neg (by simpa using hp), ih', List.filter_cons_of_neg hp]

open Classical in
theorem appIdx_erase (m : MethodInfo) (xs : List Cls) (j : Nat) :
    ((appIdx p m xs).filter (· ≠ j)).map (fun i => m.overriders[i]?) =
      ((m.overriders.eraseIdx j).filter fun o => decide (Applicable p o xs)).map some := by
  have := filter_zipIdx_erase (fun o => decide (Applicable p o xs)) m.overriders m.overriders 0 (by simp) j
  rw [Nat.zero_add] at this
  exact this

/-! ## Contents of `next` -/

variable {rep : Report}

theorem next_cases (hv : p.Valid) (hD : p.Distinct) (h : install pl false p gen = .ok (rep, img)) {m : MethodInfo} (hmem : m ∈ p.methods)
    {j : Nat} {o : OverriderInfo} (ho : m.overriders[j]? = some o) :
    (nextAt img o.next = none ∧ ∀ ys, Callable p m ys → survIdx p m (appIdx p m ys) ≠ [j]) ∨
    ∃ ys f L, Callable p m ys ∧ survIdx p m (appIdx p m ys) = [j] ∧ nextAt img o.next = some f ∧
      pfOf (toMeth p.rtti L m) (cellOf (survIdx p m ((appIdx p m ys).filter (· ≠ j)))) = some f := by
  obtain ⟨c, bases, _, C, _, I, _, _⟩ := install_ok hv h
  obtain ⟨i, hi⟩ := List.getElem?_of_mem hmem
  obtain ⟨t, rs, ht, T⟩ := C.table (i := i) (m := toMeth p.rtti c.lattice m) (by rw [C.meths, List.getElem?_map, hi]; rfl)
  rw [nextAt_eq C.toCompiledBase I hD hi ht ho]
  rcases next_core hv C hmem T j with ⟨h1, h2⟩ | ⟨ys, hy, hs, hn⟩
  · exact .inl ⟨by rw [h1]; rfl, h2⟩
  · obtain ⟨f, hf, _⟩ := enter_cellOf (p := p) (L := c.lattice) (m := m) [] (survIdx p m ((appIdx p m ys).filter (· ≠ j))) _
      (survIdx_map m _ _ (appIdx_erase m ys j))
    exact .inr ⟨ys, f, c.lattice, hy, hs, by rw [hn]; exact hf, hf⟩

/-- The overriders of a method are determined by their thunks. -/
theorem Program.Distinct.index (hD : p.Distinct) {m m' : MethodInfo} (hm : m ∈ p.methods) (hm' : m' ∈ p.methods) {j j' : Nat}
    {o o' : OverriderInfo} (ho : m.overriders[j]? = some o) (ho' : m'.overriders[j']? = some o') (he : o.pf = o'.pf) : m = m' ∧ j = j' ∧ o = o' := by
  obtain ⟨i, hi⟩ := List.getElem?_of_mem hm
  obtain ⟨i', hi'⟩ := List.getElem?_of_mem hm'
  obtain ⟨rfl, rfl⟩ := flatMap_pos (·.overriders) (·.pf) p.methods hD.pf hi hi' ho ho' he
  obtain rfl := Option.some.inj (hi.symm.trans hi')
  exact ⟨rfl, rfl, Option.some.inj (ho.symm.trans ho')⟩

/-- An overrider entered by a call has its `next` set, to a function of its method. -/
theorem next_entered (hv : p.Valid) (hD : p.Distinct) (h : install pl n p gen = .ok (rep, img)) {m : MethodInfo} {args : List (Res Ptr)}
    {types : List TypeId} {k : Nat} (hr : callMethod gen img m args types = .ok k) :
    ∃ m' ∈ p.methods, ∃ o ∈ m'.overriders, o.pf = k ∧ ∃ f, nextAt img o.next = some f ∧
      ((∃ o' ∈ m'.overriders, f = .user o'.pf) ∨ f = .notImplemented m'.id ∨ f = .ambiguous m'.id) := by
  obtain ⟨c, bases, _, C, hw, I, _, _⟩ := install_ok hv h
  unfold callMethod at hr
  rw [Res.bind_eq_ok] at hr
  obtain ⟨ss, _, hr⟩ := hr
  rw [Res.bind_eq_ok] at hr
  obtain ⟨f, hf, hr⟩ := hr
  obtain ⟨i, m', t, rs, hi, ht, T, cell, hcell, hpf⟩ := pf_word C hw (resolve_word hf)
  have hf' : f = .user k := by cases f <;> simp_all [enter]
  subst hf'
  cases cell with
  | notImplemented => simp [pfOf] at hpf
  | ambiguous => simp [pfOf] at hpf
  | ovr j =>
    simp only [pfOf, Option.map_eq_some_iff, Pf.user.injEq] at hpf
    obtain ⟨O, hO, hk⟩ := hpf
    simp only [toMeth, List.getElem?_map, Option.map_eq_some_iff] at hO
    obtain ⟨o, ho, rfl⟩ := hO
    refine ⟨m', List.mem_of_getElem? hi, o, List.mem_of_getElem? ho, hk, ?_⟩
    rw [nextAt_eq C.toCompiledBase I hD hi ht ho]
    rcases T.next_spec j with ⟨_, h2⟩ | ⟨ys, r, surv, left, surv', left', ha, _, _, hC, hS, hl, hn⟩
    · rw [T.table, List.mem_map] at hcell
      obtain ⟨r, hr, hrc⟩ := hcell
      exact absurd hrc (h2 r hr)
    · rw [hn, Option.bind_some]
      cases hc : cellFor n left' with
      | notImplemented => exact ⟨_, rfl, .inr (.inl rfl)⟩
      | ambiguous => exact ⟨_, rfl, .inr (.inr rfl)⟩
      | ovr x =>
        have hx := List.mem_of_getLast? (cellFor_ovr hc)
        have hx' := (List.mem_filter.1 (hS.sub.subset ((remainL_sublist hl).subset hx))).1
        rw [mem_setBits] at hx'
        have hlt := (List.getElem?_eq_some_iff.1 hx').1
        rw [argMask_length] at hlt
        simp only [toMeth, List.length_map] at hlt
        have hox := List.getElem?_eq_getElem hlt
        exact ⟨.user (m'.overriders[x]).pf, by simp [pfOf, toMeth_overrider hox], .inl ⟨_, List.getElem_mem hlt, rfl⟩⟩

/-! ## Chains -/

/-- One step along `next`. -/
theorem next_step (hv : p.Valid) (hD : p.Distinct) (h : install pl false p gen = .ok (rep, img)) {m : MethodInfo} (hmem : m ∈ p.methods)
    (hp : Covered p m) {o : OverriderInfo} (ho : o ∈ m.overriders) (hset : nextAt img o.next ≠ none) :
    nextAt img o.next = some (.notImplemented m.id) ∨ nextAt img o.next = some (.ambiguous m.id) ∨
    ∃ o' ∈ m.overriders, NextIs img o o' ∧ Wider p o o' ∧ nextAt img o'.next ≠ none := by
  obtain ⟨j, hj⟩ := List.getElem?_of_mem ho
  rcases next_cases hv hD h hmem hj with ⟨h1, _⟩ | ⟨ys, f, L, hy, hs, hn, hf⟩
  · exact absurd h1 hset
  obtain ⟨happ, hA⟩ := appIdx_selected hp hy hj hs
  obtain ⟨htr, hcov⟩ := hp ys hy
  generalize hr : survIdx p m ((appIdx p m ys).filter (· ≠ j)) = is at hf
  rw [hn]
  match is with
  | [] => simp only [cellOf, pfOf, Option.some.injEq] at hf; rw [← hf]; exact .inl rfl
  | _ :: _ :: _ => simp only [cellOf, pfOf, Option.some.injEq] at hf; rw [← hf]; exact .inr (.inl rfl)
  | [j'] =>
    refine .inr (.inr ?_)
    have S := survIdx_surv (p := p) m ((appIdx p m ys).filter (· ≠ j))
    rw [hr] at S
    have hj' := List.mem_filter.1 (S.sub.subset (List.mem_singleton.2 rfl))
    obtain ⟨o', ho', hA'⟩ := mem_appIdx.1 hj'.1
    have hne : j' ≠ j := by simpa using hj'.2
    simp only [cellOf, pfOf, toMeth_overrider ho', Option.map_some, Option.some.injEq] at hf
    have hdom := survIdx_dominates hs (fun x hx y hy z hz => htr x y z (mem_appIdx.1 hx) (mem_appIdx.1 hy) (mem_appIdx.1 hz)) hj'.1 hne
    obtain ⟨a, b, ha, hb, hmore⟩ := hdom
    obtain rfl := Option.some.inj (hj.symm.trans ha)
    obtain rfl := Option.some.inj (ho'.symm.trans hb)
    have hw : Wider p o o' := ⟨hcov j o hj (survIdx_expected htr hs) o' (List.mem_of_getElem? ho') hA', moreSpecific_ne hmore⟩
    refine ⟨o', List.mem_of_getElem? ho', by rw [NextIs, hn, ← hf], hw, ?_⟩
    -- `o'` is selected for its own classes
    rcases next_cases hv hD h hmem ho' with ⟨_, h2⟩ | ⟨_, _, _, _, _, h2, _⟩
    · exfalso
      obtain ⟨c, _, _, C, _, _, _, _⟩ := install_ok hv h
      have hM := C.methOk m hmem
      have hcall : Callable p m (classesOf p o'.vp) := by
        refine ⟨?_, fun x hx => ?_⟩
        · have := hM.conf o' (List.mem_of_getElem? ho')
          unfold Accepts classesOf
          rw [List.forall₂_map_left_iff, List.forall₂_map_right_iff]
          exact this.flip
        · obtain ⟨t, ht, rfl⟩ := List.mem_map.1 hx
          exact (C.lat.mem_order _).1 (hM.ovp o' (List.mem_of_getElem? ho') t ht)
      refine h2 _ hcall ?_
      have S' := survIdx_surv (p := p) m (appIdx p m (classesOf p o'.vp))
      refine S'.best (appIdx_nodup _ _ _) (domB_asymm p m) (mem_appIdx.2 ⟨o', ho', Accepts.refl' _⟩) ?_ (domB_irrefl p m j')
      intro k hk hkj
      obtain ⟨b, hb, hB⟩ := mem_appIdx.1 hk
      refine domB_iff.2 (survIdx_dominates hr ?_ ?_ hkj)
      · intro x hx y hy z hz
        exact htr x y z (mem_appIdx.1 (List.mem_filter.1 hx).1) (mem_appIdx.1 (List.mem_filter.1 hy).1) (mem_appIdx.1 (List.mem_filter.1 hz).1)
      · refine List.mem_filter.2 ⟨mem_appIdx.2 ⟨b, hb, Accepts.trans' hB hA'⟩, ?_⟩
        simp only [ne_eq, decide_not, Bool.not_eq_true', decide_eq_false_iff_not]
        rintro rfl
        obtain rfl := Option.some.inj (hj.symm.trans hb)
        exact hw.2 (classesOf_antisymm hv.acyclic hB hw.1)
    · rw [h2]; simp

/-- The choice among the overriders with the indices `is`. -/
theorem survIdx_best {m : MethodInfo} {is : List Nat} (hnd : is.Nodup)
    (htr : ∀ x ∈ is, ∀ y ∈ is, ∀ z ∈ is, Dominates p m x y → Dominates p m y z → Dominates p m x z) (hex : ∀ i ∈ is, ∃ o, m.overriders[i]? = some o) {L : Lattice} {f : Pf}
    (hf : pfOf (toMeth p.rtti L m) (cellOf (survIdx p m is)) = some f) :
    ∃ r, Best (· ∈ is) (Dominates p m) r ∧ (∀ types, Does m (enter f types) r) ∧ ((∃ i o, r = .run i ∧ m.overriders[i]? = some o ∧ f = .user o.pf) ∨
      r = .noOverrider ∧ f = .notImplemented m.id ∨ r = .ambiguous ∧ f = .ambiguous m.id) := by
  have S := survIdx_surv (p := p) m is
  have hm : ∀ i, i ∈ survIdx p m is ↔ i ∈ is ∧ ∀ j ∈ is, ¬ Dominates p m j i := by
    intro i
    rw [S.mem_iff (domB_irrefl p m) fun x hx y hy z hz h1 h2 => domB_iff.2 (htr x hx y hy z hz (domB_iff.1 h1) (domB_iff.1 h2))]
    simp only [domB_false]
  have hnd' := S.sub.nodup hnd
  have hne := S.nonempty
  generalize survIdx p m is = js at *
  match js with
  | [] =>
    simp only [cellOf, pfOf, Option.some.injEq] at hf
    subst hf
    refine ⟨.noOverrider, fun i hi => ?_, fun types => ⟨_, _, rfl⟩, .inr (.inl ⟨rfl, rfl⟩)⟩
    exact hne (List.ne_nil_of_mem hi) rfl
  | [i] =>
    have hi := (hm i).1 (by simp)
    obtain ⟨o, ho⟩ := hex i hi.1
    simp only [cellOf, pfOf, toMeth_overrider ho, Option.map_some, Option.some.injEq] at hf
    subst hf
    exact ⟨.run i, ⟨hi, fun j hj h => by simpa using (hm j).2 ⟨hj, h⟩⟩, fun types => ⟨o, ho, rfl⟩, .inl ⟨i, o, rfl, ho, rfl⟩⟩
  | i :: j :: l =>
    simp only [cellOf, pfOf, Option.some.injEq] at hf
    subst hf
    refine ⟨.ambiguous, ⟨⟨i, ((hm i).1 (by simp)).1⟩, ?_⟩, fun types => ⟨_, _, rfl⟩, .inr (.inr ⟨rfl, rfl⟩)⟩
    rintro ⟨k, _, hk⟩
    have h1 := (hm i).1 (by simp)
    have h2 := (hm j).1 (by simp)
    rw [hk i h1.1 h1.2, hk j h2.1 h2.2] at hnd'
    simp at hnd'

theorem Spec.Best.congr {A B : Nat → Prop} {more : Nat → Nat → Prop} (h : ∀ i, A i ↔ B i) (r : Outcome) : Best A more r ↔ Best B more r := by
  rw [show A = B from funext fun i => propext (h i)]

/-- `next` of an overrider that was entered, directly or by `next`, is the next most specialised one. -/
theorem next_expected (hv : p.Valid) (hD : p.Distinct) (h : install pl false p gen = .ok (rep, img)) {m : MethodInfo} (hmem : m ∈ p.methods)
    (hp : Nested p m) {j : Nat} {o : OverriderInfo} (ho : m.overriders[j]? = some o) (hset : nextAt img o.next ≠ none) {xs : List Cls} (hx : Callable p m xs)
    (hA : Applicable p o xs) :
    ∃ f r, nextAt img o.next = some f ∧ NextExpected p m xs j r ∧ (∀ types, Does m (enter f types) r) ∧
      ((∃ i o', r = .run i ∧ m.overriders[i]? = some o' ∧ f = .user o'.pf ∧ Applicable p o' xs ∧ nextAt img o'.next ≠ none) ∨
        r = .noOverrider ∧ f = .notImplemented m.id ∨ r = .ambiguous ∧ f = .ambiguous m.id) := by
  have hc := hp.covered hv.acyclic
  rcases next_cases hv hD h hmem ho with ⟨h1, _⟩ | ⟨ys, f, L, hy, hs, hn, hf⟩
  · exact absurd h1 hset
  obtain ⟨happ, _⟩ := appIdx_selected hc hy ho hs
  obtain ⟨htr, _⟩ := hc ys hy
  obtain ⟨r, h1, h2, h3⟩ := survIdx_best ((appIdx_nodup p m ys).filter _)
    (fun x hx y hy z hz => htr x y z (mem_appIdx.1 (List.mem_filter.1 hx).1) (mem_appIdx.1 (List.mem_filter.1 hy).1) (mem_appIdx.1 (List.mem_filter.1 hz).1))
    (fun i hi => by obtain ⟨o, ho, _⟩ := mem_appIdx.1 (List.mem_filter.1 hi).1; exact ⟨o, ho⟩) hf
  have hA' : ∀ k, k ∈ (appIdx p m ys).filter (· ≠ j) ↔ ApplicableAt p m xs k ∧ Dominates p m j k := by
    intro k
    rw [List.mem_filter]
    constructor
    · rintro ⟨hk, hne⟩
      simp only [ne_eq, decide_not, Bool.not_eq_true', decide_eq_false_iff_not] at hne
      refine ⟨?_, survIdx_dominates hs (fun x hx y hy z hz => htr x y z (mem_appIdx.1 hx) (mem_appIdx.1 hy) (mem_appIdx.1 hz)) hk hne⟩
      rw [happ] at hk
      obtain ⟨b, hb, hB⟩ := mem_appIdx.1 hk
      exact ⟨b, hb, Accepts.trans' hB hA⟩
    · rintro ⟨⟨b, hb, hB⟩, a, b', ha, hb', hm⟩
      obtain rfl := Option.some.inj (hb.symm.trans hb')
      obtain rfl := Option.some.inj (ho.symm.trans ha)
      refine ⟨?_, ?_⟩
      · rw [happ]
        exact mem_appIdx.2 ⟨b, hb, hp xs hx _ (List.mem_of_getElem? ho) _ (List.mem_of_getElem? hb) hA hB hm⟩
      · simp only [ne_eq, decide_not, Bool.not_eq_true', decide_eq_false_iff_not]
        rintro rfl
        obtain rfl := Option.some.inj (ho.symm.trans hb)
        exact moreSpecific_ne hm rfl
  refine ⟨f, r, hn, (Best.congr hA' r).1 h1, h2, h3.imp_left ?_⟩
  rintro ⟨i, o', rfl, ho', rfl⟩
  have hi := (hA' i).1 h1.1.1
  obtain ⟨⟨o1, ho1, hA1⟩, _⟩ := hi
  obtain rfl := Option.some.inj (ho'.symm.trans ho1)
  refine ⟨i, o', rfl, ho', rfl, hA1, ?_⟩
  rcases next_step hv hD h hmem hc (List.mem_of_getElem? ho) hset with e | e | ⟨o2, ho2, e, _, hset2⟩
  · rw [hn] at e; cases e
  · rw [hn] at e; cases e
  · rw [NextIs, hn] at e
    simp only [Option.some.injEq, Pf.user.injEq] at e
    obtain ⟨k, hk⟩ := List.getElem?_of_mem ho2
    obtain ⟨_, _, rfl⟩ := hD.index hmem hmem ho' hk e
    exact hset2

/-- For the overrider that a call runs, the next most specialised overrider is the one that would be called if it were not present. -/
theorem nextExpected_removed {m : MethodInfo} {xs : List Cls} (ht : TransitiveAt p m xs) {i : Nat} (h : Expected p m xs (.run i)) (r : Outcome) :
    NextExpected p m xs i r ↔ Best (fun j => ApplicableAt p m xs j ∧ j ≠ i) (Dominates p m) r := by
  refine Best.congr (fun j => and_congr_right fun hj => ⟨?_, expected_dominates ht h hj⟩) r
  rintro h' rfl
  exact dominates_irrefl m j h'

theorem Ends.mono {m : MethodInfo} {a b : Nat} {o : OverriderInfo} (h : Ends img m a o) (hab : a ≤ b) : Ends img m b o := by
  induction h generalizing b with
  | error k h1 h2 =>
    obtain ⟨b, rfl⟩ : ∃ b', b = b' + 1 := ⟨b - 1, by omega⟩
    exact .error b h1 h2
  | step h1 h2 _ ih =>
    obtain ⟨b, rfl⟩ : ∃ b', b = b' + 1 := ⟨b - 1, by omega⟩
    exact .step h1 h2 (ih (by omega))

open Classical in
theorem next_ends (hv : p.Valid) (hD : p.Distinct) (h : install pl false p gen = .ok (rep, img)) {m : MethodInfo} (hmem : m ∈ p.methods)
    (hp : Covered p m) {o : OverriderInfo} (ho : o ∈ m.overriders) (hset : nextAt img o.next ≠ none) :
    Ends img m m.overriders.length o := by
  let up : OverriderInfo → Finset OverriderInfo := fun o => m.overriders.toFinset.filter (Wider p o)
  have key : ∀ (k : Nat) (o : OverriderInfo), (up o).card = k → o ∈ m.overriders → nextAt img o.next ≠ none → Ends img m (k + 1) o := by
    intro k
    induction k using Nat.strong_induction_on with
    | _ k ih =>
      intro o hk ho hset
      rcases next_step hv hD h hmem hp ho hset with h1 | h1 | ⟨o', ho', h1, hw, h2⟩
      · exact .error k h1 (.inl rfl)
      · exact .error k h1 (.inr rfl)
      · have hlt : (up o').card < k := by
          rw [← hk]
          refine Finset.card_lt_card (Finset.ssubset_iff_of_subset ?_ |>.2 ⟨o', ?_, ?_⟩)
          · intro x hx
            rw [Finset.mem_filter] at hx ⊢
            exact ⟨hx.1, hw.trans hv.acyclic hx.2⟩
          · exact Finset.mem_filter.2 ⟨List.mem_toFinset.2 ho', hw⟩
          · exact fun hx => (Finset.mem_filter.1 hx).2.2 rfl
        exact .step h1 ho' ((ih _ hlt o' rfl ho' h2).mono hlt)
  refine (key _ o rfl ho hset).mono ?_
  have hlt : (up o).card < m.overriders.toFinset.card := by
    refine Finset.card_lt_card (Finset.ssubset_iff_of_subset (Finset.filter_subset _ _) |>.2 ⟨o, List.mem_toFinset.2 ho, ?_⟩)
    exact fun hx => (Finset.mem_filter.1 hx).2.2 rfl
  exact Nat.lt_of_lt_of_le hlt (List.toFinset_card_le _)

end OpenMethod

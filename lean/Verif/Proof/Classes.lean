import Verif.Model.Classes
import Verif.Proof.ListLemmas
import Verif.Spec
import Mathlib.Data.List.Nodup
import Mathlib.Data.List.Dedup
import Mathlib.Data.List.Sublists

/-! # Lemmas on `augment_classes` -/

namespace OpenMethod
open Spec Relation

/-! ## First loop -/

structure Pass1 (r : Rtti) (classes : List ClassInfo) (s : Lattice) : Prop where
  mem_order : ∀ c, c ∈ s.order ↔ ∃ cr ∈ classes, r.ti cr.type = c
  nodup : s.order.Nodup
  mem_typeIds : ∀ c t, t ∈ s.typeIds c ↔ (∃ cr ∈ classes, cr.type = t) ∧ r.ti t = c
  nodup_typeIds : ∀ c, (s.typeIds c).Nodup
  tb : s.tb = fun _ => []

theorem pass1 (r : Rtti) (classes : List ClassInfo) : Pass1 r classes (classes.foldl (addClass r) Lattice.empty) := by
  refine foldl_inv_prefix (fun pre s => Pass1 r pre s) (addClass r) classes _ ?_ ?_
  · constructor <;> simp [Lattice.empty]
  · intro pre cr post s _ h
    have ho : (addClass r s cr).order = if r.ti cr.type ∈ s.order then s.order else s.order ++ [r.ti cr.type] := by
      unfold addClass; dsimp only; split <;> split <;> simp_all
    have ht : (addClass r s cr).typeIds =
        if cr.type ∈ s.typeIds (r.ti cr.type) then s.typeIds
        else Function.update s.typeIds (r.ti cr.type) (s.typeIds (r.ti cr.type) ++ [cr.type]) := by
      unfold addClass; dsimp only; split <;> split <;> simp_all
    have htb : (addClass r s cr).tb = s.tb := by
      unfold addClass; dsimp only; split <;> split <;> simp_all
    constructor
    · intro c
      rw [ho]
      split
      · rename_i hin
        rw [h.mem_order]
        constructor
        · rintro ⟨x, hx, rfl⟩; exact ⟨x, by simp [hx], rfl⟩
        · rintro ⟨x, hx, rfl⟩
          simp only [List.mem_append, List.mem_singleton] at hx
          rcases hx with hx | rfl
          · exact ⟨x, hx, rfl⟩
          · exact (h.mem_order _).1 hin
      · simp only [List.mem_append, List.mem_singleton, h.mem_order]
        constructor
        · rintro (⟨x, hx, rfl⟩ | rfl)
          · exact ⟨x, .inl hx, rfl⟩
          · exact ⟨cr, .inr rfl, rfl⟩
        · rintro ⟨x, hx | rfl, rfl⟩
          · exact .inl ⟨x, hx, rfl⟩
          · exact .inr rfl
    · rw [ho]
      split
      · exact h.nodup
      · rw [List.nodup_append]
        exact ⟨h.nodup, by simp, by rintro a ha b hb rfl; simp at hb; subst hb; contradiction⟩
    · intro c t
      rw [ht]
      split
      · rename_i hin
        rw [h.mem_typeIds]
        constructor
        · rintro ⟨⟨x, hx, rfl⟩, h2⟩; exact ⟨⟨x, by simp [hx], rfl⟩, h2⟩
        · rintro ⟨⟨x, hx, rfl⟩, h2⟩
          simp only [List.mem_append, List.mem_singleton] at hx
          rcases hx with hx | rfl
          · exact ⟨⟨x, hx, rfl⟩, h2⟩
          · exact ⟨((h.mem_typeIds _ _).1 hin).1, h2⟩
      · by_cases hc : c = r.ti cr.type
        · subst hc
          simp only [Function.update_self, List.mem_append, List.mem_singleton, h.mem_typeIds]
          constructor
          · rintro (⟨⟨x, hx, rfl⟩, h2⟩ | rfl)
            · exact ⟨⟨x, .inl hx, rfl⟩, h2⟩
            · exact ⟨⟨cr, .inr rfl, rfl⟩, rfl⟩
          · rintro ⟨⟨x, hx | rfl, rfl⟩, h2⟩
            · exact .inl ⟨⟨x, hx, rfl⟩, h2⟩
            · exact .inr rfl
        · rw [Function.update_of_ne hc, h.mem_typeIds]
          constructor
          · rintro ⟨⟨x, hx, rfl⟩, h2⟩; exact ⟨⟨x, by simp [hx], rfl⟩, h2⟩
          · rintro ⟨⟨x, hx, rfl⟩, h2⟩
            simp only [List.mem_append, List.mem_singleton] at hx
            rcases hx with hx | rfl
            · exact ⟨⟨x, hx, rfl⟩, h2⟩
            · exact absurd h2.symm hc
    · intro c
      rw [ht]
      split
      · exact h.nodup_typeIds c
      · by_cases hc : c = r.ti cr.type
        · subst hc
          rw [Function.update_self, List.nodup_append]
          exact ⟨h.nodup_typeIds _, by simp, by rintro a ha b hb rfl; simp at hb; subst hb; contradiction⟩
        · rw [Function.update_of_ne hc]; exact h.nodup_typeIds c
    · rw [htb, h.tb]

/-! ## `collect_transitive_bases` -/

theorem collect_mono (tb : Cls → List Cls) (fuel : Nat) (acc : List Cls) (b x : Cls) (hx : x ∈ acc) :
    x ∈ collect tb fuel acc b := by
  induction fuel generalizing acc b with
  | zero => exact hx
  | succ n ih =>
    unfold collect
    split
    · exact hx
    · exact foldl_inv (fun a => x ∈ a) _ _ _ (by simp [hx]) (fun a y _ ha => ih a y ha)

theorem collect_self (tb : Cls → List Cls) (fuel : Nat) (acc : List Cls) (b : Cls) :
    b ∈ collect tb (fuel + 1) acc b := by
  unfold collect
  split
  · assumption
  · exact foldl_inv (fun a => b ∈ a) _ _ _ (by simp) (fun a y _ ha => collect_mono tb _ a y b ha)

/-- The traversal reaches the already collected bases of the class it starts from. -/
theorem collect_bases (tb : Cls → List Cls) (fuel : Nat) (acc : List Cls) (b x : Cls) (hb : b ∉ acc) (hx : x ∈ tb b) :
    x ∈ collect tb (fuel + 2) acc b := by
  unfold collect
  rw [if_neg hb]
  have key : ∀ (l : List Cls) (a : List Cls), x ∈ l → x ∈ l.foldl (collect tb (fuel + 1)) a := by
    intro l
    induction l with
    | nil => simp
    | cons y l ih =>
      intro a hx
      simp only [List.foldl_cons]
      rcases List.mem_cons.1 hx with rfl | hx
      · exact foldl_inv (fun a => x ∈ a) _ _ _ (collect_self tb _ a x) (fun a y _ ha => collect_mono tb _ a y x ha)
      · exact ih _ hx
  exact key _ _ hx

theorem collect_sound (tb : Cls → List Cls) (fuel : Nat) (acc : List Cls) (b x : Cls) (hx : x ∈ collect tb fuel acc b) :
    x ∈ acc ∨ ReflTransGen (fun u v => v ∈ tb u) b x := by
  induction fuel generalizing acc b with
  | zero => exact .inl hx
  | succ n ih =>
    unfold collect at hx
    split at hx
    · exact .inl hx
    · revert hx
      refine foldl_inv (fun a => x ∈ a → x ∈ acc ∨ ReflTransGen (fun u v => v ∈ tb u) b x) _ _ _ ?_ ?_
      · intro h
        simp only [List.mem_append, List.mem_singleton] at h
        rcases h with h | rfl
        · exact .inl h
        · exact .inr .refl
      · intro a y hy ha h
        rcases ih a y h with h | h
        · exact ha h
        · exact .inr (.head hy h)

theorem collect_nodup (tb : Cls → List Cls) (fuel : Nat) (acc : List Cls) (b : Cls) (h : acc.Nodup) :
    (collect tb fuel acc b).Nodup := by
  induction fuel generalizing acc b with
  | zero => exact h
  | succ n ih =>
    unfold collect
    split
    · exact h
    · rename_i hb
      refine foldl_inv (fun a => a.Nodup) _ _ _ ?_ (fun a y _ ha => ih a y ha)
      rw [List.nodup_append]
      exact ⟨h, by simp, by rintro a ha b' hb' rfl; simp at hb'; subst hb'; contradiction⟩

/-- The accumulator only grows at its end. -/
theorem collect_prefix (tb : Cls → List Cls) (fuel : Nat) (acc : List Cls) (b : Cls) :
    acc <+: collect tb fuel acc b := by
  induction fuel generalizing acc b with
  | zero => exact List.prefix_rfl
  | succ n ih =>
    unfold collect
    split
    · exact List.prefix_rfl
    · exact foldl_inv (fun a => acc <+: a) _ _ _ (List.prefix_append _ _) (fun a y _ ha => ha.trans (ih a y))

/-- The recursion bound is not a restriction: with as much fuel as there are classes left to visit, more fuel changes
nothing. `univ` is the list of all classes. -/
theorem collect_fuel (tb : Cls → List Cls) (univ : List Cls) (htb : ∀ c ∈ univ, ∀ x ∈ tb c, x ∈ univ)
    (fuel : Nat) (acc : List Cls) (b : Cls) (hb : b ∈ univ) (hacc : ∀ x ∈ acc, x ∈ univ) (hnd : acc.Nodup)
    (hf : univ.length ≤ fuel + acc.length) :
    collect tb (fuel + 1) acc b = collect tb fuel acc b := by
  induction fuel generalizing acc b with
  | zero =>
    have hin : b ∈ acc := by
      by_contra hni
      have hnd' : (b :: acc).Nodup := List.nodup_cons.2 ⟨hni, hnd⟩
      have hsub : (b :: acc) ⊆ univ := by
        intro x hx; rcases List.mem_cons.1 hx with rfl | hx
        · exact hb
        · exact hacc _ hx
      have := (hnd'.subperm hsub).length_le
      simp at this; omega
    simp [collect, hin]
  | succ n ih =>
    rw [show collect tb (n + 1 + 1) acc b = if b ∈ acc then acc else (tb b).foldl (collect tb (n + 1)) (acc ++ [b])
      from rfl, show collect tb (n + 1) acc b = if b ∈ acc then acc else (tb b).foldl (collect tb n) (acc ++ [b]) from rfl]
    split
    · rfl
    · rename_i hni
      have key : ∀ (l : List Cls) (a : List Cls), (∀ y ∈ l, y ∈ univ) → (∀ x ∈ a, x ∈ univ) → a.Nodup →
          univ.length ≤ n + a.length → l.foldl (collect tb (n + 1)) a = l.foldl (collect tb n) a := by
        intro l
        induction l with
        | nil => intros; rfl
        | cons y l ihl =>
          intro a hl ha hnda hfa
          simp only [List.foldl_cons]
          rw [ih a y (hl y (by simp)) ha hnda hfa]
          apply ihl _ (fun z hz => hl z (by simp [hz])) _ (collect_nodup tb n a y hnda)
          · have := (collect_prefix tb n a y).length_le; omega
          · intro x hx
            rcases collect_sound tb n a y x hx with h | h
            · exact ha x h
            · have hy := hl y (by simp)
              clear hx
              induction h with
              | refl => exact hy
              | tail _ hbc ihh => exact htb _ ihh _ hbc
      refine key _ _ (htb b hb) ?_ ?_ ?_
      · intro x hx
        simp only [List.mem_append, List.mem_singleton] at hx
        rcases hx with hx | rfl
        · exact hacc x hx
        · exact hb
      · rw [List.nodup_append]
        exact ⟨hnd, by simp, by rintro a ha b' hb' rfl; simp at hb'; subst hb'; contradiction⟩
      · simp; omega

/-! ## Second loop -/

/-- State after the second loop has processed the records `pre`. -/
structure Pass2 (p : Program) (s0 : Lattice) (pre : List ClassInfo) (s : Lattice) : Prop where
  same : s = { s0 with tb := s.tb }
  sound : ∀ c x, x ∈ s.tb c → TransGen (DeclaredBase p) c x
  declared : ∀ cr ∈ pre, ∀ t ∈ cr.bases, p.rtti.ti cr.type ≠ p.rtti.ti t → p.rtti.ti t ∈ s.tb (p.rtti.ti cr.type)
  known : ∀ cr ∈ pre, ∀ t ∈ cr.bases, p.rtti.ti t ∈ s0.order

theorem addBase_ok {r : Rtti} {c : Cls} {s s' : Lattice} {t : TypeId} (h : addBase r c s t = .ok s') :
    r.ti t ∈ s.order ∧ s' = { s with tb := s'.tb } ∧
    ((c = r.ti t ∧ s' = s) ∨
     (c ≠ r.ti t ∧ s'.tb = Function.update s.tb c (s.tb c ++ collect s.tb (s.order.length + 1) [] (r.ti t)))) := by
  unfold addBase at h
  dsimp only at h
  split at h
  · cases h
  · rename_i hin
    split at h
    · rename_i hc
      cases h
      exact ⟨by simpa using hin, rfl, .inl ⟨hc, rfl⟩⟩
    · rename_i hc
      cases h
      exact ⟨by simpa using hin, rfl, .inr ⟨hc, rfl⟩⟩

theorem reflTransGen_tb {p : Program} {tb : Cls → List Cls} (h : ∀ c x, x ∈ tb c → TransGen (DeclaredBase p) c x)
    {b x : Cls} (hx : ReflTransGen (fun u v => v ∈ tb u) b x) : ReflTransGen (DeclaredBase p) b x := by
  induction hx with
  | refl => exact .refl
  | tail _ hbc ih => exact ih.trans (h _ _ hbc).to_reflTransGen

theorem pass2_step {p : Program} {s0 s s' : Lattice} {pre : List ClassInfo} {cr : ClassInfo}
    (hcr : cr ∈ p.classes) (h : Pass2 p s0 pre s) (hs : addBases p.rtti s cr = .ok s') :
    Pass2 p s0 (pre ++ [cr]) s' ∧ ∀ c, s.tb c ⊆ s'.tb c := by
  have key := foldlM_inv_prefix
    (fun (ts : List TypeId) (u : Lattice) =>
      u = { s0 with tb := u.tb } ∧ (∀ c x, x ∈ u.tb c → TransGen (DeclaredBase p) c x) ∧
      (∀ c, s.tb c ⊆ u.tb c) ∧
      (∀ t ∈ ts, p.rtti.ti cr.type ≠ p.rtti.ti t → p.rtti.ti t ∈ u.tb (p.rtti.ti cr.type)) ∧
      (∀ t ∈ ts, p.rtti.ti t ∈ s0.order))
    (addBase p.rtti (p.rtti.ti cr.type)) cr.bases s s' hs
    ⟨h.same, h.sound, fun _ => List.Subset.refl _, by simp, by simp⟩ ?_
  · obtain ⟨h1, h2, h3, h4, h5⟩ := key
    refine ⟨⟨h1, h2, ?_, ?_⟩, h3⟩
    · intro cr' hcr' t ht hne
      rcases List.mem_append.1 hcr' with hp | hp
      · exact h3 _ (h.declared cr' hp t ht hne)
      · simp at hp; subst hp; exact h4 t ht hne
    · intro cr' hcr' t ht
      rcases List.mem_append.1 hcr' with hp | hp
      · exact h.known cr' hp t ht
      · simp at hp; subst hp; exact h5 t ht
  · rintro ts t post u u' hts ⟨g1, g2, g3, g4, g5⟩ hu
    obtain ⟨hin, hsame, hcase⟩ := addBase_ok hu
    have horder : u.order = s0.order := by rw [g1]
    have hsame' : u' = { s0 with tb := u'.tb } := by rw [hsame]; simp only; rw [g1]
    have htin : t ∈ cr.bases := by rw [hts]; simp
    refine ⟨hsame', ?_, ?_, ?_, ?_⟩
    · intro c x hx
      rcases hcase with ⟨_, rfl⟩ | ⟨hne, htb⟩
      · exact g2 c x hx
      · rw [htb] at hx
        by_cases hc : c = p.rtti.ti cr.type
        · subst hc
          rw [Function.update_self, List.mem_append] at hx
          rcases hx with hx | hx
          · exact g2 _ _ hx
          · rcases collect_sound _ _ _ _ _ hx with hx | hx
            · simp at hx
            · refine TransGen.head' (b := p.rtti.ti t) ?_ (reflTransGen_tb g2 hx)
              exact ⟨cr, hcr, rfl, t, htin, rfl, hne⟩
        · rw [Function.update_of_ne hc] at hx; exact g2 c x hx
    · intro c x hx
      have hx' := g3 c hx
      rcases hcase with ⟨_, rfl⟩ | ⟨hne, htb⟩
      · exact hx'
      · rw [htb]
        by_cases hc : c = p.rtti.ti cr.type
        · subst hc; rw [Function.update_self]; exact List.mem_append_left _ hx'
        · rw [Function.update_of_ne hc]; exact hx'
    · intro t' ht' hne'
      rcases List.mem_append.1 ht' with ht' | ht'
      · have hx' := g4 t' ht' hne'
        rcases hcase with ⟨_, rfl⟩ | ⟨hne, htb⟩
        · exact hx'
        · rw [htb, Function.update_self]; exact List.mem_append_left _ hx'
      · simp at ht'; subst ht'
        rcases hcase with ⟨hc, _⟩ | ⟨hne, htb⟩
        · exact absurd hc hne'
        · rw [htb, Function.update_self]; exact List.mem_append_right _ (collect_self _ _ _ _)
    · intro t' ht'
      rcases List.mem_append.1 ht' with ht' | ht'
      · exact g5 t' ht'
      · simp at ht'; subst ht'; rw [← horder]; exact hin

theorem pass2 {p : Program} {s0 s : Lattice} (h0 : s0.tb = fun _ => [])
    (h : p.classes.foldlM (addBases p.rtti) s0 = .ok s) : Pass2 p s0 p.classes s := by
  refine foldlM_inv_prefix (fun pre s => Pass2 p s0 pre s) _ p.classes s0 s h ?_ ?_
  · exact ⟨rfl, by simp [h0], by simp, by simp⟩
  · intro pre cr post u u' hl hu hstep
    exact (pass2_step (by rw [hl]; simp) hu hstep).1

/-! ## Removal of duplicates, direct bases -/

theorem mem_insertAll (s l : List Cls) (x : Cls) : x ∈ insertAll s l ↔ x ∈ s ∨ x ∈ l := by
  unfold insertAll
  induction l generalizing s with
  | nil => simp
  | cons a l ih =>
    simp only [List.foldl_cons, ih]
    split
    · rename_i h
      constructor
      · rintro (hs | hl)
        · exact .inl hs
        · exact .inr (by simp [hl])
      · rintro (hs | hl)
        · exact .inl hs
        · rcases List.mem_cons.1 hl with rfl | hl
          · exact .inl h
          · exact .inr hl
    · simp only [List.mem_append, List.mem_cons, List.not_mem_nil, or_false]
      tauto

theorem nodup_insertAll (s l : List Cls) (hs : s.Nodup) : (insertAll s l).Nodup := by
  unfold insertAll
  refine foldl_inv (fun (a : List Cls) => a.Nodup) _ l s hs ?_
  intro a x _ ha
  split
  · exact ha
  · rw [List.nodup_append]
    exact ⟨ha, by simp, by rintro a ha b' hb' rfl; simp at hb'; subst hb'; contradiction⟩

theorem dedup_eq (l : List Cls) : OpenMethod.dedup l = insertAll [] l := rfl

@[simp] theorem mem_dedup (l : List Cls) (x : Cls) : x ∈ OpenMethod.dedup l ↔ x ∈ l := by
  rw [dedup_eq, mem_insertAll]; simp

theorem nodup_dedup (l : List Cls) : (OpenMethod.dedup l).Nodup := by
  rw [dedup_eq]; exact nodup_insertAll _ _ (by simp)

structure ScanInv (tb : Cls → List Cls) (pre : List Cls) (s : List Cls × List Cls) : Prop where
  sub : ∀ x ∈ s.2, x ∈ pre
  marked : ∀ x, x ∈ s.1 ↔ ∃ b ∈ s.2, x ∈ tb b
  cover : ∀ x ∈ pre, x ∈ s.2 ∨ ∃ b ∈ s.2, x ∈ tb b
  sublist : s.2.Sublist pre

theorem directScan_inv (tb : Cls → List Cls) (l : List Cls) : ScanInv tb l (directScan tb l) := by
  unfold directScan
  refine foldl_inv_prefix (fun pre s => ScanInv tb pre s) _ l _ ?_ ?_
  · constructor <;> simp
  · intro pre b post s _ h
    split
    · rename_i hm
      refine ⟨fun x hx => List.mem_append_left _ (h.sub x hx), h.marked, ?_, ?_⟩
      · intro x hx
        rcases List.mem_append.1 hx with hx | hx
        · exact h.cover x hx
        · simp at hx; subst hx; exact .inr ((h.marked x).1 hm)
      · exact h.sublist.trans (List.sublist_append_left _ _)
    · refine ⟨?_, ?_, ?_, ?_⟩
      · intro x hx
        simp only [List.mem_append, List.mem_singleton] at hx ⊢
        exact hx.imp (h.sub x) id
      · intro x
        simp only [List.mem_append, List.mem_singleton, h.marked]
        constructor
        · rintro (⟨b', hb', hx⟩ | hx)
          · exact ⟨b', .inl hb', hx⟩
          · exact ⟨b, .inr rfl, hx⟩
        · rintro ⟨b', hb' | rfl, hx⟩
          · exact .inl ⟨b', hb', hx⟩
          · exact .inr hx
      · intro x hx
        simp only [List.mem_append, List.mem_singleton] at hx ⊢
        rcases hx with hx | rfl
        · rcases h.cover x hx with h' | ⟨b', hb', h'⟩
          · exact .inl (.inl h')
          · exact .inr ⟨b', .inl hb', h'⟩
        · exact .inl (.inr rfl)
      · exact h.sublist.append (List.Sublist.refl [b])

/-! ## Direct derived classes -/

theorem mem_directDerived (order : List Cls) (db : Cls → List Cls) (b d : Cls) :
    d ∈ directDerived order db b ↔ d ∈ order ∧ b ∈ db d := by
  unfold directDerived
  have key := foldl_inv_prefix
    (fun (pre : List Cls) (dd : Cls → List Cls) => ∀ b d, d ∈ dd b ↔ d ∈ pre ∧ b ∈ db d)
    (fun dd c => (db c).foldl (fun dd b => Function.update dd b (dd b ++ [c])) dd) order (fun _ => []) (by simp) ?_
  · exact key b d
  · intro pre c post dd _ h
    have := foldl_inv_prefix
      (fun (bs : List Cls) (dd' : Cls → List Cls) => ∀ b d, d ∈ dd' b ↔ (d ∈ pre ∧ b ∈ db d) ∨ (d = c ∧ b ∈ bs))
      (fun dd b => Function.update dd b (dd b ++ [c])) (db c) dd (by simpa using h) ?_
    · intro b d
      rw [this b d]
      simp only [List.mem_append, List.mem_singleton]
      constructor
      · rintro (h | ⟨rfl, h⟩)
        · exact ⟨.inl h.1, h.2⟩
        · exact ⟨.inr rfl, h⟩
      · rintro ⟨h | rfl, h'⟩
        · exact .inl ⟨h, h'⟩
        · exact .inr ⟨rfl, h'⟩
    · intro bs b' post' dd' _ h' b d
      by_cases hb : b = b'
      · subst hb
        simp only [Function.update_self, List.mem_append, List.mem_singleton, h' b d]
        tauto
      · rw [Function.update_of_ne hb, h' b d]
        simp only [List.mem_append, List.mem_singleton, hb, or_false]

/-! ## Ranks from acyclicity -/

/-- Acyclic declared inheritance on a finite set of classes has a height function. -/
theorem exists_rank {p : Program} {univ : List Cls} (hac : Acyclic p)
    (huniv : ∀ d b, DeclaredBase p d b → b ∈ univ) :
    ∃ r : Cls → Nat, (∀ d b, DeclaredBase p d b → r b < r d) ∧ ∀ c, r c ≤ univ.length := by
  classical
  refine ⟨fun c => (univ.dedup.filter (fun x => decide (TransGen (DeclaredBase p) c x))).length, ?_, ?_⟩
  · intro d b hdb
    have hirr : ¬ TransGen (DeclaredBase p) b b := by
      intro h
      obtain ⟨y, hby, hyb⟩ := (TransGen.head'_iff).1 h
      obtain ⟨_, _, _, _, _, _, hne⟩ := id hby
      exact hne (hac _ _ (.single hby) hyb)
    have hnd : (univ.dedup.filter (fun x => decide (TransGen (DeclaredBase p) b x))).Nodup :=
      (List.nodup_dedup _).filter _
    have hnd' : (b :: univ.dedup.filter (fun x => decide (TransGen (DeclaredBase p) b x))).Nodup := by
      rw [List.nodup_cons]; exact ⟨by simp [hirr], hnd⟩
    have hsub : (b :: univ.dedup.filter (fun x => decide (TransGen (DeclaredBase p) b x))) ⊆
        univ.dedup.filter (fun x => decide (TransGen (DeclaredBase p) d x)) := by
      intro x hx
      rcases List.mem_cons.1 hx with rfl | hx
      · simp [huniv _ _ hdb, TransGen.single hdb]
      · simp at hx ⊢
        exact ⟨hx.1, TransGen.head hdb hx.2⟩
    have := (hnd'.subperm hsub).length_le
    rw [List.length_cons] at this
    exact this
  · intro c
    refine (List.length_filter_le _ _).trans ?_
    exact (List.dedup_sublist univ).length_le

theorem transGen_rank {p : Program} {r : Cls → Nat} (hr : ∀ d b, DeclaredBase p d b → r b < r d) {d b : Cls}
    (h : TransGen (DeclaredBase p) d b) : r b < r d := by
  induction h with
  | single h => exact hr _ _ h
  | tail _ h ih => exact (hr _ _ h).trans ih

/-! ## `calculate_transitive_derived` -/

/-- `td x` is exactly the set of classes reachable from `x`. -/
def Complete (dd td : Cls → List Cls) (x : Cls) : Prop :=
  ∀ y, y ∈ td x ↔ ReflTransGen (fun u v => v ∈ dd u) x y

theorem desc_rank {dd : Cls → List Cls} {rk : Cls → Nat} (hrk : ∀ c d, d ∈ dd c → rk d < rk c) {x y : Cls}
    (h : ReflTransGen (fun u v => v ∈ dd u) x y) : rk y ≤ rk x := by
  induction h with
  | refl => exact le_rfl
  | tail _ h ih => exact ((hrk _ _ h).le).trans ih

theorem calcDerived_spec (pl : Platform) (dd : Cls → List Cls) (rk : Cls → Nat) (hrk : ∀ c d, d ∈ dd c → rk d < rk c)
    (fuel : Nat) (td : Cls → List Cls) (c : Cls) (hf : rk c < fuel)
    (h : ∀ x, ReflTransGen (fun u v => v ∈ dd u) c x → td x ≠ [] → Complete dd td x) :
    Complete dd (calcDerived pl dd fuel td c) c ∧
    ∀ x, calcDerived pl dd fuel td c x = td x ∨
      (ReflTransGen (fun u v => v ∈ dd u) c x ∧ Complete dd (calcDerived pl dd fuel td c) x) := by
  induction fuel generalizing td c with
  | zero => omega
  | succ n ih =>
    unfold calcDerived
    by_cases hc : td c = []
    swap
    · rw [if_pos hc]
      exact ⟨h c .refl hc, fun x => .inl rfl⟩
    rw [if_neg (by simpa using hc)]
    have key := foldl_inv_prefix
      (fun (pre : List Cls) (t : Cls → List Cls) =>
        (∀ y, y ∈ t c ↔ y = c ∨ ∃ d ∈ pre, ReflTransGen (fun u v => v ∈ dd u) d y) ∧
        (∀ x, x ≠ c → t x = td x ∨ (ReflTransGen (fun u v => v ∈ dd u) c x ∧ Complete dd t x)))
      (fun td d =>
          let td := if td d = [] then calcDerived pl dd n td d else td
          Function.update td c (insertAll (td c) (pl.iter d (td d))))
      (dd c) (Function.update td c [c]) ?_ ?_
    · obtain ⟨ha, hb⟩ := key
      have hcomp : Complete dd ((dd c).foldl (fun td d =>
          let td := if td d = [] then calcDerived pl dd n td d else td
          Function.update td c (insertAll (td c) (pl.iter d (td d)))) (Function.update td c [c])) c := by
        intro y
        rw [ha y, ReflTransGen.cases_head_iff]
        constructor
        · rintro (rfl | h)
          · exact .inl rfl
          · exact .inr h
        · rintro (rfl | h)
          · exact .inl rfl
          · exact .inr h
      refine ⟨hcomp, fun x => ?_⟩
      by_cases hx : x = c
      · subst hx; exact .inr ⟨.refl, hcomp⟩
      · exact hb x hx
    · refine ⟨by simp, fun x hx => .inl (by simp [Function.update_of_ne hx])⟩
    · intro pre d post t hl ⟨ha, hb⟩
      have hd : d ∈ dd c := by rw [hl]; simp
      have hdc := hrk _ _ hd
      have hnot : ∀ x, ReflTransGen (fun u v => v ∈ dd u) d x → x ≠ c := by
        rintro x hx rfl
        have := desc_rank hrk hx; omega
      have hpre : ∀ x, ReflTransGen (fun u v => v ∈ dd u) d x → t x ≠ [] → Complete dd t x := by
        intro x hx hne
        rcases hb x (hnot x hx) with heq | ⟨_, hcm⟩
        · have : Complete dd td x := h x (.head hd hx) (by rw [← heq]; exact hne)
          intro y; rw [heq]; exact this y
        · exact hcm
      obtain ⟨hd1, hd2⟩ : Complete dd (if t d = [] then calcDerived pl dd n t d else t) d ∧
          ∀ x, (if t d = [] then calcDerived pl dd n t d else t) x = t x ∨
            (ReflTransGen (fun u v => v ∈ dd u) d x ∧ Complete dd (if t d = [] then calcDerived pl dd n t d else t) x) := by
        split
        · exact ih t d (by omega) hpre
        · rename_i hne
          exact ⟨hpre d .refl hne, fun x => .inl rfl⟩
      generalize (if t d = [] then calcDerived pl dd n t d else t) = t1 at hd1 hd2
      have hc1 : t1 c = t c := by
        rcases hd2 c with h' | ⟨h', _⟩
        · exact h'
        · exact absurd rfl (hnot c h')
      refine ⟨?_, ?_⟩
      · intro y
        simp only [Function.update_self, mem_insertAll, (pl.iter_perm d (t1 d)).mem_iff, hd1 y, hc1, ha y,
          List.mem_append, List.mem_singleton]
        constructor
        · rintro ((rfl | ⟨d', hd', h'⟩) | h')
          · exact .inl rfl
          · exact .inr ⟨d', .inl hd', h'⟩
          · exact .inr ⟨d, .inr rfl, h'⟩
        · rintro (rfl | ⟨d', hd' | rfl, h'⟩)
          · exact .inl (.inl rfl)
          · exact .inl (.inr ⟨d', hd', h'⟩)
          · exact .inr h'
      · intro x hx
        have hcm : ∀ t2 : Cls → List Cls, t2 x = t1 x → Complete dd t1 x → Complete dd t2 x := by
          intro t2 he hcp y; rw [he]; exact hcp y
        dsimp only
        have hux : Function.update t1 c (insertAll (t1 c) (pl.iter d (t1 d))) x = t1 x := Function.update_of_ne hx _ _
        rcases hd2 x with h' | ⟨h', hcp⟩
        · rcases hb x hx with h'' | ⟨h'', hcp⟩
          · exact .inl (by rw [hux, h', h''])
          · exact .inr ⟨h'', hcm _ hux (by intro y; rw [h']; exact hcp y)⟩
        · exact .inr ⟨.head hd h', hcm _ hux hcp⟩

theorem calcDerived_nodup (pl : Platform) (dd : Cls → List Cls) (fuel : Nat) (td : Cls → List Cls) (c : Cls)
    (h : ∀ x, (td x).Nodup) : ∀ x, (calcDerived pl dd fuel td c x).Nodup := by
  induction fuel generalizing td c with
  | zero => exact h
  | succ n ih =>
    unfold calcDerived
    split
    · exact h
    · refine foldl_inv (fun (t : Cls → List Cls) => ∀ x, (t x).Nodup) _ _ _ ?_ ?_
      · intro x
        by_cases hx : x = c
        · subst hx; simp
        · rw [Function.update_of_ne hx]; exact h x
      · intro t d _ ht x
        have h1 : ∀ x, ((if t d = [] then calcDerived pl dd n t d else t) x).Nodup := by
          split
          · exact ih t d ht
          · exact ht
        by_cases hx : x = c
        · subst hx
          rw [Function.update_self]
          exact nodup_insertAll _ _ (h1 x)
        · rw [Function.update_of_ne hx]; exact h1 x

theorem allDerived_spec (pl : Platform) (dd : Cls → List Cls) (rk : Cls → Nat) (hrk : ∀ c d, d ∈ dd c → rk d < rk c)
    (order : List Cls) (fuel : Nat) (hf : ∀ c, rk c < fuel) :
    ∀ c ∈ order, Complete dd (order.foldl (calcDerived pl dd fuel) (fun _ => [])) c := by
  have key := foldl_inv_prefix
    (fun (pre : List Cls) (t : Cls → List Cls) =>
      (∀ x, t x ≠ [] → Complete dd t x) ∧ ∀ x ∈ pre, Complete dd t x)
    (calcDerived pl dd fuel) order (fun _ => []) ⟨by simp, by simp⟩ ?_
  · exact key.2
  · rintro pre c post t _ ⟨h1, h2⟩
    obtain ⟨k1, k2⟩ := calcDerived_spec pl dd rk hrk fuel t c (hf c) (fun x _ hx => h1 x hx)
    refine ⟨?_, ?_⟩
    · intro x hx
      rcases k2 x with h' | ⟨_, h'⟩
      · have := h1 x (by rw [← h']; exact hx)
        intro y; rw [h']; exact this y
      · exact h'
    · intro x hx
      rcases List.mem_append.1 hx with hx | hx
      · rcases k2 x with h' | ⟨_, h'⟩
        · have := h2 x hx
          intro y; rw [h']; exact this y
        · exact h'
      · simp at hx; subst hx; exact k1

/-! ## The whole of `augment_classes` -/

/-- What `augment_classes` guarantees when it succeeds. -/
structure LatticeOk (p : Program) (L : Lattice) : Prop where
  mem_order : ∀ c, c ∈ L.order ↔ Registered p c
  nodup_order : L.order.Nodup
  mem_typeIds : ∀ c t, t ∈ L.typeIds c ↔ (∃ cr ∈ p.classes, cr.type = t) ∧ p.rtti.ti t = c
  nodup_typeIds : ∀ c, (L.typeIds c).Nodup
  declared_mem : ∀ d b, DeclaredBase p d b → d ∈ L.order ∧ b ∈ L.order
  tb_sound : ∀ c x, x ∈ L.tb c → TransGen (DeclaredBase p) c x
  tb_declared : ∀ c b, DeclaredBase p c b → b ∈ L.tb c
  tb_nodup : ∀ c, (L.tb c).Nodup
  db_sub : ∀ c x, x ∈ L.db c → x ∈ L.tb c
  db_cover : ∀ c x, x ∈ L.tb c → x ∈ L.db c ∨ ∃ b ∈ L.db c, x ∈ L.tb b
  db_nodup : ∀ c, (L.db c).Nodup
  mem_dd : ∀ b d, d ∈ L.dd b ↔ d ∈ L.order ∧ b ∈ L.db d
  derives_iff : ∀ d b, Derives p d b ↔ ReflTransGen (fun u v => v ∈ L.db u) d b
  mem_td : ∀ c ∈ L.order, ∀ x, x ∈ L.td c ↔ Derives p x c
  td_nodup : ∀ c, (L.td c).Nodup

theorem augmentClasses_ok {pl : Platform} {p : Program} {L : Lattice} (hac : Acyclic p)
    (h : augmentClasses pl p.rtti p.classes = .ok L) : LatticeOk p L := by
  unfold augmentClasses at h
  rw [Res.bind_eq_ok] at h
  obtain ⟨s, hs, h⟩ := h
  have P1 := pass1 p.rtti p.classes
  have P2 := pass2 P1.tb hs
  have hso : s.order = (p.classes.foldl (addClass p.rtti) Lattice.empty).order := by rw [P2.same]
  have hst : s.typeIds = (p.classes.foldl (addClass p.rtti) Lattice.empty).typeIds := by rw [P2.same]
  have h := Res.ok.inj h
  have hmo : ∀ c, c ∈ s.order ↔ Registered p c := by intro c; rw [hso, P1.mem_order]; rfl
  have hdm : ∀ d b, DeclaredBase p d b → d ∈ s.order ∧ b ∈ s.order := by
    rintro d b ⟨cr, hcr, rfl, t, ht, rfl, _⟩
    refine ⟨(hmo _).2 ⟨cr, hcr, rfl⟩, ?_⟩
    rw [hso]; exact P2.known cr hcr t ht
  obtain ⟨rk, hrk, hrkb⟩ := exists_rank (univ := s.order) hac (fun d b h => (hdm d b h).2)
  -- the sorted list of transitive bases has the same elements
  have hmtb : ∀ c x, x ∈ pl.sort (fun x => (OpenMethod.dedup (s.tb x)).length) (OpenMethod.dedup (s.tb c)) ↔ x ∈ s.tb c := by
    intro c x; rw [(pl.sort_perm _ _).mem_iff, mem_dedup]
  generalize htb' : (fun c => pl.sort (fun x => (OpenMethod.dedup (s.tb x)).length) (OpenMethod.dedup (s.tb c))) = tb'
  have hL : L = { s with
      tb := tb', db := fun c => (directScan tb' (tb' c)).2,
      dd := directDerived s.order (fun c => (directScan tb' (tb' c)).2),
      td := s.order.foldl (calcDerived pl (directDerived s.order (fun c => (directScan tb' (tb' c)).2)) (s.order.length + 1))
        (fun _ => []) } := by
    rw [← htb']; exact h.symm
  subst hL
  have hmtb' : ∀ c x, x ∈ tb' c ↔ x ∈ s.tb c := by intro c x; rw [← htb']; exact hmtb c x
  have hsound : ∀ c x, x ∈ tb' c → TransGen (DeclaredBase p) c x := fun c x hx => P2.sound c x ((hmtb' c x).1 hx)
  have hdecl : ∀ c b, DeclaredBase p c b → b ∈ tb' c := by
    rintro c b ⟨cr, hcr, rfl, t, ht, rfl, hne⟩
    exact (hmtb' _ _).2 (P2.declared cr hcr t ht hne)
  have hnd : ∀ c, (tb' c).Nodup := by
    intro c; rw [← htb']; exact ((pl.sort_perm _ _).nodup_iff).2 (nodup_dedup _)
  have hsub : ∀ c x, x ∈ (directScan tb' (tb' c)).2 → x ∈ tb' c := fun c x hx => (directScan_inv tb' (tb' c)).sub x hx
  have hcov : ∀ c x, x ∈ tb' c → x ∈ (directScan tb' (tb' c)).2 ∨ ∃ b ∈ (directScan tb' (tb' c)).2, x ∈ tb' b :=
    fun c x hx => (directScan_inv tb' (tb' c)).cover x hx
  have hreach : ∀ n d, rk d ≤ n → ∀ b, b ∈ tb' d →
      ReflTransGen (fun u v => v ∈ (directScan tb' (tb' u)).2) d b := by
    intro n
    induction n with
    | zero =>
      intro d hd b hb
      have := transGen_rank hrk (hsound d b hb); omega
    | succ n ih =>
      intro d hd b hb
      rcases hcov d b hb with h' | ⟨x, hx, h'⟩
      · exact .single h'
      · have h1 := transGen_rank hrk (hsound d x (hsub d x hx))
        exact .head hx (ih x (by omega) b h')
  have hder : ∀ d b, Derives p d b ↔ ReflTransGen (fun u v => v ∈ (directScan tb' (tb' u)).2) d b := by
    intro d b
    constructor
    · intro h'
      induction h' with
      | refl => exact .refl
      | tail _ hbc ih => exact ih.trans (hreach _ _ le_rfl _ (hdecl _ _ hbc))
    · intro h'
      induction h' with
      | refl => exact .refl
      | tail _ hbc ih => exact ih.trans (hsound _ _ (hsub _ _ hbc)).to_reflTransGen
  have hmdd := mem_directDerived s.order (fun c => (directScan tb' (tb' c)).2)
  -- classes reachable through direct_derived
  have hdesc : ∀ c ∈ s.order, ∀ x, ReflTransGen (fun u v => v ∈ directDerived s.order (fun c => (directScan tb' (tb' c)).2) u) c x ↔
      Derives p x c := by
    intro c hc x
    rw [hder]
    constructor
    · intro h'
      induction h' with
      | refl => exact .refl
      | tail _ hbc ih => exact .head ((hmdd _ _).1 hbc).2 ih
    · intro h'
      induction h' using ReflTransGen.head_induction_on with
      | refl => exact .refl
      | head hab _ ih =>
        refine .tail ih ((hmdd _ _).2 ⟨?_, hab⟩)
        obtain ⟨y, hay, _⟩ := (TransGen.head'_iff).1 (hsound _ _ (hsub _ _ hab))
        exact (hdm _ _ hay).1
  have hall := allDerived_spec pl (directDerived s.order (fun c => (directScan tb' (tb' c)).2))
    (fun c => s.order.length - rk c)
    (by
      intro c d hd
      have h1 := transGen_rank hrk (hsound _ _ (hsub _ _ ((hmdd _ _).1 hd).2))
      have h2 := hrkb d
      omega)
    s.order (s.order.length + 1) (by intro c; omega)
  refine ⟨hmo, by rw [hso]; exact P1.nodup, ?_, ?_, hdm, hsound, hdecl, hnd, hsub, hcov, ?_, hmdd, hder, ?_, ?_⟩
  · intro c t; dsimp only; rw [hst]; exact P1.mem_typeIds c t
  · intro c; dsimp only; rw [hst]; exact P1.nodup_typeIds c
  · intro c
    exact (directScan_inv tb' (tb' c)).sublist.nodup (hnd c)
  · intro c hc x
    exact (hall c hc x).trans (hdesc c hc x)
  · refine foldl_inv (fun (t : Cls → List Cls) => ∀ x, (t x).Nodup) _ _ _ (by simp) ?_
    intro t c _ ht
    exact calcDerived_nodup pl _ _ t c ht

end OpenMethod

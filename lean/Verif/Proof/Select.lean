import Verif.Model.Select
import Verif.Proof.ListLemmas
import Verif.Proof.Elim
import Mathlib.Data.List.Forall2
import Mathlib.Order.WellFounded
import Mathlib.Data.Fintype.Card
import Mathlib.Data.Fintype.List

/-! # Lemmas about `select_dominant_overriders` -/

namespace OpenMethod

/-- The candidates that are not null. -/
def alive (l : List (Option Nat)) : List Nat := l.filterMap id

@[simp] theorem alive_nil : alive [] = [] := rfl
@[simp] theorem alive_none (l : List (Option Nat)) : alive (none :: l) = alive l := rfl
@[simp] theorem alive_some (a : Nat) (l : List (Option Nat)) : alive (some a :: l) = a :: alive l := rfl

theorem mem_alive {l : List (Option Nat)} {a : Nat} : a ∈ alive l ↔ some a ∈ l := by
  simp [alive]

/-- Some candidates were set to null, and nothing else changed. -/
def Elim (l l' : List (Option Nat)) : Prop := List.Forall₂ (fun o o' => o' = o ∨ o' = none) l l'

theorem Elim.refl (l : List (Option Nat)) : Elim l l := by
  unfold Elim
  rw [List.forall₂_same]
  exact fun _ _ => .inl rfl

theorem Elim.trans {l l' l'' : List (Option Nat)} (h : Elim l l') (h' : Elim l' l'') : Elim l l'' := by
  unfold Elim at *
  induction h generalizing l'' with
  | nil => exact h'
  | cons hab _ ih =>
    cases h' with
    | cons hbc h' =>
      refine .cons ?_ (ih h')
      rcases hbc with rfl | rfl
      · exact hab
      · exact .inr rfl

theorem Elim.length {l l' : List (Option Nat)} (h : Elim l l') : l'.length = l.length :=
  (List.Forall₂.length_eq h).symm

theorem Elim.get {l l' : List (Option Nat)} (h : Elim l l') {i : Nat} {x : Nat} (hx : l'[i]? = some (some x)) :
    l[i]? = some (some x) := by
  unfold Elim at h
  induction h generalizing i with
  | nil => exact hx
  | cons hab _ ih =>
    cases i with
    | zero =>
      simp only [List.getElem?_cons_zero, Option.some.injEq] at hx ⊢
      rcases hab with rfl | rfl
      · exact hx
      · simp at hx
    | succ i => exact ih hx

theorem Elim.alive_sublist {l l' : List (Option Nat)} (h : Elim l l') : (alive l').Sublist (alive l) := by
  unfold Elim at h
  induction h with
  | nil => exact .refl _
  | @cons a b _ _ hab _ ih =>
    rcases hab with rfl | rfl
    · cases b with
      | none => exact ih
      | some b => exact ih.cons_cons b
    · cases a with
      | none => exact ih
      | some a => exact ih.cons a

structure SweepOk (more : Nat → Nat → Bool) (a : Nat) (r : List (Option Nat)) (s : Option Nat × List (Option Nat)) :
    Prop where
  elim : Elim r s.2
  head : s.1 = some a ∨ (s.1 = none ∧ ∃ b ∈ alive s.2, more b a = true)
  others : ∀ b ∈ alive r, b ∈ alive s.2 ∨ more a b = true
  apart : s.1 = some a → ∀ b ∈ alive s.2, more a b = false ∧ more b a = false

theorem sweep_ok (more : Nat → Nat → Bool) (a : Nat) (r : List (Option Nat)) : SweepOk more a r (sweep more a r) := by
  induction r with
  | nil => exact ⟨.nil, .inl rfl, by simp, by simp [sweep]⟩
  | cons o r ih =>
    cases o with
    | none => exact ⟨.cons (.inl rfl) ih.elim, ih.head, ih.others, ih.apart⟩
    | some b =>
      unfold sweep
      by_cases h1 : more a b = true
      · rw [if_pos h1]
        refine ⟨.cons (.inr rfl) ih.elim, ih.head, ?_, ih.apart⟩
        intro x hx
        simp only [alive_some, List.mem_cons] at hx
        rcases hx with rfl | hx
        · exact .inr h1
        · exact ih.others x hx
      · rw [if_neg h1]
        by_cases h2 : more b a = true
        · rw [if_pos h2]
          exact ⟨.refl _, .inr ⟨rfl, b, by simp, h2⟩, fun x hx => .inl hx, by simp⟩
        · rw [if_neg h2]
          refine ⟨.cons (.inl rfl) ih.elim, ?_, ?_, ?_⟩
          · rcases ih.head with h | ⟨h, x, hx, hm⟩
            · exact .inl h
            · exact .inr ⟨h, x, by simp [hx], hm⟩
          · intro x hx
            simp only [alive_some, List.mem_cons] at hx ⊢
            rcases hx with rfl | hx
            · exact .inl (.inl rfl)
            · rcases ih.others x hx with h | h
              · exact .inl (.inr h)
              · exact .inr h
          · intro h x hx
            simp only [alive_some, List.mem_cons] at hx
            rcases hx with rfl | hx
            · exact ⟨by simpa using h1, by simpa using h2⟩
            · exact ih.apart h x hx

structure EliminateOk (more : Nat → Nat → Bool) (l l' : List (Option Nat)) : Prop where
  elim : Elim l l'
  apart : (alive l').Pairwise (fun x y => more x y = false ∧ more y x = false)
  beaten : ∀ x ∈ alive l, x ∈ alive l' ∨ ∃ y ∈ alive l, more y x = true
  nonempty : alive l ≠ [] → alive l' ≠ []

theorem eliminate_ok (more : Nat → Nat → Bool) (n : Nat) (l : List (Option Nat)) (h : l.length ≤ n) :
    EliminateOk more l (eliminate more n l) := by
  induction n generalizing l with
  | zero =>
    obtain rfl : l = [] := List.eq_nil_of_length_eq_zero (by omega)
    exact ⟨.nil, by simp [eliminate], by simp, by simp⟩
  | succ n ih =>
    cases l with
    | nil => exact ⟨.nil, by simp [eliminate], by simp, by simp⟩
    | cons o r =>
      simp only [List.length_cons] at h
      cases o with
      | none =>
        have := ih r (by omega)
        exact ⟨.cons (.inl rfl) this.elim, this.apart, this.beaten, this.nonempty⟩
      | some a =>
        have S := sweep_ok more a r
        unfold eliminate
        generalize sweep more a r = s at S
        obtain ⟨s1, s2⟩ := s
        have E := ih s2 (by rw [S.elim.length]; omega)
        have hsub2 : ∀ x ∈ alive s2, x ∈ alive r := fun x hx => S.elim.alive_sublist.subset hx
        refine ⟨.cons ?_ (S.elim.trans E.elim), ?_, ?_, ?_⟩
        · rcases S.head with h | ⟨h, _⟩
          · exact .inl h
          · exact .inr h
        · rcases S.head with h | ⟨h, _⟩
          · dsimp only at h ⊢
            subst h
            rw [alive_some, List.pairwise_cons]
            refine ⟨fun x hx => ?_, E.apart⟩
            exact S.apart rfl x (E.elim.alive_sublist.subset hx)
          · dsimp only at h ⊢
            subst h
            exact E.apart
        · intro x hx
          rw [alive_some, List.mem_cons] at hx
          rcases hx with rfl | hx
          · rcases S.head with h | ⟨h, y, hy, hm⟩
            · dsimp only at h
              subst h
              exact .inl (by simp)
            · exact .inr ⟨y, by rw [alive_some]; exact List.mem_cons_of_mem _ (hsub2 y hy), hm⟩
          · rcases S.others x hx with h | h
            · rcases E.beaten x h with h' | ⟨y, hy, hm⟩
              · left
                dsimp only
                cases s1 with
                | none => exact h'
                | some b => exact List.mem_cons_of_mem _ h'
              · exact .inr ⟨y, by rw [alive_some]; exact List.mem_cons_of_mem _ (hsub2 y hy), hm⟩
            · exact .inr ⟨a, by simp, h⟩
        · intro _
          rcases S.head with h | ⟨h, y, hy, _⟩
          · dsimp only at h ⊢
            subst h
            simp
          · dsimp only at h hy ⊢
            subst h
            exact E.nonempty (List.ne_nil_of_mem hy)

/-! ## Survivors as a function of the remaining candidates -/

theorem alive_sweep (more : Nat → Nat → Bool) (a : Nat) (r : List (Option Nat)) :
    (sweep more a r).1 = (if (sweepL more a (alive r)).1 then some a else none) ∧
    alive (sweep more a r).2 = (sweepL more a (alive r)).2 := by
  induction r with
  | nil => exact ⟨rfl, rfl⟩
  | cons o r ih =>
    cases o with
    | none => exact ih
    | some b =>
      rw [alive_some, sweep, sweepL]
      split
      · exact ih
      · split
        · exact ⟨rfl, rfl⟩
        · exact ⟨ih.1, by rw [alive_some, ih.2]⟩

theorem alive_eliminate (more : Nat → Nat → Bool) (n : Nat) (l : List (Option Nat)) (h : l.length ≤ n) :
    alive (eliminate more n l) = survivors more (alive l) := by
  induction n generalizing l with
  | zero =>
    obtain rfl : l = [] := List.eq_nil_of_length_eq_zero (by omega)
    rfl
  | succ n ih =>
    cases l with
    | nil => rfl
    | cons o r =>
      simp only [List.length_cons] at h
      cases o with
      | none => exact ih r (by omega)
      | some a =>
        obtain ⟨h1, h2⟩ := alive_sweep more a r
        have hl := (sweep_ok more a r).elim.length
        rw [eliminate, alive_some, survivors_cons, ← h2, ← ih (sweep more a r).2 (by omega)]
        rw [h1]
        split <;> rfl

/-! ## `pick` and `remaining` -/

theorem remainingOf_eq (l : List (Option Nat)) : remainingOf l = (alive l).length := by
  induction l with
  | nil => rfl
  | cons o l ih =>
    cases o with
    | none => simpa [remainingOf] using ih
    | some a => simp only [remainingOf, alive_some, List.length_cons] at *; rw [List.countP_cons_of_pos (by rfl), ih]

theorem pickOf_spec (l : List (Option Nat)) (h : alive l ≠ []) : ∃ x, l[pickOf l]? = some (some x) := by
  have key := foldl_inv_prefix
    (fun (pre : List (Option Nat × Nat)) (p : Nat) => (∀ x ∈ pre, x.1 = none) ∨ ∃ x, (some x, p) ∈ pre)
    (fun p x => if x.1.isSome then x.2 else p) l.zipIdx 0 (by simp) ?_
  · rcases key with h' | ⟨x, hx⟩
    · exfalso
      apply h
      have : ∀ x ∈ l, x = none := by
        intro x hx
        obtain ⟨i, hi⟩ := List.getElem?_of_mem hx
        have hm : (x, i) ∈ l.zipIdx := List.mem_zipIdx_iff_getElem?.2 hi
        exact h' _ hm
      rw [List.eq_nil_iff_forall_not_mem]
      intro a ha
      exact absurd (this _ (mem_alive.1 ha)) (by simp)
    · exact ⟨x, List.mem_zipIdx_iff_getElem?.1 hx⟩
  · rintro pre ⟨o, i⟩ post p _ h'
    cases o with
    | none =>
      simp only [Option.isSome_none, Bool.false_eq_true, if_false]
      rcases h' with h' | ⟨x, hx⟩
      · left
        intro x hx
        rcases List.mem_append.1 hx with hx | hx
        · exact h' x hx
        · simp at hx; simp [hx]
      · exact .inr ⟨x, by simp [hx]⟩
    | some a =>
      right
      exact ⟨a, by simp⟩

/-! ## Selection without `n2216` -/

/-- What the selection computes, for an arbitrary comparison. -/
structure SelectOk (more : Nat → Nat → Bool) (l : List (Option Nat)) (s : Selection) : Prop where
  elim : Elim l s.cands
  remaining : s.remaining = (alive s.cands).length
  apart : (alive s.cands).Pairwise (fun x y => more x y = false ∧ more y x = false)
  beaten : ∀ x ∈ alive l, x ∈ alive s.cands ∨ ∃ y ∈ alive l, more y x = true
  nonempty : alive l ≠ [] → alive s.cands ≠ []
  pick : alive l ≠ [] → ∃ x, s.cands[s.pick]? = some (some x)
  eq : alive s.cands = survivors more (alive l)

theorem selectDominant_ok (more : Nat → Nat → Bool) (ret : Nat → Option Cls) (td : Cls → List Cls)
    (l : List (Option Nat)) :
    ∃ s, selectDominant false more ret td l = .ok s ∧ SelectOk more l s := by
  have E := eliminate_ok more l.length l le_rfl
  refine ⟨{ cands := eliminate more l.length l, pick := pickOf (eliminate more l.length l),
            remaining := remainingOf (eliminate more l.length l) }, ?_, ?_⟩
  · unfold selectDominant
    simp only [Bool.false_eq_true, if_false, ite_self]
  · exact ⟨E.elim, remainingOf_eq _, E.apart, E.beaten, E.nonempty, fun h => pickOf_spec _ (E.nonempty h),
      alive_eliminate more l.length l le_rfl⟩

/-- An undominated candidate is never eliminated. -/
theorem SelectOk.undominated {more : Nat → Nat → Bool} {l : List (Option Nat)} {s : Selection} (h : SelectOk more l s)
    {x : Nat} (hx : x ∈ alive l) (hu : ∀ y ∈ alive l, more y x = false) : x ∈ alive s.cands := by
  rcases h.beaten x hx with h' | ⟨y, hy, hm⟩
  · exact h'
  · rw [hu y hy] at hm; simp at hm

theorem pairwise_symm_mem {α : Type} {R : α → α → Prop} {l : List α} (h : l.Pairwise R) (hs : ∀ x y, R x y → R y x)
    {x y : α} (hx : x ∈ l) (hy : y ∈ l) (hxy : x ≠ y) : R x y := by
  induction h with
  | nil => simp at hx
  | cons ha _ ih =>
    rcases List.mem_cons.1 hx with h1 | h1 <;> rcases List.mem_cons.1 hy with h2 | h2
    · exact absurd (h1.trans h2.symm) hxy
    · subst h1; exact ha _ h2
    · subst h2; exact hs _ _ (ha _ h1)
    · exact ih h1 h2

theorem filter_sublist_of_imp {α : Type} {p q : α → Bool} {l : List α} (h : ∀ x ∈ l, p x = true → q x = true) :
    (l.filter p).Sublist (l.filter q) := by
  induction l with
  | nil => exact .refl _
  | cons a l ih =>
    have ih := ih fun x hx => h x (by simp [hx])
    by_cases hp : p a = true
    · rw [List.filter_cons_of_pos hp, List.filter_cons_of_pos (h a (by simp) hp)]
      exact ih.cons_cons a
    · rw [List.filter_cons_of_neg hp]
      by_cases hq : q a = true
      · rw [List.filter_cons_of_pos hq]; exact ih.cons a
      · rw [List.filter_cons_of_neg hq]; exact ih

/-- Survivors are not dominated by survivors. -/
theorem SelectOk.apart' {more : Nat → Nat → Bool} {l : List (Option Nat)} {s : Selection} (h : SelectOk more l s)
    (hirr : ∀ x, more x x = false) {x y : Nat} (hx : x ∈ alive s.cands) (hy : y ∈ alive s.cands) : more x y = false := by
  by_cases hxy : x = y
  · subst hxy; exact hirr x
  · exact (pairwise_symm_mem h.apart (fun _ _ h => ⟨h.2, h.1⟩) hx hy hxy).1

/-- In a finite list, a transitive irreflexive relation has a maximal element above every element. -/
theorem exists_undominated {more : Nat → Nat → Bool} (l : List Nat) (hirr : ∀ x, more x x = false)
    (htr : ∀ x ∈ l, ∀ y ∈ l, ∀ z ∈ l, more x y = true → more y z = true → more x z = true) (x : Nat) (hx : x ∈ l) :
    ∃ y ∈ l, (y = x ∨ more y x = true) ∧ ∀ z ∈ l, more z y = false := by
  -- induction on the number of elements that dominate `x`
  have aux : ∀ (n : Nat) (x : Nat), x ∈ l → (l.filter (fun z => more z x)).length ≤ n →
      ∃ y ∈ l, (y = x ∨ more y x = true) ∧ ∀ z ∈ l, more z y = false := by
    intro n
    induction n with
    | zero =>
      intro x hx hn
      refine ⟨x, hx, .inl rfl, fun z hz => ?_⟩
      have : l.filter (fun z => more z x) = [] := List.eq_nil_of_length_eq_zero (by omega)
      rw [List.filter_eq_nil_iff] at this
      simpa using this z hz
    | succ n ih =>
      intro x hx hn
      by_cases hd : ∃ w ∈ l, more w x = true
      · obtain ⟨w, hw, hwx⟩ := hd
        have hlt : (l.filter (fun z => more z w)).length < (l.filter (fun z => more z x)).length := by
          have hsub : (l.filter (fun z => more z w)).Sublist (l.filter (fun z => more z x)) := by
            exact filter_sublist_of_imp fun z hz hzw => htr z hz w hw x hx hzw hwx
          rcases Nat.lt_or_ge (l.filter (fun z => more z w)).length (l.filter (fun z => more z x)).length with h | h
          · exact h
          · have := hsub.eq_of_length_le h
            have hw' : w ∈ l.filter (fun z => more z w) := by rw [this]; simp [hw, hwx]
            simp [hirr] at hw'
        obtain ⟨y, hy, hyw, hmax⟩ := ih w hw (by omega)
        refine ⟨y, hy, .inr ?_, hmax⟩
        rcases hyw with rfl | hyw
        · exact hwx
        · exact htr y hy w hw x hx hyw hwx
      · refine ⟨x, hx, .inl rfl, fun z hz => ?_⟩
        by_contra hc
        exact hd ⟨z, hz, by simpa using hc⟩
  exact aux _ x hx le_rfl

/-- When the comparison is a strict order on the candidates, the survivors are exactly the undominated candidates. -/
theorem SelectOk.survivors {more : Nat → Nat → Bool} {l : List (Option Nat)} {s : Selection} (h : SelectOk more l s)
    (hirr : ∀ x, more x x = false)
    (htr : ∀ x ∈ alive l, ∀ y ∈ alive l, ∀ z ∈ alive l, more x y = true → more y z = true → more x z = true) (x : Nat) :
    x ∈ alive s.cands ↔ x ∈ alive l ∧ ∀ y ∈ alive l, more y x = false := by
  constructor
  · intro hx
    refine ⟨h.elim.alive_sublist.subset hx, fun y hy => ?_⟩
    by_contra hc
    have hyx : more y x = true := by simpa using hc
    have hxl := h.elim.alive_sublist.subset hx
    obtain ⟨z, hz, hzy, hmax⟩ := exists_undominated (alive l) hirr htr y hy
    have hzs := h.undominated hz hmax
    have hzx : more z x = true := by
      rcases hzy with rfl | hzy
      · exact hyx
      · exact htr z hz y hy x hxl hzy hyx
    rw [h.apart' hirr hzs hx] at hzx
    simp at hzx
  · rintro ⟨hx, hu⟩
    exact h.undominated hx hu

end OpenMethod

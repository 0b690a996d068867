import Verif.Model.Select

/-! # The elimination of dominated candidates as a function on lists without holes -/

namespace OpenMethod

/-- Candidate `a` against the candidates after it: whether `a` remains, and which others remain. -/
def sweepL {α : Type} (more : α → α → Bool) (a : α) : List α → Bool × List α
  | [] => (true, [])
  | b :: r =>
    if more a b then sweepL more a r
    else if more b a then (false, b :: r)
    else ((sweepL more a r).1, b :: (sweepL more a r).2)

theorem sweepL_length {α : Type} (more : α → α → Bool) (a : α) (l : List α) : (sweepL more a l).2.length ≤ l.length := by
  induction l with
  | nil => simp [sweepL]
  | cons b r ih =>
    unfold sweepL
    split
    · simp; omega
    · split
      · simp
      · simp; omega

def survivorsN {α : Type} (more : α → α → Bool) : Nat → List α → List α
  | n + 1, a :: r => if (sweepL more a r).1 then a :: survivorsN more n (sweepL more a r).2 else survivorsN more n (sweepL more a r).2
  | _, l => l

/-- The candidates that the elimination leaves. -/
def survivors {α : Type} (more : α → α → Bool) (l : List α) : List α := survivorsN more l.length l

theorem survivorsN_fuel {α : Type} (more : α → α → Bool) (n m : Nat) (l : List α) (hn : l.length ≤ n) (hm : l.length ≤ m) :
    survivorsN more n l = survivorsN more m l := by
  induction n generalizing m l with
  | zero =>
    obtain rfl : l = [] := List.eq_nil_of_length_eq_zero (by omega)
    cases m <;> rfl
  | succ n ih =>
    cases l with
    | nil => cases m <;> rfl
    | cons a r =>
      simp only [List.length_cons] at hn hm
      obtain ⟨m, rfl⟩ : ∃ k, m = k + 1 := ⟨m - 1, by omega⟩
      have hl := sweepL_length more a r
      unfold survivorsN
      rw [ih m _ (by omega) (by omega)]

theorem survivors_cons {α : Type} (more : α → α → Bool) (a : α) (r : List α) :
    survivors more (a :: r) = if (sweepL more a r).1 then a :: survivors more (sweepL more a r).2 else survivors more (sweepL more a r).2 := by
  unfold survivors
  rw [List.length_cons, survivorsN, survivorsN_fuel more r.length (sweepL more a r).2.length _ (sweepL_length more a r) (Nat.le_refl _)]

/-! ## Renaming of candidates -/

theorem sweepL_map {α β : Type} (f : α → β) (more : α → α → Bool) (more' : β → β → Bool) (a : α) (l : List α)
    (h : ∀ x ∈ a :: l, ∀ y ∈ a :: l, more x y = more' (f x) (f y)) :
    sweepL more' (f a) (l.map f) = ((sweepL more a l).1, (sweepL more a l).2.map f) := by
  induction l with
  | nil => rfl
  | cons b r ih =>
    have ih' := ih fun x hx y hy => h x (by rcases List.mem_cons.1 hx with h | h <;> simp [h]) y
      (by rcases List.mem_cons.1 hy with h | h <;> simp [h])
    rw [List.map_cons, sweepL, sweepL, ← h a (by simp) b (by simp), ← h b (by simp) a (by simp), ih']
    split
    · rfl
    · split <;> simp

theorem sweepL_sub {α : Type} (more : α → α → Bool) (a : α) (l : List α) : ∀ x ∈ (sweepL more a l).2, x ∈ l := by
  induction l with
  | nil => simp [sweepL]
  | cons b r ih =>
    intro x hx
    unfold sweepL at hx
    split at hx
    · exact List.mem_cons_of_mem _ (ih x hx)
    · split at hx
      · exact hx
      · simp only [List.mem_cons] at hx ⊢
        rcases hx with rfl | hx
        · exact .inl rfl
        · exact .inr (ih x hx)

theorem survivorsN_map {α β : Type} (f : α → β) (more : α → α → Bool) (more' : β → β → Bool) (n : Nat) (l : List α)
    (h : ∀ x ∈ l, ∀ y ∈ l, more x y = more' (f x) (f y)) : survivorsN more' n (l.map f) = (survivorsN more n l).map f := by
  induction n generalizing l with
  | zero => cases l <;> rfl
  | succ n ih =>
    cases l with
    | nil => rfl
    | cons a r =>
      rw [List.map_cons, survivorsN, survivorsN, sweepL_map f more more' a r h]
      have := ih (sweepL more a r).2 fun x hx y hy =>
        h x (by simp [sweepL_sub more a r x hx]) y (by simp [sweepL_sub more a r y hy])
      dsimp only
      rw [this]
      split <;> rfl

theorem survivors_map {α β : Type} (f : α → β) (more : α → α → Bool) (more' : β → β → Bool) (l : List α)
    (h : ∀ x ∈ l, ∀ y ∈ l, more x y = more' (f x) (f y)) : survivors more' (l.map f) = (survivors more l).map f := by
  unfold survivors
  rw [List.length_map]
  exact survivorsN_map f more more' l.length l h

theorem sweepL_false {α : Type} (more : α → α → Bool) (a : α) (l : List α) (h : (sweepL more a l).1 = false) : (sweepL more a l).2 ≠ [] := by
  induction l with
  | nil => simp [sweepL] at h
  | cons b r ih =>
    unfold sweepL at h ⊢
    split at h
    · rename_i hc; rw [if_pos hc]; exact ih h
    · rename_i hc
      rw [if_neg hc]
      split <;> simp

/-- Some candidate remains. -/
theorem survivors_ne_nil {α : Type} {more : α → α → Bool} {l : List α} (h : l ≠ []) : survivors more l ≠ [] := by
  obtain ⟨n, hn⟩ : ∃ n, l.length = n := ⟨_, rfl⟩
  induction n using Nat.strong_induction_on generalizing l with
  | _ n ih =>
    cases l with
    | nil => exact absurd rfl h
    | cons a r =>
      rw [survivors_cons]
      split
      · simp
      · rename_i hc
        have hl := sweepL_length more a r
        simp only [List.length_cons] at hn
        exact ih _ (by omega) (sweepL_false more a r (by simpa using hc)) rfl

end OpenMethod

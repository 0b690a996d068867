import Verif.Model.Basic
import Mathlib.Data.List.Basic

/-! # General lemmas on folds -/

namespace OpenMethod

/-- An invariant preserved by every step of a left fold holds at the end. -/
theorem foldl_inv {α β : Type} (P : β → Prop) (f : β → α → β) (l : List α) (b : β)
    (h0 : P b) (hs : ∀ b a, a ∈ l → P b → P (f b a)) : P (l.foldl f b) := by
  induction l generalizing b with
  | nil => exact h0
  | cons a l ih =>
    simp only [List.foldl_cons]
    exact ih _ (hs _ _ (by simp) h0) (fun b a ha => hs b a (by simp [ha]))

/-- An invariant indexed by the processed prefix. -/
theorem foldl_inv_prefix {α β : Type} (P : List α → β → Prop) (f : β → α → β) (l : List α) (b : β)
    (h0 : P [] b) (hs : ∀ pre a post b, l = pre ++ a :: post → P pre b → P (pre ++ [a]) (f b a)) :
    P l (l.foldl f b) := by
  suffices H : ∀ (pre suf : List α) (b : β), l = pre ++ suf → P pre b → P l (suf.foldl f b) from
    H [] l b rfl h0
  intro pre suf
  induction suf generalizing pre with
  | nil => intro b hl hb; simpa [hl] using hb
  | cons a suf ih =>
    intro b hl hb
    simp only [List.foldl_cons]
    exact ih (pre ++ [a]) _ (by simp [hl]) (hs pre a suf b hl hb)

/-- An invariant preserved by every successful step of a monadic fold holds at the end if the fold succeeds. -/
theorem foldlM_inv {α β : Type} (P : β → Prop) (f : β → α → Res β) (l : List α) (b b' : β)
    (h : l.foldlM f b = .ok b') (h0 : P b)
    (hs : ∀ b a b', a ∈ l → P b → f b a = .ok b' → P b') : P b' := by
  induction l generalizing b with
  | nil => simp at h; subst h; exact h0
  | cons a l ih =>
    rw [List.foldlM_cons, Res.bind_eq_ok] at h
    obtain ⟨x, hx, h⟩ := h
    exact ih x h (hs _ _ _ (by simp) h0 hx) (fun b a b' ha => hs b a b' (by simp [ha]))

/-- As `foldlM_inv`, indexed by the processed prefix. -/
theorem foldlM_inv_prefix {α β : Type} (P : List α → β → Prop) (f : β → α → Res β) (l : List α) (b b' : β)
    (h : l.foldlM f b = .ok b') (h0 : P [] b)
    (hs : ∀ pre a post b b', l = pre ++ a :: post → P pre b → f b a = .ok b' → P (pre ++ [a]) b') : P l b' := by
  suffices H : ∀ (pre suf : List α) (b : β), l = pre ++ suf → P pre b → suf.foldlM f b = .ok b' → P l b' from
    H [] l b rfl h0 h
  intro pre suf
  induction suf generalizing pre with
  | nil => intro b hl hb h; simp at h; subst h; simpa [hl] using hb
  | cons a suf ih =>
    intro b hl hb h
    rw [List.foldlM_cons, Res.bind_eq_ok] at h
    obtain ⟨x, hx, h⟩ := h
    exact ih (pre ++ [a]) x (by simp [hl]) (hs pre a suf b x hl hb hx) h

/-- A monadic fold succeeds if each step succeeds under an invariant, which then holds at the end. -/
theorem foldlM_exists {α β : Type} (P : List α → β → Prop) (f : β → α → Res β) (l : List α) (b : β) (h0 : P [] b)
    (hs : ∀ pre a post b, l = pre ++ a :: post → P pre b → ∃ b', f b a = .ok b' ∧ P (pre ++ [a]) b') :
    ∃ b', l.foldlM f b = .ok b' ∧ P l b' := by
  suffices H : ∀ (pre suf : List α) (b : β), l = pre ++ suf → P pre b → ∃ b', suf.foldlM f b = .ok b' ∧ P l b' from
    H [] l b rfl h0
  intro pre suf
  induction suf generalizing pre with
  | nil => intro b hl hb; exact ⟨b, rfl, by simpa [hl] using hb⟩
  | cons a suf ih =>
    intro b hl hb
    obtain ⟨x, hx, hP⟩ := hs pre a suf b hl hb
    rw [List.foldlM_cons, hx]
    exact ih (pre ++ [a]) x (by simp [hl]) hP

/-- If a monadic fold fails, it fails at some element, after a successful prefix. -/
theorem foldlM_eq_err {α β : Type} {f : β → α → Res β} {l : List α} {b : β} {e : Err} :
    l.foldlM f b = .err e ↔ ∃ pre a post b', l = pre ++ a :: post ∧ pre.foldlM f b = .ok b' ∧ f b' a = .err e := by
  induction l generalizing b with
  | nil => simp
  | cons a l ih =>
    rw [List.foldlM_cons, Res.bind_eq_err]
    constructor
    · rintro (h | ⟨x, hx, h⟩)
      · exact ⟨[], a, l, b, by simp, by simp, h⟩
      · obtain ⟨pre, a', post, b', hl, hp, hf⟩ := ih.1 h
        exact ⟨a :: pre, a', post, b', by simp [hl], by simp [hx, hp], hf⟩
    · rintro ⟨pre, a', post, b', hl, hp, hf⟩
      cases pre with
      | nil =>
        simp at hl hp
        obtain ⟨rfl, rfl⟩ := hl
        subst hp
        exact .inl hf
      | cons c pre =>
        simp at hl
        obtain ⟨rfl, rfl⟩ := hl
        rw [List.foldlM_cons, Res.bind_eq_ok] at hp
        obtain ⟨x, hx, hp⟩ := hp
        exact .inr ⟨x, hx, ih.2 ⟨pre, a', post, b', rfl, hp, hf⟩⟩

/-- If a monadic fold is undefined, it is so at some element, after a successful prefix. -/
theorem foldlM_eq_ub {α β : Type} {f : β → α → Res β} {l : List α} {b : β} :
    l.foldlM f b = .ub ↔ ∃ pre a post b', l = pre ++ a :: post ∧ pre.foldlM f b = .ok b' ∧ f b' a = .ub := by
  induction l generalizing b with
  | nil => simp
  | cons a l ih =>
    rw [List.foldlM_cons, Res.bind_eq_ub]
    constructor
    · rintro (h | ⟨x, hx, h⟩)
      · exact ⟨[], a, l, b, by simp, by simp, h⟩
      · obtain ⟨pre, a', post, b', hl, hp, hf⟩ := ih.1 h
        exact ⟨a :: pre, a', post, b', by simp [hl], by simp [hx, hp], hf⟩
    · rintro ⟨pre, a', post, b', hl, hp, hf⟩
      cases pre with
      | nil =>
        simp at hl hp
        obtain ⟨rfl, rfl⟩ := hl
        subst hp
        exact .inl hf
      | cons c pre =>
        simp at hl
        obtain ⟨rfl, rfl⟩ := hl
        rw [List.foldlM_cons, Res.bind_eq_ok] at hp
        obtain ⟨x, hx, hp⟩ := hp
        exact .inr ⟨x, hx, ih.2 ⟨pre, a', post, b', rfl, hp, hf⟩⟩

/-- A monadic fold over a concatenation. -/
theorem foldlM_append_res {α β : Type} (f : β → α → Res β) (l l' : List α) (b : β) :
    (l ++ l').foldlM f b = (l.foldlM f b >>= fun x => l'.foldlM f x) := by
  induction l generalizing b with
  | nil => simp
  | cons a l ih =>
    simp only [List.cons_append, List.foldlM_cons]
    cases f b a <;> simp [ih]

end OpenMethod

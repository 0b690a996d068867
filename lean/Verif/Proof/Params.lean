import Verif.SpecParams
import Verif.Proof.UseClasses

namespace OpenMethod

open Hier

variable {E : Cpp} {p q t u r r' : CT} {c d : Cls}

namespace Cpp

/-! ## Selection of a specialisation -/

macro "select_simp" : tactic => `(tactic|
  simp [select, checks, Partial.matches, CT.deduceAll, CT.deduce, List.filter, always, CT.isVirtualPtr, CT.sameReferenceCategory, CT.isLref, CT.isRref, List.lookup, *])

theorem valid_virt (h : ∀ u, q ≠ .virt u) : E.validOverriderParam (.virt t) q = true := by
  have a1 : ∀ σ v, CT.deduce (.virt v) q σ = none := by
    intro σ v
    cases q with
    | virt u => exact absurd rfl (h _)
    | _ => rfl
  have a2 : CT.deduce (.var 0) q [(0, .virt t)] = none := by
    have : CT.virt t ≠ q := fun e => h _ e.symm
    simp [CT.deduce, List.lookup, this]
  have a3 : ∀ v, CT.deduce (.var 1) q [(0, v)] = some [(1, q), (0, v)] := fun _ => rfl
  have a4 : ∀ n v, CT.deduce (.var n) v [] = some [(n, v)] := fun n v => rfl
  have a5 : ∀ n, CT.deduce (.virt (.var n)) (.virt t) [] = some [(n, t)] := fun _ => rfl
  have a6 : ∀ v w σ, CT.deduce (.vptr v w) (.virt t) σ = none := fun _ _ _ => rfl
  have a7 : ∀ v σ, CT.deduce (.rref v) (.virt t) σ = none := fun _ _ => rfl
  have a8 : ∀ v σ, CT.deduce (.cref v) (.virt t) σ = none := fun _ _ => rfl
  have b : CT.isVirtualPtr (.virt t) = false := rfl
  have : select checks [.virt t, q] = .special .virtual := by
    simp [select, checks, Partial.matches, List.filter, always]
    simp [CT.deduceAll, a1, a2, a3, a4, a5, a6, a7, a8, b]
    rfl
  simp [validOverriderParam, this, checkOk]

theorem valid_virt_virt : E.validOverriderParam (.virt t) (.virt u) = false := by
  by_cases h : u = t
  · subst h
    have : select checks [.virt u, .virt u] = .ambiguous := by
      select_simp; rfl
    simp [validOverriderParam, this]
  · have : select checks [.virt t, .virt u] = .special .virtualTwice := by
      have h' : t ≠ u := fun e => h e.symm
      select_simp; rfl
    simp [validOverriderParam, this, checkOk]

theorem valid_vptr_same : E.validOverriderParam (.vptr t r) (.vptr t r) = true := by
  have : select checks [.vptr t r, .vptr t r] = .special .sameValue := by
    select_simp; rfl
  simp [validOverriderParam, this, checkOk]

theorem valid_vptr (h : ¬ (t = u ∧ r = r')) : E.validOverriderParam (.vptr t r) (.vptr u r') = E.validPair id t u r r' := by
  have : select checks [.vptr t r, .vptr u r'] = .special .value := by
    by_cases ht : t = u
    · have hr : r ≠ r' := fun e => h ⟨ht, e⟩
      subst ht
      select_simp; rfl
    · select_simp; rfl
  simp [validOverriderParam, this, checkOk]

theorem valid_vptr_other (h : ∀ u r', q ≠ .vptr u r') : E.validOverriderParam (.vptr t r) q = false := by
  have a1 : ∀ σ v w, CT.deduce (.vptr v w) q σ = none := by
    intro σ v w
    cases q with
    | vptr u r' => exact absurd rfl (h _ _)
    | _ => rfl
  have a2 : CT.deduce (.var 0) q [(0, .vptr t r)] = none := by
    have : CT.vptr t r ≠ q := fun e => h _ _ e.symm
    simp [CT.deduce, List.lookup, this]
  have a3 : CT.deduce (.var 1) q [(0, .vptr t r)] = some [(1, q), (0, .vptr t r)] := rfl
  have a4 : ∀ n v, CT.deduce (.var n) v [] = some [(n, v)] := fun n v => rfl
  have a5 : ∀ v σ, CT.deduce (.virt v) (.vptr t r) σ = none := fun _ _ => rfl
  have a6 : ∀ v σ, CT.deduce (.cref v) (.vptr t r) σ = none := fun _ _ => rfl
  have a7 : ∀ v σ, CT.deduce (.rref v) (.vptr t r) σ = none := fun _ _ => rfl
  have a8 : CT.deduceAll [.vptr (.var 0) (.var 1), .vptr (.var 0) (.var 1)] [.vptr t r, q] [] = none := by
    simp [CT.deduceAll, CT.deduce, List.lookup, a1]
  have a9 : CT.deduceAll [.vptr (.var 0) (.var 1), .vptr (.var 2) (.var 3)] [.vptr t r, q] [] = none := by
    simp [CT.deduceAll, CT.deduce, List.lookup, a1]
  have b : CT.isVirtualPtr (.vptr t r) = true := rfl
  cases hb : q.isVirtualPtr
  · have : select checks [.vptr t r, q] = .special .notVirtualPtr := by
      simp [select, checks, Partial.matches, List.filter, always, a8, a9]
      simp [CT.deduceAll, a2, a3, a4, a5, a6, a7, b, hb]
      rfl
    simp [validOverriderParam, this, checkOk]
  · have hc : CT.sameReferenceCategory (.vptr t r) q = false := by
      unfold CT.isVirtualPtr at hb
      split at hb
      · exact absurd rfl (h _ _)
      · rfl
      · cases hb
    have : select checks [.vptr t r, q] = .special .categories := by
      simp [select, checks, Partial.matches, List.filter, always, a8, a9]
      simp [CT.deduceAll, a2, a3, a4, a5, a6, a7, b, hb, hc]
      rfl
    simp [validOverriderParam, this, checkOk]

theorem valid_cref_same : E.validOverriderParam (.cref (.vptr t r)) (.cref (.vptr t r)) = false := by
  have : select checks [.cref (.vptr t r), .cref (.vptr t r)] = .ambiguous := by
    select_simp; rfl
  simp [validOverriderParam, this]

theorem valid_cref (h : ¬ (t = u ∧ r = r')) : E.validOverriderParam (.cref (.vptr t r)) (.cref (.vptr u r')) = E.validPair .cref t u r r' := by
  have : select checks [.cref (.vptr t r), .cref (.vptr u r')] = .special .constRef := by
    by_cases ht : t = u
    · have hr : r ≠ r' := fun e => h ⟨ht, e⟩
      subst ht
      select_simp; rfl
    · select_simp; rfl
  simp [validOverriderParam, this, checkOk]

theorem valid_cref_other (h : ∀ u r', q ≠ .cref (.vptr u r')) : E.validOverriderParam (.cref (.vptr t r)) q = false := by
  have a1 : ∀ σ v w, CT.deduce (.cref (.vptr v w)) q σ = none := by
    intro σ v w
    cases q with
    | cref x => cases x with
      | vptr u r' => exact absurd rfl (h _ _)
      | _ => rfl
    | _ => rfl
  have a2 : CT.deduce (.var 0) q [(0, .cref (.vptr t r))] = none := by
    have : CT.cref (.vptr t r) ≠ q := fun e => h _ _ e.symm
    simp [CT.deduce, List.lookup, this]
  have a3 : CT.deduce (.var 1) q [(0, .cref (.vptr t r))] = some [(1, q), (0, .cref (.vptr t r))] := rfl
  have a4 : ∀ n v, CT.deduce (.var n) v [] = some [(n, v)] := fun n v => rfl
  have a5 : ∀ v σ, CT.deduce (.virt v) (.cref (.vptr t r)) σ = none := fun _ _ => rfl
  have a6 : ∀ v w σ, CT.deduce (.vptr v w) (.cref (.vptr t r)) σ = none := fun _ _ _ => rfl
  have a7 : ∀ v σ, CT.deduce (.rref v) (.cref (.vptr t r)) σ = none := fun _ _ => rfl
  have a9 : CT.deduceAll [.cref (.vptr (.var 0) (.var 1)), .cref (.vptr (.var 2) (.var 3))] [.cref (.vptr t r), q] [] = none := by
    rw [CT.deduceAll]
    cases CT.deduce (.cref (.vptr (.var 0) (.var 1))) (.cref (.vptr t r)) [] with
    | none => rfl
    | some σ => simp [CT.deduceAll, a1]
  have b : CT.isVirtualPtr (.cref (.vptr t r)) = true := rfl
  cases hb : q.isVirtualPtr
  · have : select checks [.cref (.vptr t r), q] = .special .notVirtualPtr := by
      simp [select, checks, Partial.matches, List.filter, always, a9]
      simp [CT.deduceAll, a2, a3, a4, a5, a6, a7, b, hb]
      rfl
    simp [validOverriderParam, this, checkOk]
  · have hc : CT.sameReferenceCategory (.cref (.vptr t r)) q = false := by
      unfold CT.isVirtualPtr at hb
      split at hb
      · rfl
      · exact absurd rfl (h _ _)
      · cases hb
    have : select checks [.cref (.vptr t r), q] = .special .categories := by
      simp [select, checks, Partial.matches, List.filter, always, a9]
      simp [CT.deduceAll, a2, a3, a4, a5, a6, a7, b, hb, hc]
      rfl
    simp [validOverriderParam, this, checkOk]

/-- `p` is neither virtual nor an rvalue reference: only patterns that match everything match it. -/
theorem deduce_other (h1 : ¬ p.IsVirtualParam) (h2 : ∀ t, p ≠ .rref t) (σ : List (Nat × CT)) (v w : CT) :
    CT.deduce (.vptr v w) p σ = none ∧ CT.deduce (.virt v) p σ = none ∧ CT.deduce (.cref (.vptr v w)) p σ = none ∧ CT.deduce (.rref v) p σ = none := by
  cases p with
  | vptr t r => exact absurd (.inr (.inl ⟨t, r, rfl⟩)) h1
  | virt t => exact absurd (.inl ⟨t, rfl⟩) h1
  | rref t => exact absurd rfl (h2 t)
  | cref x => cases x with
    | vptr t r => exact absurd (.inr (.inr ⟨t, r, rfl⟩)) h1
    | _ => exact ⟨rfl, rfl, rfl, rfl⟩
  | _ => exact ⟨rfl, rfl, rfl, rfl⟩

theorem isVirtualPtr_other (h1 : ¬ p.IsVirtualParam) : p.isVirtualPtr = false := by
  cases p with
  | vptr t r => exact absurd (.inr (.inl ⟨t, r, rfl⟩)) h1
  | cref v => cases v with
    | vptr t r => exact absurd (.inr (.inr ⟨t, r, rfl⟩)) h1
    | _ => rfl
  | _ => rfl

theorem select_other (h1 : ¬ p.IsVirtualParam) (h2 : ∀ t, p ≠ .rref t) : select checks [p, q] = if q = p then .special .same else .primary := by
  have hv := isVirtualPtr_other h1
  have a1 := fun σ v w => (deduce_other h1 h2 σ v w).1
  have a2 := fun σ v => (deduce_other h1 h2 σ v v).2.1
  have a3 := fun σ v w => (deduce_other h1 h2 σ v w).2.2.1
  have a4 := fun σ v => (deduce_other h1 h2 σ v v).2.2.2
  have a5 : ∀ n v, CT.deduce (.var n) v [] = some [(n, v)] := fun n v => rfl
  by_cases hq : q = p
  · subst hq
    have a6 : CT.deduce (.var 0) q [(0, q)] = some [(0, q)] := by simp [CT.deduce, List.lookup]
    simp [select, checks, Partial.matches, CT.deduceAll, List.filter, always, hv, a1, a2, a3, a4, a5, a6]
    rfl
  · have a6 : CT.deduce (.var 0) q [(0, p)] = none := by
      have : p ≠ q := fun e => hq e.symm
      simp [CT.deduce, List.lookup, this]
    simp [select, checks, Partial.matches, CT.deduceAll, List.filter, always, hv, a1, a2, a3, a4, a5, a6, hq]

/-- Non-virtual parameters, and `virtual_ptr`s by non-const reference. -/
theorem valid_other (h1 : ¬ p.IsVirtualParam) (h2 : ∀ t, p ≠ .rref t) : E.validOverriderParam p q = true ↔ q = p := by
  rw [validOverriderParam, select_other h1 h2]
  split_ifs <;> simp [*, checkOk]

end Cpp

/-! ## Inheritance -/

variable {H : Hier}

theorem Hier.unambiguous_self (hw : H.WF) (hd : H.Defined c) : H.Unambiguous c c := by
  obtain ⟨rank, hr⟩ := hw.rank
  have hle : ∀ a b, H.Inherits a b → rank b ≤ rank a := by
    intro a b h
    induction h with
    | refl => exact le_refl _
    | tail _ hs ih => obtain ⟨v, hv⟩ := hs; exact le_trans (hr _ _ _ hv).le ih
  have hv : ∀ {a b}, H.VBase a b → rank b < rank a := by
    intro a b h
    induction h with
    | direct h => exact hr _ _ _ h
    | step h _ ih => exact lt_trans ih (hr _ _ _ h)
  refine ⟨[c], ⟨.inl (.self hd), rfl⟩, ?_⟩
  rintro τ (h | ⟨v, h, h'⟩) ht
  · cases h with
    | self => rfl
    | base hb hp =>
      rename_i b σ
      have : OfClass σ c := by
        unfold OfClass at ht ⊢
        rwa [List.getLast?_cons_of_ne_nil] at ht
        cases hp <;> simp
      exact absurd (hle _ _ (hp.inherits this)) (by have := hr _ _ _ hb; omega)
  · exact absurd (hle _ _ (h'.inherits ht)) (by have := hv h; omega)

theorem Hier.Unambiguous.inherits (h : H.Unambiguous d c) : H.Inherits d c := by
  obtain ⟨σ, ⟨h1, h2⟩, _⟩ := h
  exact h1.inherits h2

theorem Hier.Subobject.defined {σ : Path} (h : H.Subobject d σ) : H.Defined d := by
  rcases h with h | ⟨v, h, _⟩
  · exact h.defined
  · exact h.defined

theorem Hier.Unambiguous.defined (h : H.Unambiguous d c) : H.Defined d := by
  obtain ⟨σ, ⟨h1, _⟩, _⟩ := h
  exact h1.defined

theorem defined_of_isBaseOf (hw : H.WF) (h : H.isBaseOf c d = true) : H.Defined d := by
  simp only [isBaseOf, ne_eq, decide_not, Bool.not_eq_eq_eq_not, Bool.not_true, decide_eq_false_iff_not] at h
  obtain ⟨σ, hσ⟩ := List.exists_mem_of_ne_nil _ h
  exact ((mem_occ hw).1 hσ).1.defined

theorem isBaseOf_of_unambiguous (hw : H.WF) (h : H.Unambiguous d c) : H.isBaseOf c d = true :=
  (isBaseOf_iff hw h.defined).2 h.inherits

theorem CT.Pointee.left (h : CT.Pointee t u c d) : t.element = some c := by cases h <;> rfl
theorem CT.Pointee.right (h : CT.Pointee t u c d) : u.element = some d := by cases h <;> rfl

namespace Cpp

/-! ## Accepted parameters -/

/-- The cast from `c` to `d` is accepted for a `virtual_ptr<t>`. -/
def downOk (E : Cpp) (t : CT) (c d : Cls) : Bool :=
  match t with
  | .smart k _ => E.smartCastOk c d k
  | _ => E.optimalOk c d

theorem convertible_iff (hw : E.hier.WF) (hd : E.hier.isBaseOf c d = true) (h : CT.Pointee t u c d) : E.convertible u t = true ↔ E.hier.Unambiguous d c := by
  cases h with
  | plain =>
    simp only [convertible, CT.element, CT.cls.injEq, Bool.or_eq_true, decide_eq_true_eq, isConvertible_iff hw]
    constructor
    · rintro (rfl | h)
      · exact unambiguous_self hw (defined_of_isBaseOf hw hd)
      · exact h
    · exact .inr
  | smart => simp [convertible, isConvertible_iff hw]

theorem convertible_self (hw : E.hier.WF) (hd : E.hier.Defined c) (ht : t.element = some c) : E.convertible t t = true := by
  have : E.hier.isConvertible c c = true := (isConvertible_iff hw).2 (unambiguous_self hw hd)
  unfold CT.element at ht
  split at ht
  · simp [convertible]
  · cases ht; simp [convertible, this]
  · cases ht

def movable (moved : Bool) (t : CT) : Bool :=
  match t with
  | .smart .unique _ => moved
  | _ => true

theorem castPtr_iff (hw : E.hier.WF) (moved : Bool) (h : CT.Pointee t u c d) (hb : E.hier.Unambiguous d c) :
    E.castPtr moved t u d = true ↔ E.downOk t c d = true ∧ movable moved t = true := by
  have hs := convertible_self (E := E) hw hb.defined (t := u) (c := d) h.right
  have hbo := isBaseOf_of_unambiguous hw hb
  cases h with
  | plain =>
    by_cases h : E.optimalOk c d = true <;> simp [castPtr, vptrCast, hbo, h, hs, downOk, movable]
  | smart =>
    rename_i k
    by_cases h : E.smartCastOk c d k = true <;> cases k <;> cases moved <;> simp_all [castPtr, vptrCast, downOk, movable]

theorem castPtr_pointee (hw : E.hier.WF) (moved : Bool) (hu : u.element = some d) (hc : E.convertible u t = true ∨ u = t) (h : E.castPtr moved t u d = true) :
    ∃ c, CT.Pointee t u c d ∧ E.hier.Defined d := by
  have hd : ∀ c, (E.hier.isBaseOf c d = true ∨ E.hier.isBaseOf d c = true) → E.hier.Defined d := by
    rintro c (h | h)
    · exact defined_of_isBaseOf hw h
    · have := defined_of_isBaseOf hw h
      exact ((isBaseOf_iff hw this).1 h).defined hw this
  have hut := hc
  clear hc
  unfold castPtr vptrCast at h
  split at h
  · rename_i v hv
    split at hv
    · rename_i c
      split_ifs at hv with hc
      cases hv
      simp only [Bool.and_eq_true, Bool.or_eq_true] at hc
      refine ⟨c, ?_, hd c hc.1⟩
      unfold CT.element at hu
      split at hu <;> cases hu
      · exact .plain
      · simp [convertible] at h
    · rename_i k c
      split_ifs at hv with hc
      cases hv
      simp only [Bool.and_eq_true, Bool.or_eq_true] at hc
      unfold CT.element at hu
      split at hu <;> cases hu
      · simp [convertible] at hut
      · simp [convertible] at h
        rw [← h.1]
        exact ⟨c, .smart, hd c hc.1.1⟩
    · cases hv
  · cases h

theorem CT.Pointee.refl' (h : t.element = some c) : CT.Pointee t t c c := by
  unfold CT.element at h
  split at h <;> cases h
  · exact .plain
  · exact .smart

theorem CT.Pointee.virtualType (h : CT.Pointee t u c d) (n : Nat) :
    CT.virtualType n (.vptr t (.reg n)) = some (.cls c) ∧ CT.virtualType n (.cref (.vptr t (.reg n))) = some (.cls c) := by
  simp [CT.virtualType, h.left]

theorem validPair_element {mk : CT → CT} (hmk : mk = id ∨ mk = .cref) {n : Nat} (h : E.validPair mk t u (.reg n) r' = true) :
    r' = .reg n ∧ E.convertible u t = true ∧ ∃ c d, t.element = some c ∧ u.element = some d ∧ E.hier.isBaseOf c d = true := by
  simp only [validPair, Bool.and_eq_true, decide_eq_true_eq] at h
  obtain ⟨⟨h1, h2⟩, h3⟩ := h
  refine ⟨h1.symm, h3, ?_⟩
  rcases hmk with rfl | rfl <;>
  · simp only [id, CT.virtualType] at h2
    cases ht : t.element <;> cases hu : u.element <;> simp_all

theorem validPair_pointee (hw : E.hier.WF) {mk : CT → CT} (hmk : mk = id ∨ mk = .cref) (n : Nat) (h : CT.Pointee t u c d) :
    E.validPair mk t u (.reg n) (.reg n) = true ↔ E.hier.Unambiguous d c := by
  have : E.validPair mk t u (.reg n) (.reg n) = (E.hier.isBaseOf c d && E.convertible u t) := by
    rcases hmk with rfl | rfl <;> simp [validPair, CT.virtualType, h.left, h.right]
  rw [this, Bool.and_eq_true]
  constructor
  · rintro ⟨h1, h2⟩; exact (convertible_iff hw h1 h).1 h2
  · intro hb
    have := isBaseOf_of_unambiguous hw hb
    exact ⟨this, (convertible_iff hw this h).2 hb⟩

/-- `virtual_ptr`s by value. -/
theorem accepts_value (hw : E.hier.WF) (hu : u.element ≠ none) :
    E.Accepts (.vptr t (.reg E.reg)) (.vptr u r') ↔ r' = .reg E.reg ∧ ∃ c d, CT.Pointee t u c d ∧ E.hier.Unambiguous d c ∧ E.downOk t c d = true := by
  obtain ⟨d, hd⟩ := Option.ne_none_iff_exists'.1 hu
  have hcast : E.castOk (.vptr t (.reg E.reg)) (.vptr u r') = E.castPtr true t u d := by
    simp [castOk, hd]
  have hmov : movable true t = true := by unfold movable; split <;> rfl
  rw [Accepts, hcast]
  by_cases h : t = u ∧ CT.reg E.reg = r'
  · obtain ⟨rfl, rfl⟩ := h
    rw [valid_vptr_same]
    have hp := CT.Pointee.refl' hd
    constructor
    · rintro ⟨-, h2⟩
      obtain ⟨_, _, hdef⟩ := castPtr_pointee hw true hd (.inr rfl) h2
      have hb := unambiguous_self hw hdef
      exact ⟨rfl, d, d, hp, hb, ((castPtr_iff hw true hp hb).1 h2).1⟩
    · rintro ⟨-, c, d', hp', hb, ho⟩
      obtain rfl : d' = d := by simpa [hd] using hp'.right.symm
      obtain rfl : c = d' := by simpa [hd] using hp'.left.symm
      exact ⟨rfl, (castPtr_iff hw true hp hb).2 ⟨ho, hmov⟩⟩
  · rw [valid_vptr h]
    constructor
    · rintro ⟨h1, h2⟩
      obtain ⟨rfl, h3, c, d', h4, h5, h6⟩ := validPair_element (.inl rfl) h1
      obtain ⟨c', hp, _⟩ := castPtr_pointee hw true hd (.inl h3) h2
      have hb := (validPair_pointee hw (.inl rfl) _ hp).1 h1
      exact ⟨rfl, c', d, hp, hb, ((castPtr_iff hw true hp hb).1 h2).1⟩
    · rintro ⟨rfl, c, d', hp, hb, ho⟩
      obtain rfl : d' = d := by simpa [hd] using hp.right.symm
      exact ⟨(validPair_pointee hw (.inl rfl) _ hp).2 hb, (castPtr_iff hw true hp hb).2 ⟨ho, hmov⟩⟩

/-- `virtual_ptr`s by const reference. -/
theorem accepts_cref (hw : E.hier.WF) (hu : u.element ≠ none) :
    E.Accepts (.cref (.vptr t (.reg E.reg))) (.cref (.vptr u r')) ↔
      r' = .reg E.reg ∧ t ≠ u ∧ movable false t = true ∧ ∃ c d, CT.Pointee t u c d ∧ E.hier.Unambiguous d c ∧ E.downOk t c d = true := by
  obtain ⟨d, hd⟩ := Option.ne_none_iff_exists'.1 hu
  have hcast : E.castOk (.cref (.vptr t (.reg E.reg))) (.cref (.vptr u r')) = E.castPtr false t u d := by
    simp [castOk, hd]
  rw [Accepts, hcast]
  by_cases h : t = u ∧ CT.reg E.reg = r'
  · obtain ⟨rfl, rfl⟩ := h
    simp [valid_cref_same]
  · rw [valid_cref h]
    constructor
    · rintro ⟨h1, h2⟩
      obtain ⟨rfl, h3, c, d', h4, h5, h6⟩ := validPair_element (.inr rfl) h1
      obtain ⟨c', hp, _⟩ := castPtr_pointee hw false hd (.inl h3) h2
      have hb := (validPair_pointee hw (.inr rfl) _ hp).1 h1
      have := (castPtr_iff hw false hp hb).1 h2
      exact ⟨rfl, fun e => h ⟨e, rfl⟩, this.2, c', d, hp, hb, this.1⟩
    · rintro ⟨rfl, _, hm, c, d', hp, hb, ho⟩
      obtain rfl : d' = d := by simpa [hd] using hp.right.symm
      exact ⟨(validPair_pointee hw (.inr rfl) _ hp).2 hb, (castPtr_iff hw false hp hb).2 ⟨ho, hm⟩⟩

/-- A `const virtual_ptr&` of another registry. -/
theorem not_accepts_foreign (hw : E.hier.WF) {n : Nat} (hn : n ≠ E.reg) : ¬ E.Accepts (.cref (.vptr t (.reg n))) q := by
  rintro ⟨h1, h2⟩
  simp only [castOk, if_neg hn] at h2
  split at h2
  · rename_i u m
    simp only [Bool.and_eq_true, decide_eq_true_eq] at h2
    obtain ⟨rfl, h2⟩ := h2
    by_cases h : t = u
    · subst h; rw [valid_cref_same] at h1; cases h1
    · rw [valid_cref (fun e => h e.1)] at h1
      obtain ⟨-, h3, c, d, hc, hd, hb⟩ := validPair_element (.inr rfl) h1
      have hdef := defined_of_isBaseOf hw hb
      -- both are convertible to the other
      have key : ∀ {c d}, E.hier.isBaseOf c d = true → E.hier.isConvertible c d = true → c = d := by
        intro c d hb h
        have hi := (isBaseOf_iff hw (defined_of_isBaseOf hw hb)).1 hb
        exact hi.antisymm hw ((isConvertible_iff hw).1 h).inherits
      unfold CT.element at hc hd
      split at hc <;> cases hc <;> split at hd <;> cases hd
      · simp only [convertible, CT.element, Bool.or_eq_true, decide_eq_true_eq] at h2
        rcases h2 with e | e
        · exact h e
        · exact h (by rw [key hb e])
      · simp [convertible] at h2
      · simp [convertible] at h3
      · simp only [convertible, Bool.and_eq_true, decide_eq_true_eq] at h2
        obtain ⟨rfl, e⟩ := h2
        exact h (by rw [key hb e])
  · cases h2

end Cpp
end OpenMethod

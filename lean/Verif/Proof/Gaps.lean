import Verif.Proof.Call

/-! # Virtual parameters that are not contiguous -/

namespace OpenMethod

open Spec

variable {ptr : Cls → Ptr} {rd : Ptr → Res Word} {ss : List Nat} {arity : Nat}

/-- `resolve_multi_next` looks at `arity - va` parameters. -/
theorem resolveMultiNext_same {ks : List Bool} {as : List (Res Ptr)} {ys : List Cls} (h : ArgsFor ptr ks as ys) :
    ∀ {as' : List (Res Ptr)} {c t t' : List Cls}, ArgsFor ptr ks as' (c ++ t') → ys = c ++ t → ∀ {va : Nat}, va < arity → (ks.take (arity - va)).count true ≤ c.length →
      ∀ d, resolveMultiNext rd ss arity va d ks as = resolveMultiNext rd ss arity va d ks as' := by
  induction h with
  | nil =>
    intro as' c t t' h' _ va _ _ d
    generalize c ++ t' = ys' at h'
    cases h'
    rfl
  | @virt ks as xs x h ih =>
    intro as' c t t' h' hy va hva hn d
    obtain ⟨n, hn'⟩ : ∃ n, arity - va = n + 1 := ⟨arity - va - 1, by omega⟩
    rw [hn', List.take_succ_cons, List.count_cons_self] at hn
    cases c with
    | nil => simp at hn
    | cons x' c =>
      obtain ⟨rfl, rfl⟩ := List.cons.inj hy
      cases h' with
      | virt _ h' =>
        simp only [resolveMultiNext]
        congr 1
        funext d'
        split
        · rfl
        · exact ih h' rfl (by omega) (by
            have : arity - (va + 1) = n := by omega
            rw [this]
            simpa using hn) d'
  | @other ks as xs r h ih =>
    intro as' c t t' h' hy va hva hn d
    obtain ⟨n, hn'⟩ : ∃ n, arity - va = n + 1 := ⟨arity - va - 1, by omega⟩
    rw [hn', List.take_succ_cons, List.count_cons_of_ne (by decide)] at hn
    cases h' with
    | other r' h' =>
      simp only [resolveMultiNext]
      have : nextDispatch rd ss arity va d false r = nextDispatch rd ss arity va d false r' := rfl
      rw [this]
      congr 1
      funext d'
      split
      · rfl
      · exact ih h' hy (by omega) (by
          have : arity - (va + 1) = n := by omega
          rw [this]
          exact hn) d'

theorem contiguous_of_take {ks : List Bool} (h : (ks.take (ks.count true)).count true = ks.count true) :
    ∃ b, ks = List.replicate (ks.count true) true ++ List.replicate b false := by
  have h1 := List.count_le_length (a := true) (l := ks.take (ks.count true))
  have h2 : (ks.take (ks.count true)).length = ks.count true := by
    rw [List.length_take] at *
    omega
  have h3 : ks.take (ks.count true) = List.replicate (ks.count true) true := by
    rw [List.eq_replicate_iff]
    refine ⟨h2, fun b hb => ?_⟩
    exact (List.count_eq_length.1 (h.trans h2.symm) b hb).symm
  refine ⟨(ks.drop (ks.count true)).length, ?_⟩
  have h4 : ks.drop (ks.count true) = List.replicate (ks.drop (ks.count true)).length false := by
    rw [List.eq_replicate_iff]
    refine ⟨rfl, fun b hb => ?_⟩
    have h5 := congrArg (List.count true) (List.take_append_drop (ks.count true) ks)
    rw [List.count_append, h] at h5
    have h6 : (ks.drop (ks.count true)).count true = 0 := by omega
    cases b with
    | false => rfl
    | true => exact absurd hb (List.count_eq_zero.1 h6)
  rw [← h4, ← h3, List.take_append_drop]

/-- If the virtual parameters are not contiguous, the last virtual argument is not looked at. -/
theorem resolveMultiFirst_same (ks : List Bool) : ∀ (as as' : List (Res Ptr)) (c : List Cls) (y y' : Cls), ArgsFor ptr ks as (c ++ [y]) → ArgsFor ptr ks as' (c ++ [y']) →
    ks.count true = arity → ¬ Contiguous ks → resolveMultiFirst rd ss arity ks as = resolveMultiFirst rd ss arity ks as' := by
  induction ks with
  | nil => intro as as' c y y' h h' _ hn; exact absurd ⟨0, 0, 0, rfl⟩ hn
  | cons k ks ih =>
    intro as as' c y y' h h' ha hn
    cases k with
    | false =>
      generalize hy : c ++ [y] = ys at h
      generalize hy' : c ++ [y'] = ys' at h'
      cases h with
      | other r h =>
        cases h' with
        | other r' h' =>
          subst hy hy'
          simp only [resolveMultiFirst]
          refine ih _ _ _ _ _ h h' (by simpa using ha) fun ⟨a, n, b, e⟩ => hn ⟨a + 1, n, b, ?_⟩
          rw [e, List.replicate_succ]
          rfl
    | true =>
      rw [List.count_cons_self] at ha
      have hlt : (ks.take (ks.count true)).count true < ks.count true := by
        refine lt_of_le_of_ne (((List.take_sublist _ _).count_le _)) fun e => ?_
        obtain ⟨b, hb⟩ := contiguous_of_take e
        refine hn ⟨0, ks.count true + 1, b, ?_⟩
        rw [List.replicate_succ]
        conv_lhs => rw [hb]
        rfl
      have hc : c.length = ks.count true := by
        have := h.count
        rw [List.count_cons_self, List.length_append] at this
        simpa using this.symm
      cases c with
      | nil => simp at hc; omega
      | cons x c =>
        cases h with
        | virt _ h =>
          cases h' with
          | virt _ h' =>
            simp only [resolveMultiFirst]
            refine bind_congr_res fun _ => bind_congr_res fun _ => bind_congr_res fun _ => bind_congr_res fun d => ?_
            refine resolveMultiNext_same h h' rfl (by omega) ?_ d
            have : arity - 1 = ks.count true := by omega
            rw [this]
            simp only [List.length_cons] at hc
            omega
where
  bind_congr_res {α β : Type} {x : Res α} {f g : α → Res β} (h : ∀ a, f a = g a) : (x >>= f) = (x >>= g) := by
    have : f = g := funext h
    rw [this]

end OpenMethod

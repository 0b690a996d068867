import Verif.SpecThunk

/-! # Subobjects and casts -/

namespace OpenMethod.Hier

variable {H : Hier} {b c d v x : Cls} {ρ σ τ : Path}

theorem base_cons {bs : List (Cls × Bool)} {w : Bool} (h : WF ((d, bs) :: H)) :
    Base ((d, bs) :: H) c b w ↔ if c = d then (b, w) ∈ bs else Base H c b w := by
  obtain ⟨_, hd, _⟩ := h
  unfold Base
  split
  · subst_vars
    constructor
    · rintro ⟨bs', h1, h2⟩
      rcases List.mem_cons.1 h1 with h1 | h1
      · rw [Prod.mk.injEq] at h1; rw [← h1.2]; exact h2
      · exact absurd ⟨_, h1⟩ hd
    · exact fun h => ⟨bs, List.mem_cons_self, h⟩
  · rename_i hne
    constructor
    · rintro ⟨bs', h1, h2⟩
      rcases List.mem_cons.1 h1 with h1 | h1
      · rw [Prod.mk.injEq] at h1; exact absurd h1.1 hne
      · exact ⟨_, h1, h2⟩
    · exact fun ⟨bs', h1, h2⟩ => ⟨bs', List.mem_cons_of_mem _ h1, h2⟩

theorem defined_cons {bs : List (Cls × Bool)} : Defined ((d, bs) :: H) c ↔ c = d ∨ Defined H c := by
  unfold Defined
  simp only [List.mem_cons, Prod.mk.injEq]
  constructor
  · rintro ⟨bs', h | h⟩
    · exact .inl h.1
    · exact .inr ⟨_, h⟩
  · rintro (rfl | ⟨bs', h⟩)
    · exact ⟨bs, .inl ⟨rfl, rfl⟩⟩
    · exact ⟨bs', .inr h⟩

theorem Base.defined (h : Base H c b w) : Defined H c := by
  obtain ⟨bs, h, _⟩ := h
  exact ⟨bs, h⟩

theorem IsPath.defined (h : IsPath H c σ) : Defined H c := by
  cases h with
  | self h => exact h
  | base h _ => exact h.defined

theorem VBase.defined (h : VBase H c v) : Defined H c := by
  cases h with
  | direct h => exact h.defined
  | step h _ => exact h.defined

theorem WF.base (h : WF H) (hb : Base H c b w) : Defined H b := by
  induction H with
  | nil => obtain ⟨_, h, _⟩ := hb; simp at h
  | cons e H ih =>
    obtain ⟨d, bs⟩ := e
    rw [defined_cons]
    rw [base_cons h] at hb
    split at hb
    · exact .inr (h.2.2 _ hb)
    · exact .inr (ih h.1 hb)

/-- A class is not defined by what only its own definition adds. -/
theorem isPath_cons {bs : List (Cls × Bool)} (h : WF ((d, bs) :: H)) (hc : c ≠ d) : IsPath ((d, bs) :: H) c σ ↔ IsPath H c σ := by
  constructor
  · intro hp
    induction hp with
    | self hd =>
      rcases defined_cons.1 hd with hd | hd
      · exact absurd hd hc
      · exact .self hd
    | @base c b σ hb _ ih =>
      rw [base_cons h, if_neg hc] at hb
      refine .base hb (ih ?_)
      rintro rfl
      exact h.2.1 (h.1.base hb)
  · intro hp
    induction hp with
    | self hd => exact .self (defined_cons.2 (.inr hd))
    | @base c b σ hb _ ih =>
      refine .base ((base_cons h).2 ?_) (ih ?_)
      · rw [if_neg hc]; exact hb
      · rintro rfl
        exact h.2.1 (h.1.base hb)

theorem vbase_cons {bs : List (Cls × Bool)} (h : WF ((d, bs) :: H)) (hc : c ≠ d) : VBase ((d, bs) :: H) c v ↔ VBase H c v := by
  constructor
  · intro hp
    induction hp with
    | direct hb =>
      rw [base_cons h, if_neg hc] at hb
      exact .direct hb
    | step hb _ ih =>
      rw [base_cons h, if_neg hc] at hb
      refine .step hb (ih ?_)
      rintro rfl
      exact h.2.1 (h.1.base hb)
  · intro hp
    induction hp with
    | direct hb => exact .direct ((base_cons h).2 (by rw [if_neg hc]; exact hb))
    | step hb _ ih =>
      refine .step ((base_cons h).2 (by rw [if_neg hc]; exact hb)) (ih ?_)
      rintro rfl
      exact h.2.1 (h.1.base hb)

theorem mem_paths (h : WF H) : σ ∈ H.paths c ↔ IsPath H c σ := by
  induction H generalizing c σ with
  | nil =>
    simp only [paths, List.not_mem_nil, false_iff]
    intro hp
    obtain ⟨_, hd⟩ := hp.defined
    simp at hd
  | cons e H ih =>
    obtain ⟨d, bs⟩ := e
    unfold paths
    split
    · subst_vars
      rw [List.mem_cons, List.mem_flatMap]
      constructor
      · rintro (rfl | ⟨⟨b, w⟩, hb, hσ⟩)
        · exact .self (defined_cons.2 (.inl rfl))
        · cases w with
          | true => simp at hσ
          | false =>
            simp only [Bool.false_eq_true, if_false, List.mem_map] at hσ
            obtain ⟨σ', hσ', rfl⟩ := hσ
            have hd := h.2.2 _ hb
            refine .base ((base_cons h).2 (by rw [if_pos rfl]; exact hb)) ((isPath_cons h ?_).2 ((ih h.1).1 hσ'))
            rintro rfl
            exact h.2.1 hd
      · intro hp
        cases hp with
        | self _ => exact .inl rfl
        | @base _ b σ hb hp =>
          rw [base_cons h, if_pos rfl] at hb
          refine .inr ⟨(b, false), hb, ?_⟩
          simp only [Bool.false_eq_true, if_false, List.mem_map]
          refine ⟨σ, (ih h.1).2 ((isPath_cons h ?_).1 hp), rfl⟩
          rintro rfl
          exact h.2.1 (h.2.2 _ hb)
    · rename_i hne
      rw [ih h.1, isPath_cons h hne]

theorem mem_vbases (h : WF H) : v ∈ H.vbases c ↔ VBase H c v := by
  induction H generalizing c v with
  | nil =>
    simp only [vbases, List.not_mem_nil, false_iff]
    intro hp
    obtain ⟨_, hd⟩ := hp.defined
    simp at hd
  | cons e H ih =>
    obtain ⟨d, bs⟩ := e
    unfold vbases
    split
    · subst_vars
      rw [List.mem_flatMap]
      constructor
      · rintro ⟨⟨b, w⟩, hb, hv⟩
        have hd := h.2.2 _ hb
        have hne : b ≠ d := by rintro rfl; exact h.2.1 hd
        have hB : Base ((d, bs) :: H) d b w := (base_cons h).2 (by rw [if_pos rfl]; exact hb)
        cases w with
        | true =>
          simp only [if_true, List.mem_cons] at hv
          rcases hv with rfl | hv
          · exact .direct hB
          · exact .step hB ((vbase_cons h hne).2 ((ih h.1).1 hv))
        | false =>
          simp only [Bool.false_eq_true, if_false] at hv
          exact .step hB ((vbase_cons h hne).2 ((ih h.1).1 hv))
      · intro hp
        cases hp with
        | direct hb =>
          rw [base_cons h, if_pos rfl] at hb
          exact ⟨_, hb, by simp⟩
        | @step _ b w _ hb hp =>
          rw [base_cons h, if_pos rfl] at hb
          refine ⟨_, hb, ?_⟩
          have hne : b ≠ d := by rintro rfl; exact h.2.1 (h.2.2 _ hb)
          have := (ih h.1).2 ((vbase_cons h hne).1 hp)
          cases w <;> simp [this]
    · rename_i hne
      rw [ih h.1, vbase_cons h hne]

theorem mem_subs (h : WF H) : σ ∈ H.subs c ↔ H.Subobject c σ := by
  unfold subs Subobject
  rw [List.mem_dedup, List.mem_append, List.mem_flatMap, mem_paths h]
  simp only [mem_vbases h, mem_paths h]

theorem mem_occ (h : WF H) : σ ∈ H.occ c b ↔ H.Subobject c σ ∧ OfClass σ b := by
  unfold occ OfClass
  rw [List.mem_filter, mem_subs h]
  simp

theorem nodup_singleton {α : Type} {l : List α} {a : α} (hn : l.Nodup) (ha : a ∈ l) (hu : ∀ b ∈ l, b = a) : l = [a] := by
  match l, hn with
  | [], _ => simp at ha
  | [b], _ => rw [hu b (by simp)]
  | b :: b' :: l, hn =>
    have h1 := hu b (by simp)
    have h2 := hu b' (by simp)
    subst h1
    subst h2
    simp at hn

theorem occ_nodup (H : Hier) (c b : Cls) : (H.occ c b).Nodup := (List.nodup_dedup _).filter _

theorem only_eq_some (h : WF H) : H.only c b = some σ ↔ (H.Subobject c σ ∧ OfClass σ b) ∧ ∀ τ, H.Subobject c τ → OfClass τ b → τ = σ := by
  unfold only
  constructor
  · intro ho
    split at ho
    · rename_i σ' hs
      obtain rfl := Option.some.inj ho
      refine ⟨(mem_occ h).1 (by rw [hs]; simp), fun τ h1 h2 => ?_⟩
      have := (mem_occ h).2 ⟨h1, h2⟩
      rw [hs] at this
      exact List.mem_singleton.1 this
    · cases ho
  · rintro ⟨h1, h2⟩
    rw [nodup_singleton (occ_nodup H c b) ((mem_occ h).2 h1) fun τ hτ => h2 τ ((mem_occ h).1 hτ).1 ((mem_occ h).1 hτ).2]

/-! ## Subobjects of subobjects -/

theorem IsPath.head (h : IsPath H c σ) : σ.head? = some c := by cases h <;> rfl

theorem IsPath.append (hρ : IsPath H c ρ) (hd : OfClass ρ d) (hτ : IsPath H d τ) : IsPath H c (ρ ++ τ.tail) := by
  induction hρ with
  | self _ =>
    obtain rfl := Option.some.inj hd
    cases hτ with
    | self h => exact .self h
    | base h1 h2 => exact .base h1 h2
  | base hb h ih =>
    refine .base hb (ih ?_)
    cases h with
    | self _ => exact hd
    | base _ _ => exact hd

theorem IsPath.vbase (hρ : IsPath H c ρ) (hd : OfClass ρ d) (hv : VBase H d v) : VBase H c v := by
  induction hρ with
  | self _ =>
    obtain rfl := Option.some.inj hd
    exact hv
  | base hb h ih =>
    refine .step hb (ih ?_)
    cases h with
    | self _ => exact hd
    | base _ _ => exact hd

theorem VBase.trans (h : VBase H c v) {w : Cls} (hw : VBase H v w) : VBase H c w := by
  induction h with
  | direct hb => exact .step hb hw
  | step hb _ ih => exact .step hb (ih hw)

theorem Subobject.vbase (hρ : H.Subobject x ρ) (hd : OfClass ρ d) (hv : VBase H d v) : VBase H x v := by
  rcases hρ with h | ⟨w, hw, h⟩
  · exact h.vbase hd hv
  · exact hw.trans (h.vbase hd hv)

theorem last_append (hρ : OfClass ρ d) (hτ : τ.head? = some d) : (ρ ++ τ.tail).getLast? = τ.getLast? := by
  match τ, hτ with
  | [a], hτ =>
    obtain rfl := Option.some.inj hτ
    simpa [OfClass] using hρ
  | a :: b :: τ, _ =>
    rw [List.getLast?_append]
    simp [List.getLast?_cons]

/-- A subobject of a subobject is a subobject. -/
theorem Subobject.sub (hρ : H.Subobject x ρ) (hd : OfClass ρ d) (hτ : H.Subobject d τ) : H.Subobject x (Hier.sub ρ τ) := by
  unfold Hier.sub
  split
  · rename_i he
    rw [show ρ.getLast? = some d from hd] at he
    rcases hτ with h | ⟨v, hv, h⟩
    · rcases hρ with hρ | ⟨w, hw, hρ⟩
      · exact .inl (hρ.append hd h)
      · exact .inr ⟨w, hw, hρ.append hd h⟩
    · have := h.head
      rw [he] at this
      obtain rfl := Option.some.inj this
      rcases hρ with hρ | ⟨w, hw, hρ⟩
      · exact .inl (hρ.append hd h)
      · exact .inr ⟨w, hw, hρ.append hd h⟩
  · rename_i he
    rw [show ρ.getLast? = some d from hd] at he
    rcases hτ with h | ⟨v, hv, h⟩
    · exact absurd h.head he
    · exact .inr ⟨v, hρ.vbase hd hv, h⟩

theorem sub_ofClass (hd : OfClass ρ d) (hτ : OfClass τ b) : OfClass (Hier.sub ρ τ) b := by
  unfold Hier.sub
  split
  · rename_i he
    rw [show ρ.getLast? = some d from hd] at he
    exact (last_append hd he).trans hτ
  · exact hτ

theorem container_append (hρ : ρ.getLast? = τ.head?) : container τ (ρ ++ τ.tail) = some ρ := by
  unfold container
  have : (ρ ++ τ.tail).take ((ρ ++ τ.tail).length - τ.tail.length) = ρ := by
    rw [List.length_append, Nat.add_sub_cancel, List.take_left']
    rfl
  simp only [this]
  simp [hρ]

/-! ## Casts -/

theorem dynamicCast_ok (h : WF H) (hr : NoRepeat H x) (hσ : H.Subobject x σ) (hb : OfClass σ b) (hρ : H.Subobject x ρ) (hd : OfClass ρ d) :
    H.dynamicCast x b d σ = some ρ := by
  have ho : H.occ x d = [ρ] := nodup_singleton (occ_nodup H x d) ((mem_occ h).2 ⟨hρ, hd⟩) fun τ hτ =>
    hr d τ ρ ((mem_occ h).1 hτ).1 hρ ((mem_occ h).1 hτ).2 hd
  have hx : H.only x d = some ρ := by unfold only; rw [ho]
  unfold dynamicCast
  split
  · rename_i τ hτ
    obtain ⟨⟨h1, h2⟩, _⟩ := (only_eq_some h).1 hτ
    rw [hr d _ ρ (hσ.sub hb h1) hρ (sub_ofClass hb h2) hd]
  · rw [ho, hx]
    split
    · rename_i ρ' he
      have : ρ' ∈ [ρ] := List.mem_of_mem_filter (he ▸ List.mem_singleton_self ρ')
      rw [List.mem_singleton.1 this]
    · rfl

/-- Without repeated inheritance, casts to any class of the object succeed. -/
theorem optimalCast_ok (h : WF H) (hr : NoRepeat H x) (hσ : H.Subobject x σ) (hb : OfClass σ b) (hρ : H.Subobject x ρ) (hd : OfClass ρ d) (force : Bool) :
    H.optimalCast force x b d σ = .ok (some ρ) := by
  unfold optimalCast
  split
  · rename_i r hs
    unfold staticCast at hs
    split at hs
    · rename_i τ hτ
      obtain ⟨⟨h1, h2⟩, _⟩ := (only_eq_some h).1 hτ
      rw [← Option.some.inj hs, Res.ok_bind, hr d _ ρ (hσ.sub hb h1) hρ (sub_ofClass hb h2) hd]
    · split at hs
      · rename_i τ hτ
        obtain ⟨⟨h1, h2⟩, _⟩ := (only_eq_some h).1 hτ
        split at hs
        · rename_i hh
          have he : τ.head? = ρ.getLast? := hh.trans (show ρ.getLast? = some d from hd).symm
          have e := hr b _ σ (hρ.sub hd h1) hσ (sub_ofClass hd h2) hb
          unfold Hier.sub at e
          rw [if_pos he] at e
          rw [← Option.some.inj hs, ← e, container_append he.symm]
          rfl
        · cases hs
      · cases hs
  · rw [dynamicCast_ok h hr hσ hb hρ hd]

end OpenMethod.Hier

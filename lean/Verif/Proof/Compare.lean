import Verif.SpecCompare
import Verif.Proof.Params
import Verif.Proof.UseClasses

/-!
# Comparisons: lemmas
-/

namespace OpenMethod

namespace Hier

variable {H : Hier} {c d x : Cls} {σ τ ρ π : Path}

theorem Contains.trans (h : H.Contains ρ σ) (h' : H.Contains σ π) : H.Contains ρ π := by
  induction h' with
  | self => exact h
  | base _ hc hb ih => exact .base ih hc hb
  | vbase _ hc hb ih => exact .vbase ih hc hb

theorem ofClass_append (σ : Path) (b : Cls) : OfClass (σ ++ [b]) b := by simp [OfClass]

theorem contains_path (h : IsPath H d τ) : ∀ ρ, OfClass ρ d → H.Contains ρ (ρ ++ τ.tail) := by
  induction h with
  | self _ => intro ρ _; simpa using Contains.self
  | @base c b σ hb hp ih =>
    intro ρ hρ
    have h1 : H.Contains ρ (ρ ++ [b]) := .base .self hρ hb
    have h2 := ih (ρ ++ [b]) (ofClass_append ρ b)
    have h3 : ρ ++ (c :: σ).tail = ρ ++ [b] ++ σ.tail := by
      cases hp with
      | self _ => simp
      | base _ _ => simp
    rw [h3]
    exact h1.trans h2

theorem contains_vbase {v : Cls} (h : VBase H d v) : ∀ ρ, OfClass ρ d → H.Contains ρ [v] := by
  induction h with
  | direct hb => intro ρ hρ; exact .vbase .self hρ hb
  | @step c b w v hb hv ih =>
    intro ρ hρ
    cases w with
    | false => exact (Contains.base .self hρ hb).trans (ih _ (ofClass_append ρ b))
    | true => exact (Contains.vbase .self hρ hb).trans (ih [b] rfl)

theorem IsPath.cons_tail (h : IsPath H c σ) : [c] ++ σ.tail = σ := by cases h <;> rfl

theorem contains_sub (hρ : OfClass ρ d) (hτ : H.Subobject d τ) : H.Contains ρ (Hier.sub ρ τ) := by
  unfold Hier.sub
  split
  · rename_i he
    rw [show ρ.getLast? = some d from hρ] at he
    rcases hτ with h | ⟨v, hv, h⟩
    · exact contains_path h ρ hρ
    · have := h.head
      rw [he] at this
      obtain rfl := Option.some.inj this
      exact contains_path h ρ hρ
  · rename_i he
    rw [show ρ.getLast? = some d from hρ] at he
    rcases hτ with h | ⟨v, hv, h⟩
    · exact absurd h.head he
    · have := contains_path h [v] rfl
      rw [h.cons_tail] at this
      exact (contains_vbase hv ρ hρ).trans this

theorem sub_self (hρ : OfClass ρ d) : Hier.sub ρ [d] = ρ := by
  unfold Hier.sub
  rw [show ρ.getLast? = some d from hρ]
  simp

theorem IsPath.snoc {b : Cls} (h : IsPath H d τ) (hc : OfClass τ c) (hb : Base H c b false) (hw : H.WF) : IsPath H d (τ ++ [b]) := by
  have := h.append hc (.base hb (.self (hw.base hb)))
  simpa using this

theorem VBase.irrefl {b : Cls} (hw : H.WF) : ¬ VBase H b b := by
  obtain ⟨rank, hr⟩ := hw.rank
  have : ∀ c v, VBase H c v → rank v < rank c := by
    intro c v h
    induction h with
    | direct hb => exact hr _ _ _ hb
    | step hb _ ih => exact ih.trans (hr _ _ _ hb)
  exact fun h => Nat.lt_irrefl _ (this b b h)

/-- What a subobject contains, in terms of the subobjects of its class. -/
theorem contains_iff (hw : H.WF) (hd : H.Defined d) (hρ : OfClass ρ d) : H.Contains ρ σ ↔ ∃ τ, H.Subobject d τ ∧ σ = Hier.sub ρ τ := by
  constructor
  · intro h
    induction h with
    | self => exact ⟨[d], .inl (.self hd), (sub_self hρ).symm⟩
    | @base σ c b h hc hb ih =>
      obtain ⟨τ, hτ, rfl⟩ := ih
      have hne : τ ≠ [] := by
        rintro rfl
        rcases hτ with h | ⟨_, _, h⟩ <;> cases h
      have hcτ : OfClass τ c := by
        obtain ⟨e, he⟩ : ∃ e, OfClass τ e := by
          cases hl : τ.getLast? with
          | none => exact absurd (List.getLast?_eq_none_iff.1 hl) hne
          | some e => exact ⟨e, hl⟩
        have := (sub_ofClass hρ he).symm.trans hc
        obtain rfl := Option.some.inj this
        exact he
      refine ⟨τ ++ [b], ?_, ?_⟩
      · rcases hτ with h | ⟨v, hv, h⟩
        · exact .inl (h.snoc hcτ hb hw)
        · exact .inr ⟨v, hv, h.snoc hcτ hb hw⟩
      · unfold Hier.sub
        obtain ⟨a, τ', rfl⟩ := List.exists_cons_of_ne_nil hne
        simp only [List.cons_append, List.head?_cons, List.tail_cons]
        by_cases ha : some a = ρ.getLast? <;> simp [ha]
    | @vbase σ c b h hc hb ih =>
      obtain ⟨τ, hτ, rfl⟩ := ih
      obtain ⟨e, he⟩ : ∃ e, OfClass τ e := by
        cases hl : τ.getLast? with
        | none =>
          rw [List.getLast?_eq_none_iff.1 hl] at hτ
          rcases hτ with h | ⟨_, _, h⟩ <;> cases h
        | some e => exact ⟨e, hl⟩
      have := (sub_ofClass hρ he).symm.trans hc
      obtain rfl := Option.some.inj this
      have hv : VBase H d b := hτ.vbase he (.direct hb)
      refine ⟨[b], .inr ⟨b, hv, .self (hw.base hb)⟩, ?_⟩
      unfold Hier.sub
      split
      · rename_i hh
        have h' : some b = ρ.getLast? := hh
        rw [show ρ.getLast? = some d from hρ] at h'
        obtain rfl := Option.some.inj h'
        exact absurd hv (VBase.irrefl hw)
      · rfl
  · rintro ⟨τ, hτ, rfl⟩
    exact contains_sub hρ hτ

/-- A part of a part has a class from which the class of the latter inherits. -/
theorem Contains.inherits (hw : H.WF) (hρ : OfClass ρ d) (hd : H.Defined d) (hσ : OfClass σ c) (h : H.Contains ρ σ) : ∃ τ, H.Subobject d τ ∧ OfClass τ c ∧ σ = Hier.sub ρ τ := by
  obtain ⟨τ, hτ, rfl⟩ := (contains_iff hw hd hρ).1 h
  have hne : τ ≠ [] := by
    rintro rfl
    rcases hτ with h | ⟨_, _, h⟩ <;> cases h
  cases hl : τ.getLast? with
  | none => exact absurd (List.getLast?_eq_none_iff.1 hl) hne
  | some e =>
    have := (sub_ofClass hρ hl).symm.trans hσ
    obtain rfl := Option.some.inj this
    exact ⟨τ, hτ, hl, rfl⟩

theorem unambiguous_both (hw : H.WF) (hu : H.Unambiguous d c) (hτ : H.Subobject c τ) (hd : OfClass τ d) : c = d ∧ τ = [c] := by
  obtain ⟨σ, ⟨h1, h2⟩, h3⟩ := hu
  obtain rfl := (h1.inherits h2).antisymm hw (hτ.inherits hd)
  have h4 := h3 [c] (.inl (.self hτ.defined)) rfl
  exact ⟨rfl, (h3 τ hτ hd).trans h4.symm⟩

/-- One way of comparing: the second pointer is converted to the class of the first. -/
theorem sub_eq_iff (hw : H.WF) (hσ : H.Subobject x σ) (hc : OfClass σ c) (hd : OfClass ρ d) (ho : H.only d c = some τ) :
    σ = Hier.sub ρ τ ↔ H.Contains ρ σ ∨ H.Contains σ ρ := by
  obtain ⟨⟨h1, h2⟩, h3⟩ := (only_eq_some hw).1 ho
  constructor
  · rintro rfl
    exact .inl (contains_sub hd h1)
  · rintro (h | h)
    · obtain ⟨υ, h4, h5, rfl⟩ := h.inherits hw hd h1.defined hc
      rw [h3 υ h4 h5]
    · have hdc : H.Defined c := ((hσ.inherits hc).defined hw hσ.defined)
      obtain ⟨υ, h4, h5, rfl⟩ := h.inherits hw hc hdc hd
      obtain ⟨rfl, rfl⟩ := unambiguous_both hw ⟨τ, ⟨h1, h2⟩, h3⟩ h4 h5
      have : τ = [c] := (h3 [c] (.inl (.self hdc)) rfl).symm
      rw [this, sub_self (sub_ofClass hc (show OfClass [c] c from rfl)), sub_self hc]

end Hier

end OpenMethod

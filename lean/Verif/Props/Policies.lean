import Verif.Model.Policies

/-! # C40: policies of a registry -/

namespace OpenMethod.Props

open OpenMethod.Policies

variable {α : Type} [DecidableEq α] {U : Universe α}

/-- The documented requirement (preamble.hpp 917-918): `category` is the root base class. So the category of a class is one of its
bases, and the only base that is a category. -/
structure Rooted (U : Universe α) : Prop where
  base : ∀ p, U.isBase (U.category p) p = true
  root : ∀ p q, U.isBase (U.category p) q = true → U.category q = U.category p

omit [DecidableEq α] in
theorem Rooted.iff (h : Rooted U) (p q : α) : U.isBase (U.category p) q = true ↔ U.category q = U.category p :=
  ⟨h.root p q, fun e => by rw [← e]; exact h.base q⟩

/-- No category appears twice. -/
def OnePerCategory (U : Universe α) (ps : List α) : Prop := (ps.map U.category).Nodup

instance (U : Universe α) (ps : List α) : Decidable (OnePerCategory U ps) := inferInstanceAs (Decidable (List.Nodup _))

/-- C40 in full. `with`: in the resulting list each of the added policies, which have different categories, is the one found for its
category; what is found for the other categories is unchanged; no category appears twice. `without`: removes exactly the
policies of these categories. -/
def C40 : Prop :=
  ∀ (α : Type) (_ : DecidableEq α) (U : Universe α), Rooted U → ∀ (ps : List α), OnePerCategory U ps →
    (∀ new, OnePerCategory U new →
      (∀ p ∈ new, policy U (withPolicies U ps new) (U.category p) = some p) ∧
      (∀ q, (∀ p ∈ new, U.category p ≠ U.category q) → policy U (withPolicies U ps new) (U.category q) = policy U ps (U.category q)) ∧
      OnePerCategory U (withPolicies U ps new)) ∧
    ∀ cs, OnePerCategory U (withoutPolicies U ps cs) ∧ ∀ q, q ∈ withoutPolicies U ps cs ↔ q ∈ ps ∧ ∀ c ∈ cs, U.category q ≠ U.category c

/-- The result of adding one policy. -/
theorem replaceOrAdd_eq (ps : List α) (p : α) : replaceOrAdd U ps p = replace U ps p ∨ replaceOrAdd U ps p = ps ++ [p] ∧ replace U ps p = ps := by
  unfold replaceOrAdd
  split
  · next h => exact .inr ⟨rfl, h⟩
  · exact .inl rfl

omit [DecidableEq α] in
theorem policy_replace_other (h : Rooted U) (ps : List α) {p q : α} (hne : U.category p ≠ U.category q) :
    policy U (replace U ps p) (U.category q) = policy U ps (U.category q) := by
  unfold policy replace
  induction ps with
  | nil => rfl
  | cons x ps ih =>
    rw [List.map_cons]
    by_cases hx : U.isBase (U.category p) x = true
    · rw [if_pos hx, List.find?_cons_of_neg (by intro e; exact hne (h.root q p e)), List.find?_cons_of_neg, ih]
      intro e
      exact hne ((h.root p x hx).symm.trans (h.root q x e))
    · rw [if_neg hx]
      by_cases hq : U.isBase (U.category q) x = true
      · rw [List.find?_cons_of_pos hq, List.find?_cons_of_pos hq]
      · rw [List.find?_cons_of_neg hq, List.find?_cons_of_neg hq, ih]

omit [DecidableEq α] in
/-- All the policies of the category become `p`. -/
theorem mem_replace (h : Rooted U) {ps : List α} {p x : α} (hx : x ∈ replace U ps p) (hc : U.category x = U.category p) : x = p := by
  unfold replace at hx
  obtain ⟨y, _, rfl⟩ := List.mem_map.1 hx
  split
  · rfl
  · next hn =>
    rw [if_neg hn] at hc
    exact absurd ((h.iff p y).2 hc) hn

omit [DecidableEq α] in
theorem policy_some_of_mem (h : Rooted U) {ps : List α} {p : α} (hp : p ∈ ps) (huniq : ∀ x ∈ ps, U.category x = U.category p → x = p) :
    policy U ps (U.category p) = some p := by
  unfold policy
  cases hf : ps.find? fun q => U.isBase (U.category p) q with
  | none =>
    rw [List.find?_eq_none] at hf
    exact absurd (h.base p) (hf p hp)
  | some q =>
    rw [huniq q (List.mem_of_find?_eq_some hf) (h.root p q (List.find?_some (p := fun q => U.isBase (U.category p) q) hf))]

/-- After adding `p`, it is found, for any list. -/
theorem policy_add (h : Rooted U) (ps : List α) (p : α) : policy U (replaceOrAdd U ps p) (U.category p) = some p := by
  unfold replaceOrAdd
  split
  · next hr =>
    refine policy_some_of_mem h (by simp) ?_
    intro x hx hc
    rw [List.mem_append, List.mem_singleton] at hx
    rcases hx with hx | hx
    · rw [← hr] at hx
      exact mem_replace h hx hc
    · exact hx
  · next hr =>
    refine policy_some_of_mem h ?_ fun x hx hc => mem_replace h hx hc
    have : ∃ x ∈ ps, U.isBase (U.category p) x = true := by
      by_contra hn
      apply hr
      unfold replace
      conv_rhs => rw [← List.map_id ps]
      refine List.map_congr_left fun x hx => ?_
      rw [if_neg fun e => hn ⟨x, hx, e⟩]; rfl
    obtain ⟨x, hx, hb⟩ := this
    exact List.mem_map.2 ⟨x, hx, by rw [if_pos hb]⟩

theorem policy_add_other (h : Rooted U) (ps : List α) {p q : α} (hne : U.category p ≠ U.category q) :
    policy U (replaceOrAdd U ps p) (U.category q) = policy U ps (U.category q) := by
  rcases replaceOrAdd_eq (U := U) ps p with e | ⟨e, _⟩ <;> rw [e]
  · exact policy_replace_other h ps hne
  · unfold policy
    rw [List.find?_append]
    have : [p].find? (fun x => U.isBase (U.category q) x) = none := by
      rw [List.find?_eq_none]
      intro x hx hb
      rw [List.mem_singleton] at hx
      subst hx
      exact hne (h.root q x hb)
    rw [this, Option.or_none]

omit [DecidableEq α] in
theorem replace_categories (h : Rooted U) (ps : List α) (p : α) : (replace U ps p).map U.category = ps.map U.category := by
  unfold replace
  rw [List.map_map]
  refine List.map_congr_left fun x _ => ?_
  simp only [Function.comp]
  split
  · next hb => exact (h.root p x hb).symm
  · rfl

/-- What the code guarantees when `p` is not already in the list. -/
theorem one_add (h : Rooted U) {ps : List α} (ho : OnePerCategory U ps) {p : α} (hp : p ∉ ps) : OnePerCategory U (replaceOrAdd U ps p) := by
  unfold OnePerCategory at ho ⊢
  rcases replaceOrAdd_eq (U := U) ps p with e | ⟨e, hr⟩ <;> rw [e]
  · rw [replace_categories h]; exact ho
  · rw [List.map_append, List.nodup_append]
    refine ⟨ho, by simp, ?_⟩
    intro c hc d hd e'
    subst e'
    obtain ⟨x, hx, hxc⟩ := List.mem_map.1 hc
    simp only [List.map_cons, List.map_nil, List.mem_singleton] at hd
    have : x = p := by
      refine mem_replace h (ps := ps) (p := p) ?_ (hxc.trans hd)
      rw [hr]; exact hx
    exact hp (this ▸ hx)

theorem mem_add {ps : List α} {p x : α} (hx : x ∈ replaceOrAdd U ps p) : x ∈ ps ∨ x = p := by
  rcases replaceOrAdd_eq (U := U) ps p with e | ⟨e, _⟩ <;> rw [e] at hx
  · unfold replace at hx
    obtain ⟨y, hy, rfl⟩ := List.mem_map.1 hx
    split
    · exact .inr rfl
    · exact .inl hy
  · simpa using hx

theorem policy_with_other (h : Rooted U) (new : List α) : ∀ (ps : List α) {q : α}, (∀ p ∈ new, U.category p ≠ U.category q) →
    policy U (withPolicies U ps new) (U.category q) = policy U ps (U.category q) := by
  induction new with
  | nil => intro ps q _; rfl
  | cons p new ih =>
    intro ps q hq
    have : withPolicies U ps (p :: new) = withPolicies U (replaceOrAdd U ps p) new := rfl
    rw [this, ih _ fun r hr => hq r (by simp [hr])]
    exact policy_add_other h ps (hq p (by simp))

/-- C40, what is found for each category, for any list and any added policies: the last one added in the category, or else what
was there. -/
theorem C40_lookup (h : Rooted U) (ps before after : List α) (p : α) (ha : ∀ r ∈ after, U.category r ≠ U.category p) :
    policy U (withPolicies U ps (before ++ p :: after)) (U.category p) = some p ∧
    ∀ new q, (∀ r ∈ new, U.category r ≠ U.category q) → policy U (withPolicies U ps new) (U.category q) = policy U ps (U.category q) := by
  refine ⟨?_, fun new q hq => policy_with_other h new ps hq⟩
  have : withPolicies U ps (before ++ p :: after) = withPolicies U (replaceOrAdd U (withPolicies U ps before) p) after := by
    unfold withPolicies
    rw [List.foldl_append, List.foldl_cons]
  rw [this, policy_with_other h after _ ha]
  exact policy_add h _ p

omit [DecidableEq α] in
/-- C40, `without`. -/
theorem C40_without (h : Rooted U) (cs : List α) : ∀ (ps : List α),
    (OnePerCategory U ps → OnePerCategory U (withoutPolicies U ps cs)) ∧
    ∀ q, q ∈ withoutPolicies U ps cs ↔ q ∈ ps ∧ ∀ c ∈ cs, U.category q ≠ U.category c := by
  induction cs with
  | nil => intro ps; exact ⟨fun h => h, fun q => by simp [withoutPolicies]⟩
  | cons c cs ih =>
    intro ps
    have e : withoutPolicies U ps (c :: cs) = withoutPolicies U (ps.filter fun q => !U.isBase (U.category c) q) cs := rfl
    rw [e]
    obtain ⟨h1, h2⟩ := ih (ps.filter fun q => !U.isBase (U.category c) q)
    refine ⟨fun ho => h1 ?_, fun q => ?_⟩
    · exact ho.sublist (List.filter_sublist.map _)
    · rw [h2, List.mem_filter]
      simp only [List.mem_cons, forall_eq_or_imp]
      have : (!U.isBase (U.category c) q) = true ↔ U.category q ≠ U.category c := by
        rw [ne_eq, ← h.iff c q]
        cases U.isBase (U.category c) q <;> simp
      rw [this, and_assoc]

/-- C40, when the added policies are not in the registry yet. -/
theorem C40_partial (h : Rooted U) (new : List α) : ∀ (ps : List α), OnePerCategory U ps → OnePerCategory U new → (∀ p ∈ new, p ∉ ps) →
    (∀ p ∈ new, policy U (withPolicies U ps new) (U.category p) = some p) ∧
    (∀ q, (∀ p ∈ new, U.category p ≠ U.category q) → policy U (withPolicies U ps new) (U.category q) = policy U ps (U.category q)) ∧
    OnePerCategory U (withPolicies U ps new) := by
  induction new with
  | nil => intro ps ho _ _; exact ⟨by simp, fun _ _ => rfl, ho⟩
  | cons p new ih =>
    intro ps ho hn hd
    unfold OnePerCategory at hn
    rw [List.map_cons, List.nodup_cons] at hn
    have hne : ∀ r ∈ new, U.category r ≠ U.category p := fun r hr e => hn.1 (by rw [← e]; exact List.mem_map.2 ⟨r, hr, rfl⟩)
    have h3 : ∀ r ∈ new, r ∉ replaceOrAdd U ps p := by
      intro r hr hm
      rcases mem_add hm with hm | hm
      · exact hd r (by simp [hr]) hm
      · exact hne r hr (by rw [hm])
    obtain ⟨i1, i2, i3⟩ := ih (replaceOrAdd U ps p) (one_add h ho (hd p (by simp))) hn.2 h3
    refine ⟨?_, fun q hq => policy_with_other h _ _ hq, i3⟩
    intro r hr
    rcases List.mem_cons.1 hr with rfl | hr
    · have : withPolicies U ps (r :: new) = withPolicies U (replaceOrAdd U ps r) new := rfl
      rw [this, policy_with_other h new _ hne]
      exact policy_add h _ r
    · exact i1 r hr

/-- The categories (preamble.hpp 576-791) and policies of the library. -/
inductive Lib
  | rtti | deferredStaticRtti | stdRtti | staticRtti
  | errorHandler | defaultErrorHandler | throwErrorHandler
  | vptr | vptrVector | vptrMap
  | typeHash | fastPerfectHash
  | output | stderrOutput
  | indirectVptr | runtimeChecks
  deriving DecidableEq

def Lib.category : Lib → Lib
  | .rtti | .deferredStaticRtti | .stdRtti | .staticRtti => .rtti
  | .errorHandler | .defaultErrorHandler | .throwErrorHandler => .errorHandler
  | .vptr | .vptrVector | .vptrMap => .vptr
  | .typeHash | .fastPerfectHash => .typeHash
  | .output | .stderrOutput => .output
  | .indirectVptr => .indirectVptr
  | .runtimeChecks => .runtimeChecks

/-- All the policies of the library derive directly from their category. -/
def lib : Universe Lib where
  isBase b d := b = d || b = d.category
  category := Lib.category

theorem lib_rooted : Rooted lib where
  base p := by simp [lib]
  root p q := by cases p <;> cases q <;> decide

/-- `default_registry` (default_registry.hpp 45-55). -/
def defaultPolicies : List Lib := [.stdRtti, .vptrVector, .fastPerfectHash, .defaultErrorHandler, .stderrOutput]

/-- C40 does not hold: `default_registry::with<std_rtti>` contains `std_rtti` twice, since the replacement leaves the list as it is. -/
theorem C40_refuted : ¬ C40 := by
  intro h
  have := ((h Lib inferInstance lib lib_rooted defaultPolicies (by decide)).1 [.stdRtti] (by decide)).2.2
  exact absurd this (by decide)

/-- What the duplicate means for the errors of a registry: `with<fast_perfect_hash>` on `default_registry`. -/
example : withPolicies lib defaultPolicies [.fastPerfectHash] = defaultPolicies ++ [.fastPerfectHash] := by decide

/-- The other parts hold for all lists. -/
example : policy lib (withPolicies lib defaultPolicies [.stdRtti]) .rtti = some .stdRtti :=
  (C40_lookup lib_rooted defaultPolicies [] [] .stdRtti (by simp)).1

/-- A case of `C40_partial`: one policy replaced, two added. -/
example : (∀ p ∈ [Lib.throwErrorHandler, .runtimeChecks, .indirectVptr], p ∉ defaultPolicies) ∧ OnePerCategory lib defaultPolicies ∧
    OnePerCategory lib [.throwErrorHandler, .runtimeChecks, .indirectVptr] ∧
    withPolicies lib defaultPolicies [.throwErrorHandler, .runtimeChecks, .indirectVptr] =
      [.stdRtti, .vptrVector, .fastPerfectHash, .throwErrorHandler, .stderrOutput, .runtimeChecks, .indirectVptr] := by decide

/-- A case of `C40_without`. -/
example : withoutPolicies lib defaultPolicies [.typeHash, .indirectVptr] = [.stdRtti, .vptrVector, .defaultErrorHandler, .stderrOutput] := by decide

end OpenMethod.Props

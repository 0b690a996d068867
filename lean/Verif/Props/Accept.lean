import Verif.Proof.Accept
import Verif.Examples.Programs
import Mathlib.Tactic.FinCases

/-! # C19, C20: which registrations are accepted -/

namespace OpenMethod.Props

open Spec Examples

variable {n : Bool} {pl : Platform} {p : Program} {gen : Nat}

/-- C19, soundness: the class reported as missing is used and was not registered. -/
theorem C19_sound (hv : p.Valid) {t : TypeId} (h : install pl n p gen = .err (.missingClass t)) : Unregistered p t := by
  rcases install_cases (n := n) (pl := pl) hv gen with ⟨t', h1, h2⟩ | ⟨_, ⟨b, d, _, _, _, _, _, h1, _⟩ | ⟨_, ⟨_, _, h1⟩ | ⟨h1, _⟩⟩⟩
  · rw [h] at h1
    cases h1
    exact h2
  all_goals rw [h] at h1; simp at h1

/-- C19: `initialize` reports a missing class if and only if a class that is used was not registered. -/
theorem C19 (hv : p.Valid) : (∃ t, install pl n p gen = .err (.missingClass t)) ↔ ∃ t, Unregistered p t := by
  constructor
  · rintro ⟨t, h⟩
    exact ⟨t, C19_sound hv h⟩
  · rintro ⟨t, hn, hr⟩
    rcases install_cases (n := n) (pl := pl) hv gen with ⟨t', h1, h2⟩ | ⟨h1, _⟩
    · exact ⟨t', h1⟩
    · exact absurd (h1 t hn) hr

/-- C20 in full: when all classes are registered, `initialize` reports a missing base if and only if the class of a parameter
of an overrider is not known to derive from the class of the parameter of the method; the error names the class of the method as
base, and the class of the overrider as derived. -/
def C20 : Prop :=
  ∀ (n : Bool) (pl : Platform) (p : Program) (gen : Nat), p.Valid → (∀ t, Named p t → Registered p (p.rtti.ti t)) →
    ((∃ b d, install pl n p gen = .err (.missingBase b d)) ↔ ∃ m o k t v, NotDerived p m o k t v) ∧
    ∀ b d, install pl n p gen = .err (.missingBase b d) → ∃ m o k t v, NotDerived p m o k t v ∧ SameClass p b v ∧ SameClass p d t

/-- C20, except that the fields of the error are exchanged: `base` is the class of the overrider and `derived` is the class of
the method. -/
theorem C20_partial (hv : p.Valid) (hr : ∀ t, Named p t → Registered p (p.rtti.ti t)) :
    ((∃ b d, install pl n p gen = .err (.missingBase b d)) ↔ ∃ m o k t v, NotDerived p m o k t v) ∧
    ∀ b d, install pl n p gen = .err (.missingBase b d) → ∃ m o k t v, NotDerived p m o k t v ∧ SameClass p b t ∧ SameClass p d v := by
  rcases install_cases (n := n) (pl := pl) hv gen with ⟨t, h1, h2⟩ | ⟨_, ⟨b, d, m, o, k, t, v, h1, h2⟩ | ⟨h1, h2⟩⟩
  · exact absurd (hr t h2.1) h2.2
  · refine ⟨⟨fun _ => ⟨m, o, k, t, v, h2.1⟩, fun _ => ⟨b, d, h1⟩⟩, ?_⟩
    intro b' d' h
    rw [h1] at h
    cases h
    exact ⟨m, o, k, t, v, h2⟩
  · have hno : ∀ b d, install pl n p gen ≠ .err (.missingBase b d) := by
      intro b d h
      rcases h2 with ⟨_, _, h2⟩ | ⟨h2, _⟩ <;> (rw [h] at h2; simp at h2)
    refine ⟨⟨fun ⟨b, d, h⟩ => absurd h (hno b d), fun ⟨m, o, k, t, v, h⟩ => absurd h (h1 m o k t v)⟩, fun b d h => absurd h (hno b d)⟩

/-- Registrations are accepted exactly when all classes that are used are registered and parameters of overriders derive from
the parameters of the methods; then nothing goes wrong in `initialize`. Without option `n2216`. -/
theorem C20_accepted (hv : p.Valid) : (∃ rep img, install pl false p gen = .ok (rep, img)) ↔
    (∀ t, Named p t → Registered p (p.rtti.ti t)) ∧ ∀ m o k t v, ¬ NotDerived p m o k t v := by
  rcases install_cases (n := false) (pl := pl) hv gen with ⟨t, h1, h2⟩ | ⟨h0, ⟨b, d, m, o, k, t, v, h1, h2⟩ | ⟨h1, h2 | ⟨_, h2⟩⟩⟩
  · rw [h1]
    exact ⟨fun ⟨_, _, h⟩ => by simp at h, fun h => absurd (h.1 t h2.1) h2.2⟩
  · rw [h1]
    exact ⟨fun ⟨_, _, h⟩ => by simp at h, fun h => absurd h2.1 (h.2 m o k t v)⟩
  · exact ⟨fun _ => ⟨h0, h1⟩, fun _ => h2⟩
  · simp at h2

/-! ## Concrete cases -/

/-- Class 2 is not registered. -/
def noDog : Program := prog [cls 1 []] [meth 0 [true] [1] [ov [2] 10]]

/-- Class 3 is registered without its base. -/
def noBase : Program := prog [cls 1 [], cls 3 []] [meth 0 [true] [1] [ov [3] 10]]

/-- A base that is not registered, and an overrider with a return type that is not registered. -/
def noBases : Program := prog [cls 1 [], cls 2 [7, 1]] []
def noRet : Program := prog [cls 1 [], cls 2 [1]] [⟨0, [true], ids [1], 1#64, [ovr [2] 9 10]⟩]

/-- The same return type when the return type of the method is not registered either: accepted. -/
def otherRet : Program := prog [cls 1 [], cls 2 [1]] [⟨0, [true], ids [1], 8#64, [ovr [2] 9 10]⟩]

example : install .std false noDog 0 = .err (.missingClass 2#64) := errOf_eq (by decide +kernel)
example : install .std true noBases 0 = .err (.missingClass 7#64) := errOf_eq (by decide +kernel)
example : install .std false noRet 0 = .err (.missingClass 9#64) := errOf_eq (by decide +kernel)
example : isOk (install .std false otherRet 0) = true := by decide +kernel
example : isOk (install .std false zoo 0) = true := by decide +kernel

theorem noBase_reports : install .std false noBase 0 = .err (.missingBase 3#64 1#64) := errOf_eq (by decide +kernel)

theorem noBase_registered : ∀ t, Named noBase t → Registered noBase (noBase.rtti.ti t) := by
  rintro t (⟨cr, hcr, ht⟩ | ⟨m, hm, ht⟩)
  · fin_cases hcr <;> fin_cases ht <;> first | exact ⟨cls 1 [], by simp [noBase, prog], rfl⟩ | exact ⟨cls 3 [], by simp [noBase, prog], rfl⟩
  · fin_cases hm
    rcases ht with ht | ⟨o, ho, ht⟩
    · fin_cases ht; exact ⟨cls 1 [], by simp [noBase, prog], rfl⟩
    · fin_cases ho
      rcases ht with ht | ⟨_, h, _⟩
      · fin_cases ht; exact ⟨cls 3 [], by simp [noBase, prog], rfl⟩
      · exact absurd rfl h

/-- C20 does not hold: the error says that the base is 3, the class of the overrider. -/
theorem C20_refuted : ¬ C20 := by
  intro h
  obtain ⟨m, o, k, t, v, ⟨hm, ho, ht, hv, _⟩, h1, h2⟩ :=
    (h false .std noBase 0 (Check.valid (by decide +kernel)) noBase_registered).2 _ _ noBase_reports
  fin_cases hm
  fin_cases ho
  match k with
  | 0 =>
    obtain rfl : 1#64 = v := Option.some.inj hv
    simp [SameClass, noBase, prog, rt] at h1
  | k + 1 => simp [meth, ids] at hv

/-- The hypotheses of `C20_partial` are met by a program in which a base is missing. -/
example : noBase.Valid ∧ (∃ m o k t v, NotDerived noBase m o k t v) :=
  ⟨Check.valid (by decide +kernel), (C20_partial (n := false) (pl := .std) (gen := 0) (Check.valid (by decide +kernel)) noBase_registered).1.1
    ⟨_, _, noBase_reports⟩⟩

end OpenMethod.Props

import Verif.SpecOptions
import Verif.Props.Trace

/-! # C80: options passed to `initialize` -/

namespace OpenMethod.Props

open Spec Examples

variable {E : Env} {out : Bool} {p : Program} {s : RegState} {as : List OptArg}

/-- C80 in full: options are taken into account, in whatever way they are passed. -/
def C80 : Prop := ∀ (E : Env) (out : Bool) (p : Program) (s : RegState) (as : List OptArg), Sensible out as →
  ∃ t, TraceSetting as t ∧ initOptions E out p s as = some (initRegistryT { E with n2216 := decide (Passed as .n2216) } p s t)

theorem hasOption_iff {c : OptClass} : hasOption (as.map OptArg.deduced) c = true ↔ ∃ a ∈ as, a.cls = c ∧ Plainly a := by
  unfold hasOption
  rw [List.contains_iff_mem, List.mem_map]
  constructor
  · rintro ⟨a, ha, h⟩
    simp only [OptArg.deduced, OptType.mk.injEq] at h
    exact ⟨a, ha, h.1, h.2⟩
  · rintro ⟨a, ha, h1, h2, h3⟩
    exact ⟨a, ha, by simp [OptArg.deduced, h1, h2, h3]⟩

theorem getTrace_some {a : OptArg} (ha : a ∈ as) (hc : a.cls = .trace) (hp : Plainly a) (h1 : (as.filter fun a => a.cls == .trace).length ≤ 1) : getTrace as = some a := by
  have hsub : (as.filter fun a => a.deduced == { cls := .trace, const := false, ref := false }).Sublist (as.filter fun a => a.cls == .trace) := by
    apply List.monotone_filter_right
    intro x hx
    have hx' := eq_of_beq hx
    simp only [OptArg.deduced, OptType.mk.injEq] at hx'
    simp [hx'.1]
  have hmem : a ∈ as.filter fun a => a.deduced == { cls := .trace, const := false, ref := false } := by
    refine List.mem_filter.2 ⟨ha, ?_⟩
    simp [OptArg.deduced, hc, hp.1, hp.2]
  unfold getTrace
  have hlen := hsub.length_le.trans h1
  rcases hL : as.filter fun a => a.deduced == { cls := .trace, const := false, ref := false } with _ | ⟨b, _ | ⟨c, l⟩⟩
  · rw [hL] at hmem
    simp at hmem
  · rw [hL] at hmem
    simp only [List.mem_singleton] at hmem
    rw [hmem, hL]
  · rw [hL] at hlen
    simp at hlen

/-- What `initialize` does in all cases: the options that count are the rvalues that are not constant. -/
theorem C80_exact (h : Sensible out as) :
    ∃ t, TraceSetting (as.filter fun a => !a.const && !a.lvalue) t ∧
      initOptions E out p s as = some (initRegistryT { E with n2216 := decide (Passed (as.filter fun a => !a.const && !a.lvalue) .n2216) } p s t) := by
  have hpass : ∀ c, Passed (as.filter fun a => !a.const && !a.lvalue) c ↔ hasOption (as.map OptArg.deduced) c = true := by
    intro c
    rw [hasOption_iff]
    constructor
    · rintro ⟨a, ha, hc⟩
      simp only [List.mem_filter, Bool.and_eq_true, Bool.not_eq_true'] at ha
      exact ⟨a, ha.1, hc, ha.2⟩
    · rintro ⟨a, ha, hc, h1, h2⟩
      exact ⟨a, List.mem_filter.2 ⟨ha, by simp [h1, h2]⟩, hc⟩
  have hn : decide (Passed (as.filter fun a => !a.const && !a.lvalue) .n2216) = hasOption (as.map OptArg.deduced) .n2216 := by
    rw [Bool.eq_iff_iff, decide_eq_true_iff, hpass]
  rw [hn]
  by_cases ht : hasOption (as.map OptArg.deduced) .trace = true
  · obtain ⟨a, ha, hc, hp⟩ := hasOption_iff.1 ht
    refine ⟨some a.on, .passed (List.mem_filter.2 ⟨ha, by simp [hp.1, hp.2]⟩) hc, ?_⟩
    have ho : out = true := h.output ⟨a, ha, hc⟩
    simp [initOptions, traceOpt, ht, ho, getTrace_some ha hc hp h.one]
  · refine ⟨none, .absent fun hx => ht ((hpass _).1 hx), ?_⟩
    rw [Bool.not_eq_true] at ht
    simp [initOptions, traceOpt, ht]

/-- C80 for objects that are moved or temporary, and not constant. -/
theorem C80_partial (h : Sensible out as) (hp : ∀ a ∈ as, a.cls = .trace ∨ a.cls = .n2216 → Plainly a) :
    ∃ t, TraceSetting as t ∧ initOptions E out p s as = some (initRegistryT { E with n2216 := decide (Passed as .n2216) } p s t) := by
  obtain ⟨t, ht, he⟩ := C80_exact (E := E) (p := p) (s := s) h
  have hpass : ∀ c, c = .trace ∨ c = .n2216 → (Passed (as.filter fun a => !a.const && !a.lvalue) c ↔ Passed as c) := by
    intro c hc
    constructor
    · rintro ⟨a, ha, h1⟩
      exact ⟨a, (List.mem_filter.1 ha).1, h1⟩
    · rintro ⟨a, ha, h1⟩
      obtain ⟨h2, h3⟩ := hp a ha (h1 ▸ hc)
      exact ⟨a, List.mem_filter.2 ⟨ha, by simp [h2, h3]⟩, h1⟩
  refine ⟨t, ?_, ?_⟩
  · cases ht with
    | absent h => exact .absent fun hx => h ((hpass _ (.inl rfl)).2 hx)
    | passed ha hc => exact .passed (List.mem_filter.1 ha).1 hc
  · rw [he]
    congr 3
    rw [Bool.eq_iff_iff, decide_eq_true_iff, decide_eq_true_iff]
    exact hpass _ (.inr rfl)

/-- Variables that are passed to `initialize` have no effect, whatever they contain; neither have constants. -/
theorem C80_ignored (h : ∀ a ∈ as, a.lvalue = true ∨ a.const = true) : initOptions E out p s as = initOptions E out p s [] := by
  have hno : ∀ c, hasOption (as.map OptArg.deduced) c = false := by
    intro c
    rw [← Bool.not_eq_true, hasOption_iff]
    rintro ⟨a, ha, _, h1, h2⟩
    rcases h a ha with hx | hx
    · rw [h2] at hx; cases hx
    · rw [h1] at hx; cases hx
  have hno' : ∀ c, hasOption (([] : List OptArg).map OptArg.deduced) c = false := by simp [hasOption]
  simp only [initOptions, traceOpt, hno, hno', Bool.false_and, Bool.false_eq_true, if_false]

/-- Which calls compile: those that make sense, if the options that do not count are ignored. -/
theorem C80_accepted : (initOptions E out p s as).isSome = true ↔ Sensible out (as.filter fun a => !a.const && !a.lvalue) := by
  have hfil : (as.filter fun a => a.deduced == { cls := .trace, const := false, ref := false }) = (as.filter fun a => !a.const && !a.lvalue).filter fun a => a.cls == .trace := by
    rw [List.filter_filter]
    apply List.filter_congr
    intro a _
    rcases a with ⟨c, o, k, l⟩
    rw [Bool.eq_iff_iff]
    simp only [OptArg.deduced, beq_iff_eq, OptType.mk.injEq, Bool.and_eq_true, Bool.not_eq_true']
  have hpass : Passed (as.filter fun a => !a.const && !a.lvalue) .trace ↔ hasOption (as.map OptArg.deduced) .trace = true := by
    rw [hasOption_iff]
    constructor
    · rintro ⟨a, ha, hc⟩
      simp only [List.mem_filter, Bool.and_eq_true, Bool.not_eq_true'] at ha
      exact ⟨a, ha.1, hc, ha.2⟩
    · rintro ⟨a, ha, hc, h1, h2⟩
      exact ⟨a, List.mem_filter.2 ⟨ha, by simp [h1, h2]⟩, hc⟩
  have hmem : Passed (as.filter fun a => !a.const && !a.lvalue) .trace ↔ (as.filter fun a => a.deduced == { cls := .trace, const := false, ref := false }) ≠ [] := by
    rw [hfil]
    constructor
    · rintro ⟨a, ha, hc⟩
      exact List.ne_nil_of_mem (List.mem_filter.2 ⟨ha, by simp [hc]⟩)
    · intro hne
      obtain ⟨a, ha⟩ := List.exists_mem_of_ne_nil _ hne
      obtain ⟨h1, h2⟩ := List.mem_filter.1 ha
      exact ⟨a, h1, eq_of_beq h2⟩
  by_cases ht : hasOption (as.map OptArg.deduced) .trace = true
  · have hne := hmem.1 (hpass.2 ht)
    have hget : (getTrace as).isSome = true ↔ ((as.filter fun a => !a.const && !a.lvalue).filter fun a => a.cls == .trace).length ≤ 1 := by
      rw [← hfil]
      unfold getTrace
      rcases hL : as.filter fun a => a.deduced == { cls := .trace, const := false, ref := false } with _ | ⟨b, _ | ⟨c, l⟩⟩
      · exact absurd hL hne
      · simp [hL]
      · simp [hL]
    cases out with
    | false =>
      simp only [initOptions, ht, Bool.not_false, Bool.and_self, if_true, Option.isSome_none, Bool.false_eq_true, false_iff]
      exact fun h => by simpa using h.output (hpass.2 ht)
    | true =>
      simp only [initOptions, traceOpt, ht, Bool.not_true, Bool.and_false, Bool.false_eq_true, if_false, if_true, Option.isSome_map]
      rw [hget]
      exact ⟨fun h => ⟨h, fun _ => rfl⟩, fun h => h.one⟩
  · have hn : ¬ Passed (as.filter fun a => !a.const && !a.lvalue) .trace := fun h => ht (hpass.1 h)
    rw [Bool.not_eq_true] at ht
    simp only [initOptions, traceOpt, ht, Bool.false_and, Bool.false_eq_true, if_false, Option.isSome_map, Option.isSome_some, true_iff]
    refine ⟨?_, fun h => absurd h hn⟩
    have := (not_congr hmem).1 hn
    rw [not_not, hfil] at this
    rw [this]
    simp

/-! ## Refutation -/

/-- `trace t; initialize(t);` -/
def traceVar : OptArg := { cls := .trace, on := true, const := false, lvalue := true }

/-- `n2216 rule; initialize(rule);` and `initialize(n2216())` -/
def n2216Var : OptArg := { cls := .n2216, on := false, const := false, lvalue := true }
def n2216Temp : OptArg := { cls := .n2216, on := false, const := false, lvalue := false }

/-- Nothing is written if the trace is a variable. -/
theorem C80_refuted : ¬ C80 := by
  intro h
  have hs : Sensible true [traceVar] := ⟨by decide, fun _ => rfl⟩
  obtain ⟨t, ht, he⟩ := h (env plain) true zoo .init [traceVar] hs
  have h0 : initOptions (env plain) true zoo .init [traceVar] = initOptions (env plain) true zoo .init [] := C80_ignored (by simp [traceVar])
  rw [h0] at he
  cases ht with
  | absent hx => exact hx ⟨traceVar, by simp, rfl⟩
  | passed ha hc =>
    simp only [List.mem_singleton] at ha
    subst ha
    have h1 : (initRegistryT (env plain) zoo .init none).1 = [] := C79_absent (good (by decide +kernel))
    have h2 : initOptions (env plain) true zoo .init [] = some (initRegistryT (env plain) zoo .init none) := rfl
    rw [h2] at he
    have h3 : decide (Passed [traceVar] .n2216) = false := by decide
    rw [h3] at he
    have h4 : (initRegistryT (env plain) zoo .init (some true)).1 = [] := by
      rw [← h1, Option.some.inj he]
      rfl
    have h5 : .indent 0 ∈ (initRegistryT (env plain) zoo .init (some true)).1 := by decide +kernel
    rw [h4] at h5
    simp at h5

/-- The report of a call to `initialize`. -/
def reportOf (r : Option (List Tok × Res InitOut)) : Option Report :=
  r.bind fun r => match r.2 with
    | .ok ⟨_, .ok rep⟩ => some rep
    | _ => none

/-- The rules of N2216 are not applied either if the option is a variable: four methods have ambiguous calls, which they have not if the option is temporary. -/
theorem C80_ambiguous : (reportOf (initOptions (env plain) true coProg .init [n2216Temp])).map (·.ambiguous) = some 0 ∧
    (reportOf (initOptions (env plain) true coProg .init [n2216Var])).map (·.ambiguous) = some 4 := by
  constructor <;> decide +kernel

/-! ## Examples -/

/-- `initialize(n2216(), trace())` -/
example : Sensible true [n2216Temp, { traceVar with lvalue := false }] := ⟨by decide, fun _ => rfl⟩
example : ∀ a ∈ [n2216Temp, { traceVar with lvalue := false }], a.cls = .trace ∨ a.cls = .n2216 → Plainly a := by simp [Plainly, n2216Temp, traceVar]

/-- `initialize(trace(), trace())` does not compile, nor does `trace` without output policy. -/
example : initOptions (env plain) true zoo .init [{ traceVar with lvalue := false }, { traceVar with lvalue := false }] = none := rfl
example : initOptions (env plain) false zoo .init [{ traceVar with lvalue := false }] = none := rfl

end OpenMethod.Props

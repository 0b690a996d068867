import Verif.Proof.Odr
import Verif.Props.ErrorHandler

/-! # C78: inconsistent definitions of default_registry -/

namespace OpenMethod.Props

variable {ops : List LinkOp}

/-- C78 in full: `initialize` reports `odr_violation` if and only if translation units of the program and of the libraries that are loaded define `default_registry` differently;
this also for `indirect_registry`, which is derived from it. -/
def C78 : Prop :=
  ∀ (ops : List LinkOp) (r : RegName), r = .default ∨ r = .indirect → (odrDetected ((Linked.run ops).countOf r) = true ↔ Conflict (loadedAfter ops))

/-- C78, one direction: definitions that are inconsistent are always detected. -/
theorem C78_detected (h : Conflict (loadedAfter ops)) : odrDetected ((Linked.run ops).countOf .default) = true := by
  rw [← run_loaded, conflict_iff] at h
  obtain ⟨a, ha, b, hb, hne⟩ := h
  unfold odrDetected Linked.countOf
  rw [decide_eq_true_eq]
  refine Nat.lt_of_lt_of_le ?_ (counted ops)
  have : [a, b].length ≤ (defsOf (Linked.run ops).loaded).dedup.length := by
    refine List.Subperm.length_le (List.subperm_of_subset (by simp [hne]) ?_)
    intro d hd
    rw [List.mem_dedup]
    rcases List.mem_cons.1 hd with rfl | hd
    · exact ha
    · rw [List.mem_singleton] at hd; rw [hd]; exact hb
  exact this

/-- C78, the other direction: the error is only reported if definitions are, or were, inconsistent. -/
theorem C78_reported (h : odrDetected ((Linked.run ops).countOf .default) = true) : ∃ pre, pre <+: ops ∧ Conflict (loadedAfter pre) := by
  by_contra hn
  have := count_of_no_conflict ops (fun pre hpre hc => hn ⟨pre, hpre, hc⟩)
  unfold odrDetected Linked.countOf at h
  rw [decide_eq_true_eq] at h
  dsimp only at h
  rw [this] at h
  split at h <;> omega

/-- C78 for `default_registry`, when no library is unloaded: libraries may be loaded at any time. -/
theorem C78_partial (hl : ∀ op ∈ ops, ∃ m, op = .load m) : odrDetected ((Linked.run ops).countOf .default) = true ↔ Conflict (loadedAfter ops) := by
  refine ⟨fun h => ?_, C78_detected⟩
  obtain ⟨pre, ⟨post, rfl⟩, hc⟩ := C78_reported h
  have key : ∀ (post : List LinkOp) (l : List LinkUnit), (∀ op ∈ post, ∃ m, op = .load m) → Conflict l → Conflict (post.foldl loadedStep l) := by
    intro post
    induction post with
    | nil => intro l _ h; exact h
    | cons op post ih =>
      intro l ho ⟨m, hm, n, hn, h⟩
      obtain ⟨x, rfl⟩ := ho op (by simp)
      exact ih _ (fun op h => ho op (by simp [h])) ⟨m, List.mem_append_left _ hm, n, List.mem_append_left _ hn, h⟩
  unfold loadedAfter
  rw [List.foldl_append]
  exact key post _ (fun op h => hl op (by simp [h])) hc

/-- What happens then: the error handler is called, and `initialize` does not return. -/
theorem C78_error (S : Setup) (cfg : Config) (E : Env) (p : Program) {st st' : EffState} {o : Out LibVal} (h : Conflict (loadedAfter ops))
    (hr : (LibOp.init E ((Linked.run ops).countOf .default) p).run S cfg st = (o, st')) :
    Leaves S st .odrViolation o ∧ handlerCalls st'.log = handlerCalls st.log ++ (currentHandler S st.handler).toList.map (·, .odrViolation) := by
  have hd : Reports cfg st.reg (.init E ((Linked.run ops).countOf .default) p) .odrViolation := by
    unfold Reports
    exact .inl ⟨by simpa [odrDetected] using C78_detected h, rfl⟩
  exact C43 hd hr

/-- When definitions were always consistent, `initialize` never calls the handler with this error. -/
theorem C78_noError (cfg : Config) (E : Env) (p : Program) {st : EffState} (h : ∀ pre, pre <+: ops → ¬ Conflict (loadedAfter pre)) (e : Err)
    (hr : Reports cfg st.reg (.init E ((Linked.run ops).countOf .default) p) e) : ∃ s', initRegistry E p st.reg = .ok { state := s', result := .error e } := by
  rcases hr with ⟨hr, _⟩ | ⟨_, hr⟩
  · obtain ⟨pre, hpre, hc⟩ := C78_reported (ops := ops) (by simpa [odrDetected] using hr)
    exact absurd hc (h pre hpre)
  · exact hr

/-- Other registries: nothing is detected. -/
theorem C78_others (ops : List LinkOp) {r : RegName} (h : r ≠ .default) : odrDetected ((Linked.run ops).countOf r) = false := by
  cases r with
  | default => exact absurd rfl h
  | indirect => rfl
  | user n => rfl

/-- Modules that do not share variables: inconsistencies within a module are detected, and only these. -/
theorem C78_unshared (m : LinkUnit) : odrDetected m.ownCount = true ↔ ∃ a ∈ m.defs, ∃ b ∈ m.defs, a ≠ b := by
  have h1 : (Linked.run [.load m]).count = m.ownCount := by
    simp [Linked.run, LinkOp.run, Linked.load, Linked.start, hasDef, LinkUnit.ownCount]
  have := C78_partial (ops := [.load m]) (by simp)
  rw [show (Linked.run [.load m]).countOf .default = m.ownCount from h1] at this
  rw [this]
  unfold Conflict loadedAfter
  simp [loadedStep]

/-! ## The code does not satisfy C78 -/

/-- A program without runtime checks loads a library that was compiled with them, and unloads it: `initialize` fails from then on. -/
theorem C78_refuted : ¬ C78 := by
  intro h
  have := (h [.load ⟨[0, 0]⟩, .load ⟨[1]⟩, .unload 1 false] .default (.inl rfl)).1 (by decide)
  revert this
  rintro ⟨m, hm, n, hn, a, ha, b, hb, hne⟩
  simp [loadedAfter, loadedStep] at hm hn
  subst hm hn
  simp at ha hb
  exact hne (ha.trans hb.symm)

/-- Two translation units of a program define `indirect_registry` differently: this is not detected. -/
theorem C78_indirect_refuted : ¬ ∀ ops : List LinkOp, Conflict (loadedAfter ops) → odrDetected ((Linked.run ops).countOf .indirect) = true := by
  intro h
  have := h [.load ⟨[0, 1]⟩] ⟨⟨[0, 1]⟩, by simp [loadedAfter, loadedStep], ⟨[0, 1]⟩, by simp [loadedAfter, loadedStep], 0, by simp, 1, by simp, by decide⟩
  cases this

/-! ## The hypotheses are met -/

/-- test/mix_release_debug: two units of a program. -/
example : Conflict (loadedAfter [.load ⟨[0, 1]⟩]) ∧ odrDetected ((Linked.run [.load ⟨[0, 1]⟩]).countOf .default) = true :=
  ⟨⟨⟨[0, 1]⟩, by simp [loadedAfter, loadedStep], ⟨[0, 1]⟩, by simp [loadedAfter, loadedStep], 0, by simp, 1, by simp, by decide⟩, by decide⟩

/-- Several units and libraries, all consistent. -/
example : odrDetected ((Linked.run [.load ⟨[]⟩, .load ⟨[1, 1]⟩, .load ⟨[1]⟩, .unload 2 false, .load ⟨[1, 1, 1]⟩]).countOf .default) = false := by decide

/-- A library loaded later is not consistent with the program. -/
example : odrDetected ((Linked.run [.load ⟨[1, 1]⟩, .load ⟨[1]⟩, .load ⟨[0, 0]⟩]).countOf .default) = true := by decide

end OpenMethod.Props

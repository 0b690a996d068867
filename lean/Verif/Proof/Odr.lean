import Verif.SpecOdr
import Mathlib.Data.List.Induction

/-! # Detection of inconsistent definitions: lemmas -/

namespace OpenMethod

variable {l : List LinkUnit}

theorem run_loaded (ops : List LinkOp) : (Linked.run ops).loaded = loadedAfter ops := by
  have : ∀ s : Linked, (ops.foldl LinkOp.run s).loaded = ops.foldl loadedStep s.loaded := by
    induction ops with
    | nil => intro s; rfl
    | cons op ops ih =>
      intro s
      rw [List.foldl_cons, List.foldl_cons, ih]
      congr 1
      cases op with
      | load m => rfl
      | unload i stays => cases stays <;> rfl
  exact this .start

theorem run_snoc (ops : List LinkOp) (op : LinkOp) : Linked.run (ops ++ [op]) = op.run (Linked.run ops) := by
  unfold Linked.run
  rw [List.foldl_append]; rfl

/-- The definitions that are present. -/
def defsOf (l : List LinkUnit) : List RegDef := l.flatMap (·.defs)

theorem mem_defsOf {d : RegDef} : d ∈ defsOf l ↔ ∃ m ∈ l, d ∈ m.defs := by
  unfold defsOf; rw [List.mem_flatMap]

theorem hasDef_iff {d : RegDef} : hasDef l d = true ↔ d ∈ defsOf l := by
  unfold hasDef; rw [List.any_eq_true, mem_defsOf]; simp

theorem conflict_iff : Conflict l ↔ ∃ a ∈ defsOf l, ∃ b ∈ defsOf l, a ≠ b := by
  constructor
  · rintro ⟨m, hm, n, hn, a, ha, b, hb, h⟩
    exact ⟨a, mem_defsOf.2 ⟨m, hm, ha⟩, b, mem_defsOf.2 ⟨n, hn, hb⟩, h⟩
  · rintro ⟨a, ha, b, hb, h⟩
    obtain ⟨m, hm, ha⟩ := mem_defsOf.1 ha
    obtain ⟨n, hn, hb⟩ := mem_defsOf.1 hb
    exact ⟨m, hm, n, hn, a, ha, b, hb, h⟩

theorem unused_iff : l.all (fun m => m.defs.isEmpty) = true ↔ defsOf l = [] := by
  unfold defsOf
  simp [List.flatMap_eq_nil_iff]

/-- Every definition that is present was counted. -/
theorem counted (ops : List LinkOp) : (defsOf (Linked.run ops).loaded).dedup.length ≤ (Linked.run ops).count := by
  induction ops using List.reverseRecOn with
  | nil => exact Nat.le_refl _
  | append_singleton ops op ih =>
    rw [run_snoc]
    generalize Linked.run ops = s at ih
    cases op with
    | load m =>
      have h : (defsOf (s.loaded ++ [m])).dedup.Perm ((defsOf s.loaded).dedup ++ m.defs.dedup.filter fun d => !hasDef s.loaded d) := by
        rw [List.perm_ext_iff_of_nodup (List.nodup_dedup _)]
        · intro d
          have : defsOf (s.loaded ++ [m]) = defsOf s.loaded ++ m.defs := by simp [defsOf]
          rw [this]
          simp only [List.mem_dedup, List.mem_append, List.mem_filter, Bool.not_eq_true', ← Bool.not_eq_true, hasDef_iff]
          by_cases hd : d ∈ defsOf s.loaded <;> simp [hd]
        · refine List.Nodup.append (List.nodup_dedup _) ((List.nodup_dedup _).filter _) ?_
          intro d h1 h2
          have h2 := (List.mem_filter.1 h2).2
          rw [Bool.not_eq_true', ← Bool.not_eq_true, hasDef_iff] at h2
          exact h2 (List.mem_dedup.1 h1)
      have := h.length_eq
      rw [List.length_append] at this
      show (defsOf (s.loaded ++ [m])).dedup.length ≤ s.count + _
      omega
    | unload i stays =>
      show (defsOf (s.unload i stays).loaded).dedup.length ≤ (s.unload i stays).count
      unfold Linked.unload
      cases stays with
      | true => exact ih
      | false =>
        simp only [Bool.false_eq_true, if_false]
        split
        · next h =>
          rw [unused_iff.1 h]; exact Nat.le_refl _
        · refine Nat.le_trans ?_ ih
          refine List.Subperm.length_le (List.subperm_of_subset (List.nodup_dedup _) ?_)
          intro d hd
          rw [List.mem_dedup] at hd ⊢
          obtain ⟨m, hm, hd⟩ := mem_defsOf.1 hd
          exact mem_defsOf.2 ⟨m, List.mem_of_mem_eraseIdx hm, hd⟩

/-- The value of `count` as long as there was no conflict. -/
theorem count_of_no_conflict (ops : List LinkOp) (h : ∀ pre, pre <+: ops → ¬ Conflict (loadedAfter pre)) :
    (Linked.run ops).count = if defsOf (Linked.run ops).loaded = [] then 0 else 1 := by
  induction ops using List.reverseRecOn with
  | nil => rfl
  | append_singleton ops op ih =>
    have ih := ih (fun pre hpre => h pre (hpre.trans (List.prefix_append _ _)))
    have hn := h _ (List.prefix_refl _)
    rw [← run_loaded, conflict_iff, run_snoc] at hn
    rw [run_snoc]
    generalize Linked.run ops = s at ih hn
    cases op with
    | load m =>
      have hd : defsOf (LinkOp.run s (.load m)).loaded = defsOf s.loaded ++ m.defs := by simp [LinkOp.run, Linked.load, defsOf]
      rw [hd] at hn ⊢
      show s.count + _ = _
      by_cases he : defsOf s.loaded = []
      · rw [ih, if_pos he, he, List.nil_append, Nat.zero_add]
        have hf : (m.defs.dedup.filter fun d => !hasDef s.loaded d) = m.defs.dedup := by
          rw [List.filter_eq_self]
          intro d _
          rw [Bool.not_eq_true', ← Bool.not_eq_true, hasDef_iff, he]; simp
        rw [hf]
        cases hm : m.defs with
        | nil => simp
        | cons a as =>
          rw [if_neg (by simp)]
          have hone : (a :: as).dedup.Perm [a] := by
            rw [List.perm_ext_iff_of_nodup (List.nodup_dedup _) (by simp)]
            intro d
            rw [List.mem_dedup, List.mem_singleton]
            constructor
            · intro hd
              by_contra hne
              exact hn ⟨d, by rw [he, hm]; exact hd, a, by rw [he, hm]; simp, hne⟩
            · rintro rfl; simp
          exact hone.length_eq
      · rw [ih, if_neg he, if_neg (by simp [he])]
        have hf : (m.defs.dedup.filter fun d => !hasDef s.loaded d) = [] := by
          rw [List.filter_eq_nil_iff]
          intro d hd
          simp only [Bool.not_eq_true', Bool.not_eq_false]
          rw [hasDef_iff]
          obtain ⟨a, ha⟩ := List.exists_mem_of_ne_nil _ he
          by_contra hd'
          exact hn ⟨d, by simp [List.mem_dedup.1 hd], a, by simp [ha], fun e => hd' (e ▸ ha)⟩
        rw [hf]; rfl
    | unload i stays =>
      show (s.unload i stays).count = if defsOf (s.unload i stays).loaded = [] then 0 else 1
      unfold Linked.unload
      cases stays with
      | true => exact ih
      | false =>
        simp only [Bool.false_eq_true, if_false]
        by_cases hu : defsOf (s.loaded.eraseIdx i) = []
        · rw [if_pos (unused_iff.2 hu), if_pos hu]
        · rw [if_neg (fun h => hu (unused_iff.1 h)), if_neg hu, ih, if_neg]
          intro he
          refine hu ?_
          rw [List.eq_nil_iff_forall_not_mem] at he ⊢
          intro d hd
          obtain ⟨m, hm, hd⟩ := mem_defsOf.1 hd
          exact he d (mem_defsOf.2 ⟨m, List.mem_of_mem_eraseIdx hm, hd⟩)

end OpenMethod

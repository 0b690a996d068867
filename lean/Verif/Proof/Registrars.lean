import Verif.SpecRegistrars
import Verif.Proof.StaticList

/-! # Registrars: the lists contain the records of live objects -/

namespace OpenMethod

open Spec

theorem has_iff {l : List (Nat × Ids)} {x : Nat} : Has l x ↔ x ∈ l.map (·.1) := by
  simp [Has]

/-- The lists and the records represent the live objects. -/
structure Registrars.Rep (deferred : Bool) (s : Registrars) (L : Alive) : Prop where
  classes : s.classes.Rep (L.classes.map (·.1))
  methods : s.methods.Rep (L.methods.map (·.1))
  overriders : ∀ m, (s.overriders m).Rep ((L.overriders m).map (·.1))
  attached : ∀ m o, s.attached m o = true ↔ Has (L.overriders m) o ∨ L.stale m o
  cls : deferred = false → ∀ ct ∈ L.classes, s.ids.cls ct.1 = ct.2.cls ct.1 ∧ s.ids.bases ct.1 = ct.2.bases ct.1
  meth : deferred = false → ∀ mt ∈ L.methods, s.ids.vp mt.1 = mt.2.vp mt.1 ∧ s.ids.ret mt.1 = mt.2.ret mt.1
  ovr : deferred = false → ∀ m, ∀ ot ∈ L.overriders m, s.ids.ovp m ot.1 = ot.2.ovp m ot.1 ∧ s.ids.oret m ot.1 = ot.2.oret m ot.1

namespace Registrars

variable {deferred : Bool} {s : Registrars} {L L' : Alive} {now : Ids} {e : RegEvent}

theorem init_rep : Registrars.init.Rep deferred .none where
  classes := SList.init_rep
  methods := SList.init_rep
  overriders _ := SList.init_rep
  attached _ _ := by simp [init, Alive.none, Has]
  cls _ := by simp [Alive.none]
  meth _ := by simp [Alive.none]
  ovr _ := by simp [Alive.none]

theorem mem_shrink {α : Type} {l a b : List α} {x y : α} (h : l = a ++ x :: b) (hy : y ∈ a ++ b) : y ∈ l := by
  subst h
  simp only [List.mem_append, List.mem_cons] at hy ⊢
  tauto

theorem step_rep (h : s.Rep deferred L) (hs : Alive.Step now L e L') : ∃ s', s.step deferred now e = .ok s' ∧ s'.Rep deferred L' := by
  cases hs with
  | @useClass c hc =>
    rw [has_iff] at hc
    obtain ⟨l, h1, h2⟩ := SList.pushBack_rep h.classes hc
    refine ⟨_, by simp only [step, h1, Res.ok_bind]; rfl, ?_⟩
    refine { h with classes := by simpa using h2, cls := ?_, meth := ?_, ovr := ?_ }
    · rintro rfl ct hct
      simp only [List.mem_append, List.mem_singleton] at hct
      rcases hct with hct | rfl
      · have hne : ct.1 ≠ c := by
          rintro rfl; exact hc (List.mem_map_of_mem hct)
        simpa [Ids.resolveClass, Function.update, hne] using h.cls rfl ct hct
      · simp [Ids.resolveClass]
    · rintro rfl mt hmt
      simpa [Ids.resolveClass] using h.meth rfl mt hmt
    · rintro rfl m ot hot
      simpa [Ids.resolveClass] using h.ovr rfl m ot hot
  | @dropClass c t a b hL =>
    have hr := h.classes
    rw [hL, List.map_append, List.map_cons] at hr
    obtain ⟨l, h1, h2⟩ := SList.remove_rep hr
    refine ⟨_, by simp only [step, h1, Res.ok_bind]; rfl, ?_⟩
    exact { h with classes := by simpa using h2, cls := fun hd ct hct => h.cls hd ct (mem_shrink hL hct) }
  | @declare m hm =>
    rw [has_iff] at hm
    obtain ⟨l, h1, h2⟩ := SList.pushBack_rep h.methods hm
    refine ⟨_, by simp only [step, h1, Res.ok_bind]; rfl, ?_⟩
    refine { h with methods := by simpa using h2, cls := ?_, meth := ?_, ovr := ?_ }
    · rintro rfl ct hct
      simpa [Ids.resolveMethod] using h.cls rfl ct hct
    · rintro rfl mt hmt
      simp only [List.mem_append, List.mem_singleton] at hmt
      rcases hmt with hmt | rfl
      · have hne : mt.1 ≠ m := by
          rintro rfl; exact hm (List.mem_map_of_mem hmt)
        simpa [Ids.resolveMethod, Function.update, hne] using h.meth rfl mt hmt
      · simp [Ids.resolveMethod]
    · rintro rfl m ot hot
      simpa [Ids.resolveMethod] using h.ovr rfl m ot hot
  | @undeclare m t a b hL =>
    have hr := h.methods
    rw [hL, List.map_append, List.map_cons] at hr
    obtain ⟨l, h1, h2⟩ := SList.remove_rep hr
    refine ⟨_, by simp only [step, h1, Res.ok_bind]; rfl, ?_⟩
    exact { h with methods := by simpa using h2, meth := fun hd mt hmt => h.meth hd mt (mem_shrink hL hmt) }
  | @override m o ho hst =>
    have hat : s.attached m o = false := by
      rw [← Bool.not_eq_true, h.attached]; tauto
    have ho' := ho
    rw [has_iff] at ho'
    obtain ⟨l, h1, h2⟩ := SList.pushBack_rep (h.overriders m) ho'
    refine ⟨_, by simp only [step, hat, h1, Res.ok_bind]; rfl, ?_⟩
    refine { h with overriders := ?_, attached := ?_, cls := ?_, meth := ?_, ovr := ?_ }
    · intro m'
      by_cases hm : m' = m
      · subst hm; simpa using h2
      · simpa [Function.update, hm] using h.overriders m'
    · intro m' o'
      by_cases hm : m' = m
      · subst hm
        by_cases hoo : o' = o
        · subst hoo; simp [has_iff]
        · simp only [Function.update_self, Function.update_of_ne hoo]
          rw [h.attached]
          simp [Has, hoo]
      · simp only [Function.update_of_ne hm]
        exact h.attached m' o'
    · rintro rfl ct hct
      simpa [Ids.resolveOverrider] using h.cls rfl ct hct
    · rintro rfl mt hmt
      simpa [Ids.resolveOverrider] using h.meth rfl mt hmt
    · rintro rfl m' ot hot
      by_cases hm : m' = m
      · subst hm
        simp only [Function.update_self, List.mem_append, List.mem_singleton] at hot
        rcases hot with hot | rfl
        · have hne : ot.1 ≠ o := by
            rintro rfl; exact ho' (List.mem_map_of_mem hot)
          simpa [Ids.resolveOverrider, Function.update, hne] using h.ovr rfl m' ot hot
        · simp [Ids.resolveOverrider]
      · simp only [Function.update_of_ne hm] at hot
        simpa [Ids.resolveOverrider, Function.update, hm] using h.ovr rfl m' ot hot
  | @twice m o ho =>
    have hat : s.attached m o = true := (h.attached m o).2 (.inl ho)
    exact ⟨s, by simp only [step, hat, if_true], h⟩
  | @drop m o t a b hL =>
    have hat : s.attached m o = true := (h.attached m o).2 (.inl ⟨t, by rw [hL]; simp⟩)
    have hr := h.overriders m
    rw [hL, List.map_append, List.map_cons] at hr
    obtain ⟨l, h1, h2⟩ := SList.remove_rep hr
    refine ⟨_, by simp only [step, hat, if_true, h1, Res.ok_bind]; rfl, ?_⟩
    refine { h with overriders := ?_, attached := ?_, ovr := ?_ }
    · intro m'
      by_cases hm : m' = m
      · subst hm; simpa using h2
      · simpa [Function.update, hm] using h.overriders m'
    · intro m' o'
      simp only
      rw [h.attached]
      by_cases hm : m' = m
      · subst hm
        simp only [Function.update_self, true_and]
        rw [hL]
        by_cases hoo : o' = o
        · subst hoo
          have : Has (a ++ (o', t) :: b) o' := ⟨t, by simp⟩
          simp [this]
        · simp [Has, hoo]
      · simp [hm]
    · intro hd m' ot hot
      by_cases hm : m' = m
      · subst hm
        simp only [Function.update_self] at hot
        exact h.ovr hd m' ot (mem_shrink hL hot)
      · simp only [Function.update_of_ne hm] at hot
        exact h.ovr hd m' ot hot
  | @unmapOverrider m o ho =>
    refine ⟨_, rfl, ?_⟩
    refine { h with overriders := ?_, attached := ?_ }
    · intro m'
      by_cases hm : m' = m
      · subst hm
        have ho' := ho
        rw [has_iff] at ho'
        obtain ⟨e1, e2⟩ := (h.overriders m').out o ho'
        simp only [Function.update_self]
        rw [← e1, Function.update_eq_self, e1, ← e2, Function.update_eq_self]
        exact h.overriders m'
      · simpa [Function.update, hm] using h.overriders m'
    · intro m' o'
      by_cases hm : m' = m
      · subst hm
        by_cases hoo : o' = o
        · subst hoo
          simpa using ho
        · simp only [Function.update_self, Function.update_of_ne hoo]
          rw [h.attached]; simp [hoo]
      · simp only [Function.update_of_ne hm]
        rw [h.attached]; simp [hm]
  | @unmapMethod m hm ho =>
    refine ⟨_, rfl, ?_⟩
    have hf : (s.overriders m).first = none := by rw [(h.overriders m).first, ho]; rfl
    have : Function.update s.overriders m { s.overriders m with first := none } = s.overriders := by
      rw [← hf]; exact Function.update_eq_self _ _
    rw [this]
    exact h

theorem run_rep {es : List (RegEvent × Ids)} (h : s.Rep deferred L) (hs : Alive.History L es L') :
    ∃ s', s.run deferred es = .ok s' ∧ s'.Rep deferred L' := by
  induction hs generalizing s with
  | nil => exact ⟨s, rfl, h⟩
  | cons hs _ ih =>
    obtain ⟨s1, h1, h2⟩ := step_rep h hs
    obtain ⟨s2, h3, h4⟩ := ih h2
    refine ⟨s2, ?_, h4⟩
    unfold run at *
    rw [List.foldlM_cons, h1, Res.ok_bind, h3]

end Registrars

/-! ## The number of live objects -/

/-- The number of objects constructed in a history. -/
theorem Spec.Alive.Step.length {L L' : Alive} {now : Ids} {e : RegEvent} (hs : Alive.Step now L e L') :
    L'.classes.length ≤ L.classes.length + 1 ∧ L'.methods.length ≤ L.methods.length + 1 ∧
    ∀ m, (L'.overriders m).length ≤ (L.overriders m).length + 1 := by
  cases hs with
  | useClass => simp
  | dropClass hL => simp [hL]; omega
  | declare => simp
  | undeclare hL => simp [hL]; omega
  | @override m o =>
    refine ⟨by simp, by simp, fun m' => ?_⟩
    by_cases hm : m' = m
    · subst hm; simp
    · simp [Function.update_of_ne hm]
  | twice => simp
  | @drop m o t a b hL =>
    refine ⟨by simp, by simp, fun m' => ?_⟩
    by_cases hm : m' = m
    · subst hm; simp [hL]; omega
    · simp [Function.update_of_ne hm]
  | unmapOverrider => simp
  | unmapMethod => simp

theorem Spec.Alive.History.length {L L' : Alive} {es : List (RegEvent × Ids)} (hs : Alive.History L es L') :
    L'.classes.length ≤ L.classes.length + es.length ∧ L'.methods.length ≤ L.methods.length + es.length ∧
    ∀ m, (L'.overriders m).length ≤ (L.overriders m).length + es.length := by
  induction hs with
  | nil => simp
  | cons hs _ ih =>
    have := hs.length
    refine ⟨by simp; omega, by simp; omega, fun m => ?_⟩
    have h1 := ih.2.2 m
    have h2 := this.2.2 m
    simp; omega

/-! ## Deferred type ids -/

theorem resolveClass_fold (now : Ids) (cs : List Nat) (ids : Ids) :
    (∀ c, (cs.foldl now.resolveClass ids).cls c = if c ∈ cs then now.cls c else ids.cls c) ∧
    (∀ c, (cs.foldl now.resolveClass ids).bases c = if c ∈ cs then now.bases c else ids.bases c) := by
  induction cs generalizing ids with
  | nil => simp
  | cons a cs ih =>
    obtain ⟨h1, h2⟩ := ih (now.resolveClass ids a)
    refine ⟨fun c => ?_, fun c => ?_⟩
    · rw [List.foldl_cons, h1]
      by_cases hc : c ∈ cs
      · simp [hc]
      · by_cases ha : c = a
        · subst ha; simp [hc, Ids.resolveClass]
        · simp [hc, ha, Ids.resolveClass, Function.update]
    · rw [List.foldl_cons, h2]
      by_cases hc : c ∈ cs
      · simp [hc]
      · by_cases ha : c = a
        · subst ha; simp [hc, Ids.resolveClass]
        · simp [hc, ha, Ids.resolveClass, Function.update]

theorem resolveOverrider_fold (now : Ids) (m : Nat) (os : List Nat) (ids : Ids) :
    let r := os.foldl (fun ids o => now.resolveOverrider ids m o) ids
    r.cls = ids.cls ∧ r.bases = ids.bases ∧ r.vp = ids.vp ∧ r.ret = ids.ret ∧
    (∀ m' o, r.ovp m' o = if m' = m ∧ o ∈ os then now.ovp m' o else ids.ovp m' o) ∧
    (∀ m' o, r.oret m' o = if m' = m ∧ o ∈ os then now.oret m' o else ids.oret m' o) := by
  induction os generalizing ids with
  | nil => simp
  | cons a os ih =>
    obtain ⟨h1, h2, h3, h4, h5, h6⟩ := ih (now.resolveOverrider ids m a)
    refine ⟨h1, h2, h3, h4, fun m' o => ?_, fun m' o => ?_⟩
    · rw [List.foldl_cons, h5]
      by_cases hm : m' = m
      · subst hm
        by_cases ho : o ∈ os
        · simp [ho]
        · by_cases ha : o = a
          · subst ha; simp [ho, Ids.resolveOverrider]
          · simp [ho, ha, Ids.resolveOverrider, Function.update]
      · simp [hm, Ids.resolveOverrider, Function.update]
    · rw [List.foldl_cons, h6]
      by_cases hm : m' = m
      · subst hm
        by_cases ho : o ∈ os
        · simp [ho]
        · by_cases ha : o = a
          · subst ha; simp [ho, Ids.resolveOverrider]
          · simp [ho, ha, Ids.resolveOverrider, Function.update]
      · simp [hm, Ids.resolveOverrider, Function.update]

theorem resolveMethods_fold (now : Ids) (ms : List (Nat × List Nat)) (ids : Ids) :
    let r := ms.foldl (fun ids mo => mo.2.foldl (fun ids o => now.resolveOverrider ids mo.1 o) (now.resolveMethod ids mo.1)) ids
    r.cls = ids.cls ∧ r.bases = ids.bases ∧
    (∀ m, r.vp m = if m ∈ ms.map (·.1) then now.vp m else ids.vp m) ∧
    (∀ m, r.ret m = if m ∈ ms.map (·.1) then now.ret m else ids.ret m) ∧
    (∀ m o, (∃ os, (m, os) ∈ ms ∧ o ∈ os) ∨ ids.ovp m o = now.ovp m o → r.ovp m o = now.ovp m o) ∧
    (∀ m o, (∃ os, (m, os) ∈ ms ∧ o ∈ os) ∨ ids.oret m o = now.oret m o → r.oret m o = now.oret m o) := by
  induction ms generalizing ids with
  | nil => simp
  | cons a ms ih =>
    obtain ⟨g1, g2, g3, g4, g5, g6⟩ := resolveOverrider_fold now a.1 a.2 (now.resolveMethod ids a.1)
    obtain ⟨h1, h2, h3, h4, h5, h6⟩ := ih (a.2.foldl (fun ids o => now.resolveOverrider ids a.1 o) (now.resolveMethod ids a.1))
    refine ⟨?_, ?_, fun m => ?_, fun m => ?_, fun m o hmo => ?_, fun m o hmo => ?_⟩
    · rw [List.foldl_cons, h1, g1]; rfl
    · rw [List.foldl_cons, h2, g2]; rfl
    · rw [List.foldl_cons, h3, g3]
      by_cases hm : m ∈ ms.map (·.1)
      · simp only [hm, if_true, List.map_cons, List.mem_cons, or_true]
      · simp only [hm, if_false, List.map_cons, List.mem_cons, or_false]
        by_cases ha : m = a.1
        · subst ha; simp [Ids.resolveMethod]
        · simp [ha, Ids.resolveMethod, Function.update]
    · rw [List.foldl_cons, h4, g4]
      by_cases hm : m ∈ ms.map (·.1)
      · simp only [hm, if_true, List.map_cons, List.mem_cons, or_true]
      · simp only [hm, if_false, List.map_cons, List.mem_cons, or_false]
        by_cases ha : m = a.1
        · subst ha; simp [Ids.resolveMethod]
        · simp [ha, Ids.resolveMethod, Function.update]
    · rw [List.foldl_cons]
      refine h5 m o ?_
      rcases hmo with ⟨os, hos, ho⟩ | hmo
      · rcases List.mem_cons.1 hos with rfl | hos
        · refine .inr ?_
          rw [g5]; simp [ho]
        · exact .inl ⟨os, hos, ho⟩
      · refine .inr ?_
        rw [g5]
        split
        · rfl
        · exact hmo
    · rw [List.foldl_cons]
      refine h6 m o ?_
      rcases hmo with ⟨os, hos, ho⟩ | hmo
      · rcases List.mem_cons.1 hos with rfl | hos
        · refine .inr ?_
          rw [g6]; simp [ho]
        · exact .inl ⟨os, hos, ho⟩
      · refine .inr ?_
        rw [g6]
        split
        · rfl
        · exact hmo

theorem collectAll_some {α β : Type} {f : α → Option β} {g : α → β} {l : List α} (h : ∀ a ∈ l, f a = some (g a)) :
    collectAll f l = some (l.map g) := by
  induction l with
  | nil => rfl
  | cons a l ih =>
    unfold collectAll
    rw [h a (by simp), ih fun b hb => h b (List.mem_cons_of_mem _ hb)]
    rfl

/-- What `initialize` finds. -/
theorem Registrars.Rep.program {deferred : Bool} {s : Registrars} {L : Alive} (h : s.Rep deferred L) (D : Decls) (rtti : Rtti) (now : Ids)
    {fuel : Nat} (hc : L.classes.length ≤ fuel) (hm : L.methods.length ≤ fuel) (ho : ∀ m, (L.overriders m).length ≤ fuel) :
    s.program deferred D rtti fuel now = some (L.program D rtti fun t => if deferred then now else t) := by
  unfold Registrars.program
  rw [SList.iterate_rep h.classes fuel (by simpa using hc), SList.iterate_rep h.methods fuel (by simpa using hm)]
  simp only [Option.bind_eq_bind, Option.bind_some]
  rw [collectAll_some (g := fun m => (m, (L.overriders m).map (·.1)))
    (fun m _ => by rw [SList.iterate_rep (h.overriders m) fuel (by simpa using ho m)]; rfl)]
  simp only [Option.bind_some, Option.pure_def, Option.some.injEq]
  unfold Alive.program
  simp only [List.map_map, Program.mk.injEq, true_and]
  cases hd : deferred with
  | false =>
    simp only [Bool.false_eq_true, if_false]
    refine ⟨List.map_congr_left fun ct hct => ?_, List.map_congr_left fun mt hmt => ?_⟩
    · obtain ⟨e1, e2⟩ := h.cls hd ct hct
      simp [readClass, e1, e2]
    · obtain ⟨e1, e2⟩ := h.meth hd mt hmt
      simp only [Function.comp_apply, readMethod, e1, e2, List.map_map, MethodInfo.mk.injEq, true_and]
      refine List.map_congr_left fun ot hot => ?_
      obtain ⟨e1, e2⟩ := h.ovr hd mt.1 ot hot
      simp [readOverrider, e1, e2]
  | true =>
    simp only [if_true, Ids.resolveAll]
    obtain ⟨g1, g2⟩ := resolveClass_fold now (L.classes.map (·.1)) s.ids
    obtain ⟨h1, h2, h3, h4, h5, h6⟩ := resolveMethods_fold now
      ((L.methods.map (·.1)).map fun m => (m, (L.overriders m).map (·.1))) ((L.classes.map (·.1)).foldl now.resolveClass s.ids)
    refine ⟨List.map_congr_left fun ct hct => ?_, List.map_congr_left fun mt hmt => ?_⟩
    · have hct' : ct.1 ∈ L.classes.map (·.1) := List.mem_map_of_mem hct
      simp only [Function.comp_apply, readClass]
      rw [List.map_map] at h1 h2
      rw [h1, h2, g1, g2, if_pos hct', if_pos hct']
    · have hmt' : mt.1 ∈ ((L.methods.map (·.1)).map fun m => (m, (L.overriders m).map (·.1))).map (·.1) := by
        simp only [List.map_map, List.mem_map, Function.comp_apply]
        exact ⟨mt, hmt, rfl⟩
      simp only [Function.comp_apply, readMethod]
      have e3 := h3 mt.1
      have e4 := h4 mt.1
      rw [if_pos hmt'] at e3 e4
      rw [List.map_map] at e3 e4
      rw [e3, e4]
      simp only [List.map_map, MethodInfo.mk.injEq, true_and]
      refine List.map_congr_left fun ot hot => ?_
      have hmo : ∃ os, (mt.1, os) ∈ ((L.methods.map (·.1)).map fun m => (m, (L.overriders m).map (·.1))) ∧ ot.1 ∈ os := by
        refine ⟨(L.overriders mt.1).map (·.1), ?_, List.mem_map_of_mem hot⟩
        simp only [List.map_map, List.mem_map, Function.comp_apply]
        exact ⟨mt, hmt, rfl⟩
      have e5 := h5 mt.1 ot.1 (.inl hmo)
      have e6 := h6 mt.1 ot.1 (.inl hmo)
      rw [List.map_map] at e5 e6
      simp only [Function.comp_apply, readOverrider]
      rw [e5, e6]

/-! ## Objects that are gone leave no trace -/

namespace Spec.Alive

variable (X : RegObj → Prop) [DecidablePred X]

/-- The live objects outside of `X`. -/
def without (L : Alive) : Alive where
  classes := L.classes.filter fun ct => ¬ X (.cls ct.1)
  methods := L.methods.filter fun mt => ¬ X (.meth mt.1)
  overriders := fun m => (L.overriders m).filter fun ot => ¬ X (.ovr m ot.1)
  stale := fun m o => L.stale m o ∧ ¬ X (.ovr m o)

theorem without_none : Alive.none.without X = .none := by
  simp [without, Alive.none]

theorem has_filter {l : List (Nat × Ids)} {x : Nat} {p : Nat × Ids → Prop} [DecidablePred p] (h : Has (l.filter p) x) : Has l x := by
  obtain ⟨t, ht⟩ := h
  exact ⟨t, (List.mem_filter.1 ht).1⟩

theorem Step.without {L L' : Alive} {now : Ids} {e : RegEvent} (hs : Step now L e L') :
    if X e.obj then L'.without X = L.without X else Step now (L.without X) e (L'.without X) := by
  split
  · rename_i hX
    cases hs with
    | useClass =>
      simp only [RegEvent.obj] at hX
      simp [Alive.without, hX]
    | dropClass hL =>
      simp only [RegEvent.obj] at hX
      simp [Alive.without, hL, hX]
    | declare =>
      simp only [RegEvent.obj] at hX
      simp [Alive.without, hX]
    | undeclare hL =>
      simp only [RegEvent.obj] at hX
      simp [Alive.without, hL, hX]
    | @override m o =>
      simp only [RegEvent.obj] at hX
      simp only [Alive.without, Alive.mk.injEq, true_and, and_true]
      funext m'
      by_cases hm : m' = m
      · subst hm; simp [hX]
      · simp [Function.update_of_ne hm]
    | twice => rfl
    | @drop m o t a b hL =>
      simp only [RegEvent.obj] at hX
      simp only [Alive.without, Alive.mk.injEq, true_and]
      refine ⟨?_, ?_⟩
      · funext m'
        by_cases hm : m' = m
        · subst hm; simp [hX, hL]
        · simp [Function.update_of_ne hm]
      · funext m' o'
        refine propext ⟨?_, fun h => ⟨.inl h.1, h.2⟩⟩
        rintro ⟨h | ⟨rfl, rfl⟩, h2⟩
        · exact ⟨h, h2⟩
        · exact absurd hX h2
    | @unmapOverrider m o =>
      simp only [RegEvent.obj] at hX
      simp only [Alive.without, Alive.mk.injEq, true_and]
      funext m' o'
      refine propext ⟨fun h => ⟨h.1.1, h.2⟩, fun h => ⟨⟨h.1, ?_⟩, h.2⟩⟩
      rintro ⟨rfl, rfl⟩
      exact h.2 hX
    | unmapMethod => rfl
  · rename_i hX
    cases hs with
    | @useClass c hc =>
      simp only [RegEvent.obj] at hX
      have := Step.useClass (now := now) (L := L.without X) (c := c) fun h => hc (has_filter h)
      simpa [Alive.without, hX] using this
    | @dropClass c t a b hL =>
      simp only [RegEvent.obj] at hX
      have := Step.dropClass (now := now) (L := L.without X) (c := c) (t := t) (a := a.filter fun ct => ¬ X (.cls ct.1))
        (b := b.filter fun ct => ¬ X (.cls ct.1)) (by simp [Alive.without, hL, hX])
      simpa [Alive.without] using this
    | @declare m hm =>
      simp only [RegEvent.obj] at hX
      have := Step.declare (now := now) (L := L.without X) (m := m) fun h => hm (has_filter h)
      simpa [Alive.without, hX] using this
    | @undeclare m t a b hL =>
      simp only [RegEvent.obj] at hX
      have := Step.undeclare (now := now) (L := L.without X) (m := m) (t := t) (a := a.filter fun ct => ¬ X (.meth ct.1))
        (b := b.filter fun ct => ¬ X (.meth ct.1)) (by simp [Alive.without, hL, hX])
      simpa [Alive.without] using this
    | @override m o ho hst =>
      simp only [RegEvent.obj] at hX
      have := Step.override (now := now) (L := L.without X) (m := m) (o := o) (fun h => ho (has_filter h)) fun h => hst h.1
      refine cast (congrArg _ ?_) this
      simp only [Alive.without, Alive.mk.injEq, true_and, and_true]
      funext m'
      by_cases hm : m' = m
      · subst hm; simp [hX]
      · simp [Function.update_of_ne hm]
    | @twice m o ho =>
      simp only [RegEvent.obj] at hX
      obtain ⟨t, ht⟩ := ho
      exact .twice ⟨t, List.mem_filter.2 ⟨ht, by simpa using hX⟩⟩
    | @drop m o t a b hL =>
      simp only [RegEvent.obj] at hX
      have := Step.drop (now := now) (L := L.without X) (m := m) (o := o) (t := t) (a := a.filter fun ct => ¬ X (.ovr m ct.1))
        (b := b.filter fun ct => ¬ X (.ovr m ct.1)) (by simp [Alive.without, hL, hX])
      refine cast (congrArg _ ?_) this
      simp only [Alive.without, Alive.mk.injEq, true_and]
      refine ⟨?_, ?_⟩
      · funext m'
        by_cases hm : m' = m
        · subst hm; simp
        · simp [Function.update_of_ne hm]
      · funext m' o'
        refine propext ⟨?_, ?_⟩
        · rintro (⟨h1, h2⟩ | ⟨rfl, rfl⟩)
          · exact ⟨.inl h1, h2⟩
          · exact ⟨.inr ⟨rfl, rfl⟩, hX⟩
        · rintro ⟨h1 | h1, h2⟩
          · exact .inl ⟨h1, h2⟩
          · exact .inr h1
    | @unmapOverrider m o ho =>
      have := Step.unmapOverrider (now := now) (L := L.without X) (m := m) (o := o) fun h => ho (has_filter h)
      refine cast (congrArg _ ?_) this
      simp only [Alive.without, Alive.mk.injEq, true_and]
      funext m' o'
      exact propext ⟨fun h => ⟨⟨h.1.1, h.2⟩, h.1.2⟩, fun h => ⟨⟨h.1.1, h.2⟩, h.1.2⟩⟩
    | @unmapMethod m hm ho =>
      exact .unmapMethod (fun h => hm (has_filter h)) (by simp [Alive.without, ho])

theorem History.without {L L' : Alive} {es : List (RegEvent × Ids)} (hs : History L es L') :
    History (L.without X) (es.filter fun e => ¬ X e.1.obj) (L'.without X) := by
  induction hs with
  | nil => exact .nil
  | @cons L L' L'' e now es hs _ ih =>
    have := hs.without X
    by_cases hX : X e.obj
    · rw [if_pos hX] at this
      rw [List.filter_cons_of_neg (by simpa using hX), ← this]
      exact ih
    · rw [if_neg hX] at this
      rw [List.filter_cons_of_pos (by simpa using hX)]
      exact .cons this ih

theorem without_program {L : Alive} (h : ∀ x, X x → ¬ L.Live x) (D : Decls) (rtti : Rtti) (at_ : Ids → Ids) :
    (L.without X).program D rtti at_ = L.program D rtti at_ := by
  have h1 : L.classes.filter (fun ct => ¬ X (.cls ct.1)) = L.classes :=
    List.filter_eq_self.2 fun ct hct => by simpa using fun hX => h (.cls ct.1) hX ⟨ct.2, hct⟩
  have h2 : L.methods.filter (fun mt => ¬ X (.meth mt.1)) = L.methods :=
    List.filter_eq_self.2 fun mt hmt => by simpa using fun hX => h (.meth mt.1) hX ⟨mt.2, hmt⟩
  have h3 : ∀ m, (L.overriders m).filter (fun ot => ¬ X (.ovr m ot.1)) = L.overriders m := fun m =>
    List.filter_eq_self.2 fun ot hot => by simpa using fun hX => h (.ovr m ot.1) hX ⟨ot.2, hot⟩
  unfold Alive.program Alive.without
  simp only [h1, h2, h3]

end Spec.Alive

end OpenMethod

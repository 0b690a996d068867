import Verif.Model.Methods
import Verif.Proof.Classes

/-! # Lemmas about `augment_methods` -/

namespace OpenMethod

open Spec Relation

theorem findClass_ok {r : Rtti} {L : Lattice} {t : TypeId} {c : Cls} :
    findClass r L t = .ok c ↔ c = r.ti t ∧ r.ti t ∈ L.order := by
  unfold findClass
  split
  · rename_i h; simp [h, eq_comm]
  · rename_i h; simp [h]

theorem findClass_err {r : Rtti} {L : Lattice} {t : TypeId} {e : Err} :
    findClass r L t = .err e ↔ e = .missingClass t ∧ r.ti t ∉ L.order := by
  unfold findClass
  split
  · rename_i h; simp [h]
  · rename_i h; simp [h, eq_comm]

theorem findClass_ub {r : Rtti} {L : Lattice} {t : TypeId} : findClass r L t ≠ .ub := by
  unfold findClass; split <;> simp

theorem findClasses_ok {r : Rtti} {L : Lattice} {ts : List TypeId} {cs : List Cls} :
    findClasses r L ts = .ok cs ↔ cs = ts.map r.ti ∧ ∀ t ∈ ts, r.ti t ∈ L.order := by
  induction ts generalizing cs with
  | nil => simp [findClasses, eq_comm]
  | cons t ts ih =>
    simp only [findClasses, Res.bind_eq_ok, findClass_ok, ih, Res.pure_eq, Res.ok.injEq, List.map_cons, List.mem_cons,
      forall_eq_or_imp]
    constructor
    · rintro ⟨_, ⟨rfl, h⟩, _, ⟨rfl, h'⟩, rfl⟩
      exact ⟨rfl, h, h'⟩
    · rintro ⟨rfl, h, h'⟩
      exact ⟨_, ⟨rfl, h⟩, _, ⟨rfl, h'⟩, rfl⟩

theorem findClasses_err {r : Rtti} {L : Lattice} {ts : List TypeId} {e : Err} (h : findClasses r L ts = .err e) :
    ∃ t ∈ ts, r.ti t ∉ L.order ∧ e = .missingClass t := by
  induction ts with
  | nil => simp [findClasses] at h
  | cons t ts ih =>
    simp only [findClasses, Res.bind_eq_err, findClass_err, findClass_ok, Res.pure_eq, reduceCtorEq, and_false,
      exists_false, or_false] at h
    rcases h with ⟨rfl, h⟩ | ⟨_, _, h⟩
    · exact ⟨t, by simp, h, rfl⟩
    · obtain ⟨t', ht', h', rfl⟩ := ih h
      exact ⟨t', by simp [ht'], h', rfl⟩

theorem findClasses_ub {r : Rtti} {L : Lattice} {ts : List TypeId} : findClasses r L ts ≠ .ub := by
  induction ts with
  | nil => simp [findClasses]
  | cons t ts ih =>
    simp only [findClasses, ne_eq, Res.bind_eq_ub, findClass_ub, false_or, not_exists, not_and, Res.pure_eq,
      reduceCtorEq, and_false, exists_false, or_false]
    exact fun _ _ => ih

/-- The return classes required to be registered. -/
theorem augmentOverrider_ok {r : Rtti} {L : Lattice} {mret : Option Cls} {o : OverriderInfo} {o' : Ovr} :
    augmentOverrider r L mret o = .ok o' ↔
      o' = { info := o, vp := o.vp.map r.ti, ret := mret.map fun _ => r.ti o.ret } ∧
      (∀ t ∈ o.vp, r.ti t ∈ L.order) ∧ (mret.isSome → r.ti o.ret ∈ L.order) := by
  unfold augmentOverrider
  simp only [Res.bind_eq_ok, findClasses_ok]
  cases mret with
  | none =>
    simp only [Res.pure_eq, Res.ok.injEq, Option.map_none, Option.isSome_none, Bool.false_eq_true, false_implies,
      and_true]
    constructor
    · rintro ⟨_, ⟨rfl, h⟩, rfl⟩; exact ⟨rfl, h⟩
    · rintro ⟨rfl, h⟩; exact ⟨_, ⟨rfl, h⟩, rfl⟩
  | some c =>
    simp only [Res.bind_eq_ok, findClass_ok, Res.pure_eq, Res.ok.injEq, Option.map_some, Option.isSome_some,
      true_implies]
    constructor
    · rintro ⟨_, ⟨rfl, h⟩, _, ⟨rfl, h'⟩, rfl⟩; exact ⟨rfl, h, h'⟩
    · rintro ⟨rfl, h, h'⟩; exact ⟨_, ⟨rfl, h⟩, _, ⟨rfl, h'⟩, rfl⟩

theorem augmentOverrider_err {r : Rtti} {L : Lattice} {mret : Option Cls} {o : OverriderInfo} {e : Err}
    (h : augmentOverrider r L mret o = .err e) :
    ∃ t, (t ∈ o.vp ∨ (t = o.ret ∧ mret.isSome)) ∧ r.ti t ∉ L.order ∧ e = .missingClass t := by
  unfold augmentOverrider at h
  rw [Res.bind_eq_err] at h
  rcases h with h | ⟨_, _, h⟩
  · obtain ⟨t, ht, h', rfl⟩ := findClasses_err h
    exact ⟨t, .inl ht, h', rfl⟩
  · cases mret with
    | none => simp at h
    | some c =>
      simp only [Res.bind_eq_err, findClass_err, Res.pure_eq, reduceCtorEq, and_false, exists_false, or_false] at h
      exact ⟨o.ret, .inr ⟨rfl, rfl⟩, h.2, h.1⟩

theorem augmentOverrider_ub {r : Rtti} {L : Lattice} {mret : Option Cls} {o : OverriderInfo} :
    augmentOverrider r L mret o ≠ .ub := by
  unfold augmentOverrider
  rw [ne_eq, Res.bind_eq_ub]
  rintro (h | ⟨_, _, h⟩)
  · exact findClasses_ub h
  · cases mret with
    | none => simp at h
    | some c => simp [Res.bind_eq_ub, findClass_ub] at h

theorem augmentOverriders_ok {r : Rtti} {L : Lattice} {mret : Option Cls} {os : List OverriderInfo} {os' : List Ovr} :
    augmentOverriders r L mret os = .ok os' ↔
      os' = os.map (fun o => { info := o, vp := o.vp.map r.ti, ret := mret.map fun _ => r.ti o.ret }) ∧
      ∀ o ∈ os, (∀ t ∈ o.vp, r.ti t ∈ L.order) ∧ (mret.isSome → r.ti o.ret ∈ L.order) := by
  induction os generalizing os' with
  | nil =>
    simp only [augmentOverriders, Res.ok.injEq, List.map_nil, List.not_mem_nil, false_implies, implies_true, and_true]
    exact eq_comm
  | cons o os ih =>
    simp only [augmentOverriders, Res.bind_eq_ok, augmentOverrider_ok, ih, Res.pure_eq, Res.ok.injEq, List.map_cons,
      List.mem_cons, forall_eq_or_imp]
    constructor
    · rintro ⟨_, ⟨rfl, h⟩, _, ⟨rfl, h'⟩, rfl⟩
      exact ⟨rfl, h, h'⟩
    · rintro ⟨rfl, h, h'⟩
      exact ⟨_, ⟨rfl, h⟩, _, ⟨rfl, h'⟩, rfl⟩

theorem augmentOverriders_err {r : Rtti} {L : Lattice} {mret : Option Cls} {os : List OverriderInfo} {e : Err}
    (h : augmentOverriders r L mret os = .err e) :
    ∃ o ∈ os, ∃ t, (t ∈ o.vp ∨ (t = o.ret ∧ mret.isSome)) ∧ r.ti t ∉ L.order ∧ e = .missingClass t := by
  induction os with
  | nil => simp [augmentOverriders] at h
  | cons o os ih =>
    simp only [augmentOverriders, Res.bind_eq_err, Res.pure_eq, reduceCtorEq, and_false, exists_false, or_false] at h
    rcases h with h | ⟨_, _, h⟩
    · exact ⟨o, by simp, augmentOverrider_err h⟩
    · obtain ⟨o', ho', h'⟩ := ih h
      exact ⟨o', by simp [ho'], h'⟩

theorem augmentOverriders_ub {r : Rtti} {L : Lattice} {mret : Option Cls} {os : List OverriderInfo} :
    augmentOverriders r L mret os ≠ .ub := by
  induction os with
  | nil => simp [augmentOverriders]
  | cons o os ih =>
    simp only [augmentOverriders, ne_eq, Res.bind_eq_ub, augmentOverrider_ub, false_or, not_exists, not_and,
      Res.pure_eq, reduceCtorEq, and_false, exists_false, or_false]
    exact fun _ _ => ih

/-- The classes that a method needs. -/
def Needs (r : Rtti) (L : Lattice) (m : MethodInfo) (t : TypeId) : Prop :=
  t ∈ m.vp ∨ ∃ o ∈ m.overriders, t ∈ o.vp ∨ (t = o.ret ∧ (methodRet r L m.ret).isSome)

/-- The method built from its record. -/
def toMeth (r : Rtti) (L : Lattice) (m : MethodInfo) : Meth where
  info := m
  vp := m.vp.map r.ti
  ret := methodRet r L m.ret
  overriders := m.overriders.map fun o =>
    { info := o, vp := o.vp.map r.ti, ret := (methodRet r L m.ret).map fun _ => r.ti o.ret }

theorem augmentMethod_ok {r : Rtti} {L : Lattice} {m : MethodInfo} {m' : Meth} :
    augmentMethod r L m = .ok m' ↔ m' = toMeth r L m ∧ ∀ t, Needs r L m t → r.ti t ∈ L.order := by
  unfold augmentMethod
  simp only [Res.bind_eq_ok, findClasses_ok, augmentOverriders_ok, Res.pure_eq, Res.ok.injEq]
  constructor
  · rintro ⟨_, ⟨rfl, h⟩, _, ⟨rfl, h'⟩, rfl⟩
    refine ⟨rfl, ?_⟩
    rintro t (ht | ⟨o, ho, ht | ⟨rfl, ht⟩⟩)
    · exact h t ht
    · exact (h' o ho).1 t ht
    · exact (h' o ho).2 ht
  · rintro ⟨rfl, h⟩
    exact ⟨_, ⟨rfl, fun t ht => h t (.inl ht)⟩, _,
      ⟨rfl, fun o ho => ⟨fun t ht => h t (.inr ⟨o, ho, .inl ht⟩), fun hs => h _ (.inr ⟨o, ho, .inr ⟨rfl, hs⟩⟩)⟩⟩, rfl⟩

theorem augmentMethod_err {r : Rtti} {L : Lattice} {m : MethodInfo} {e : Err} (h : augmentMethod r L m = .err e) :
    ∃ t, Needs r L m t ∧ r.ti t ∉ L.order ∧ e = .missingClass t := by
  unfold augmentMethod at h
  simp only [Res.bind_eq_err, Res.pure_eq, reduceCtorEq, and_false, exists_false, or_false] at h
  rcases h with h | ⟨_, _, h⟩
  · obtain ⟨t, ht, h'⟩ := findClasses_err h
    exact ⟨t, .inl ht, h'⟩
  · obtain ⟨o, ho, t, ht, h'⟩ := augmentOverriders_err h
    exact ⟨t, .inr ⟨o, ho, ht⟩, h'⟩

theorem augmentMethod_ub {r : Rtti} {L : Lattice} {m : MethodInfo} : augmentMethod r L m ≠ .ub := by
  unfold augmentMethod
  simp [Res.bind_eq_ub, findClasses_ub, augmentOverriders_ub]

theorem augmentMethods_ok {r : Rtti} {L : Lattice} {ms : List MethodInfo} {ms' : List Meth} :
    augmentMethods r L ms = .ok ms' ↔ ms' = ms.map (toMeth r L) ∧ ∀ m ∈ ms, ∀ t, Needs r L m t → r.ti t ∈ L.order := by
  induction ms generalizing ms' with
  | nil => simp [augmentMethods, eq_comm]
  | cons m ms ih =>
    simp only [augmentMethods, Res.bind_eq_ok, augmentMethod_ok, ih, Res.pure_eq, Res.ok.injEq, List.map_cons,
      List.mem_cons, forall_eq_or_imp]
    constructor
    · rintro ⟨_, ⟨rfl, h⟩, _, ⟨rfl, h'⟩, rfl⟩
      exact ⟨rfl, h, h'⟩
    · rintro ⟨rfl, h, h'⟩
      exact ⟨_, ⟨rfl, h⟩, _, ⟨rfl, h'⟩, rfl⟩

theorem augmentMethods_err {r : Rtti} {L : Lattice} {ms : List MethodInfo} {e : Err}
    (h : augmentMethods r L ms = .err e) :
    ∃ m ∈ ms, ∃ t, Needs r L m t ∧ r.ti t ∉ L.order ∧ e = .missingClass t := by
  induction ms with
  | nil => simp [augmentMethods] at h
  | cons m ms ih =>
    simp only [augmentMethods, Res.bind_eq_err, Res.pure_eq, reduceCtorEq, and_false, exists_false, or_false] at h
    rcases h with h | ⟨_, _, h⟩
    · exact ⟨m, by simp, augmentMethod_err h⟩
    · obtain ⟨o', ho', h'⟩ := ih h
      exact ⟨o', by simp [ho'], h'⟩

theorem augmentMethods_ub {r : Rtti} {L : Lattice} {ms : List MethodInfo} : augmentMethods r L ms ≠ .ub := by
  induction ms with
  | nil => simp [augmentMethods]
  | cons m ms ih =>
    simp only [augmentMethods, ne_eq, Res.bind_eq_ub, augmentMethod_ub, false_or, not_exists, not_and,
      Res.pure_eq, reduceCtorEq, and_false, exists_false, or_false]
    exact fun _ _ => ih

/-! ## The check of overrider parameters -/

theorem foldlM_unit_ok {α : Type} {f : α → Res Unit} {l : List α} :
    l.foldlM (fun _ a => f a) () = .ok () ↔ ∀ a ∈ l, f a = .ok () := by
  induction l with
  | nil => simp
  | cons a l ih =>
    rw [List.foldlM_cons, Res.bind_eq_ok]
    simp only [ih, List.mem_cons, forall_eq_or_imp]
    constructor
    · rintro ⟨⟨⟩, h, h'⟩; exact ⟨h, h'⟩
    · rintro ⟨h, h'⟩; exact ⟨(), h, h'⟩

theorem checkOverrider_ok {L : Lattice} {vp : Cls} {k : Nat} {o : Ovr} :
    checkOverrider L vp k o = .ok () ↔ ∃ c, o.vp[k]? = some c ∧ (c = vp ∨ c ∈ L.td vp) := by
  unfold checkOverrider
  simp only [Res.bind_eq_ok, Res.ofOption_eq_ok]
  refine exists_congr fun c => and_congr_right fun _ => ?_
  by_cases h1 : c = vp
  · simp [h1]
  · by_cases h2 : c ∈ L.td vp
    · simp [h1, h2]
    · simp only [h1, h2, if_false, or_self, iff_false]
      intro h
      rw [Res.bind_eq_ok] at h
      obtain ⟨_, _, h⟩ := h
      rw [Res.bind_eq_ok] at h
      obtain ⟨_, _, h⟩ := h
      simp at h

theorem checkOverrider_err {L : Lattice} {vp : Cls} {k : Nat} {o : Ovr} {e : Err} :
    checkOverrider L vp k o = .err e ↔ ∃ c, o.vp[k]? = some c ∧ c ≠ vp ∧ c ∉ L.td vp ∧
      ∃ b d, (L.typeIds c)[0]? = some b ∧ (L.typeIds vp)[0]? = some d ∧ e = .missingBase b d := by
  unfold checkOverrider
  cases hc : o.vp[k]? with
  | none => simp
  | some c =>
    simp only [Res.ofOption_some, Res.ok_bind, Option.some.injEq, exists_eq_left']
    by_cases h1 : c = vp
    · simp [h1]
    · by_cases h2 : c ∈ L.td vp
      · simp [h1, h2]
      · simp only [h1, h2, if_false, ne_eq, not_false_eq_true, true_and]
        cases (L.typeIds c)[0]? <;> cases (L.typeIds vp)[0]? <;> simp [eq_comm]

theorem checkMethods_ok {L : Lattice} {ms : List Meth} :
    checkMethods L ms = .ok () ↔
      ∀ m ∈ ms, ∀ (k : Nat) (v : Cls), m.vp[k]? = some v → ∀ o ∈ m.overriders, ∃ c, o.vp[k]? = some c ∧ (c = v ∨ c ∈ L.td v) := by
  unfold checkMethods
  rw [foldlM_unit_ok]
  refine forall₂_congr fun m _ => ?_
  unfold checkMethod
  rw [foldlM_unit_ok]
  constructor
  · intro h k v hv o ho
    have h1 := h (v, k) (List.mem_zipIdx_iff_getElem?.2 hv)
    unfold checkParam at h1
    rw [foldlM_unit_ok] at h1
    exact checkOverrider_ok.1 (h1 o ho)
  · rintro h ⟨v, k⟩ hvk
    unfold checkParam
    rw [foldlM_unit_ok]
    intro o ho
    exact checkOverrider_ok.2 (h k v (List.mem_zipIdx_iff_getElem?.1 hvk) o ho)

theorem checkMethods_err {L : Lattice} {ms : List Meth} {e : Err} (h : checkMethods L ms = .err e) :
    ∃ m ∈ ms, ∃ (k : Nat) (v : Cls), m.vp[k]? = some v ∧ ∃ o ∈ m.overriders, ∃ c, o.vp[k]? = some c ∧ c ≠ v ∧ c ∉ L.td v ∧
      ∃ b d, (L.typeIds c)[0]? = some b ∧ (L.typeIds v)[0]? = some d ∧ e = .missingBase b d := by
  unfold checkMethods at h
  obtain ⟨pre, m, post, _, rfl, _, h⟩ := foldlM_eq_err.1 h
  refine ⟨m, by simp, ?_⟩
  unfold checkMethod at h
  obtain ⟨pre', ⟨v, k⟩, post', _, hl, _, h⟩ := foldlM_eq_err.1 h
  have hmem : (v, k) ∈ m.vp.zipIdx := by rw [hl]; simp
  refine ⟨k, v, List.mem_zipIdx_iff_getElem?.1 hmem, ?_⟩
  unfold checkParam at h
  obtain ⟨pre'', o, post'', _, ho, _, h⟩ := foldlM_eq_err.1 h
  exact ⟨o, by rw [ho]; simp, checkOverrider_err.1 h⟩

theorem checkMethods_ub {L : Lattice} {ms : List Meth}
    (hl : ∀ m ∈ ms, ∀ o ∈ m.overriders, o.vp.length = m.vp.length)
    (ho : ∀ m ∈ ms, ∀ o ∈ m.overriders, ∀ c ∈ o.vp, L.typeIds c ≠ [])
    (hm : ∀ m ∈ ms, ∀ c ∈ m.vp, L.typeIds c ≠ []) :
    checkMethods L ms ≠ .ub := by
  intro h
  unfold checkMethods at h
  obtain ⟨pre, m, post, _, rfl, _, h⟩ := foldlM_eq_ub.1 h
  unfold checkMethod at h
  obtain ⟨pre', ⟨v, k⟩, post', _, hz, _, h⟩ := foldlM_eq_ub.1 h
  have hmem : (v, k) ∈ m.vp.zipIdx := by rw [hz]; simp
  have hv : m.vp[k]? = some v := List.mem_zipIdx_iff_getElem?.1 hmem
  unfold checkParam at h
  obtain ⟨pre'', o, post'', _, hos, _, h⟩ := foldlM_eq_ub.1 h
  have hmem : o ∈ m.overriders := by rw [hos]; simp
  have hk : k < o.vp.length := by
    rw [hl m (by simp) o hmem]
    exact (List.getElem?_eq_some_iff.1 hv).1
  unfold checkOverrider at h
  have h1 := ho m (by simp) o hmem o.vp[k] (by simp)
  have h2 := hm m (by simp) v (List.mem_of_getElem? hv)
  rw [List.getElem?_eq_getElem hk] at h
  obtain ⟨b, bs, hb⟩ := List.exists_cons_of_ne_nil h1
  obtain ⟨d, ds, hd⟩ := List.exists_cons_of_ne_nil h2
  simp only [Res.ofOption_some, Res.ok_bind, hb, hd, List.getElem?_cons_zero] at h
  split at h
  · simp at h
  · split at h <;> simp at h

theorem augment_ok {r : Rtti} {L : Lattice} {ms : List MethodInfo} {ms' : List Meth} :
    augment r L ms = .ok ms' ↔
      ms' = ms.map (toMeth r L) ∧ (∀ m ∈ ms, ∀ t, Needs r L m t → r.ti t ∈ L.order) ∧
      ∀ m ∈ ms, ∀ (k : Nat) (v : TypeId), m.vp[k]? = some v → ∀ o ∈ m.overriders,
        ∃ t, o.vp[k]? = some t ∧ (r.ti t = r.ti v ∨ r.ti t ∈ L.td (r.ti v)) := by
  unfold augment
  simp only [Res.bind_eq_ok, augmentMethods_ok, Res.pure_eq, Res.ok.injEq]
  have key : checkMethods L (ms.map (toMeth r L)) = .ok () ↔
      ∀ m ∈ ms, ∀ (k : Nat) (v : TypeId), m.vp[k]? = some v → ∀ o ∈ m.overriders,
        ∃ t, o.vp[k]? = some t ∧ (r.ti t = r.ti v ∨ r.ti t ∈ L.td (r.ti v)) := by
    rw [checkMethods_ok]
    simp [toMeth]
  constructor
  · rintro ⟨_, ⟨rfl, h⟩, _, h', rfl⟩
    exact ⟨rfl, h, key.1 h'⟩
  · rintro ⟨rfl, h, h'⟩
    exact ⟨_, ⟨rfl, h⟩, (), key.2 h', rfl⟩

end OpenMethod

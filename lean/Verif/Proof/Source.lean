import Verif.SpecSource
import Verif.Props.Returns
import Verif.Props.Params
import Verif.Props.UseClasses
import Verif.Props.Registrars
import Verif.Props.Accept

/-! # From declarations to records -/

namespace OpenMethod

open Spec Cpp Props

/-! ## Live objects -/

/-- All objects were constructed when the type ids were `T`. -/
def Spec.Alive.At (L : Alive) (T : Ids) : Prop := (∀ x ∈ L.classes, x.2 = T) ∧ (∀ x ∈ L.methods, x.2 = T) ∧ ∀ m, ∀ x ∈ L.overriders m, x.2 = T

theorem Spec.Alive.Step.at_ {L L' : Alive} {e : RegEvent} {T : Ids} (h : Alive.Step T L e L') (hL : L.At T) : L'.At T := by
  obtain ⟨h1, h2, h3⟩ := hL
  cases h with
  | useClass _ => exact ⟨fun x hx => (List.mem_append.1 hx).elim (h1 x) fun hx => by rw [List.mem_singleton.1 hx], h2, h3⟩
  | dropClass e =>
    refine ⟨fun x hx => h1 x ?_, h2, h3⟩
    rw [e]
    rcases List.mem_append.1 hx with h | h
    · exact List.mem_append_left _ h
    · exact List.mem_append_right _ (List.mem_cons_of_mem _ h)
  | declare _ => exact ⟨h1, fun x hx => (List.mem_append.1 hx).elim (h2 x) fun hx => by rw [List.mem_singleton.1 hx], h3⟩
  | undeclare e =>
    refine ⟨h1, fun x hx => h2 x ?_, h3⟩
    rw [e]
    rcases List.mem_append.1 hx with h | h
    · exact List.mem_append_left _ h
    · exact List.mem_append_right _ (List.mem_cons_of_mem _ h)
  | @override m o _ _ =>
    refine ⟨h1, h2, fun m' x hx => ?_⟩
    by_cases hm : m' = m
    · subst hm
      simp only [Function.update_self] at hx
      exact (List.mem_append.1 hx).elim (h3 _ x) fun hx => by rw [List.mem_singleton.1 hx]
    · simp only [Function.update_of_ne hm] at hx
      exact h3 m' x hx
  | twice _ => exact ⟨h1, h2, h3⟩
  | @drop m o _ _ _ e =>
    refine ⟨h1, h2, fun m' x hx => ?_⟩
    by_cases hm : m' = m
    · subst hm
      simp only [Function.update_self] at hx
      refine h3 m' x ?_
      rw [e]
      rcases List.mem_append.1 hx with h | h
      · exact List.mem_append_left _ h
      · exact List.mem_append_right _ (List.mem_cons_of_mem _ h)
    · simp only [Function.update_of_ne hm] at hx
      exact h3 m' x hx
  | unmapOverrider _ => exact ⟨h1, h2, h3⟩
  | unmapMethod _ _ => exact ⟨h1, h2, h3⟩

theorem Spec.Alive.History.at_ {L L' : Alive} {es : List (RegEvent × Ids)} {T : Ids} (h : Alive.History L es L') (hT : ∀ e ∈ es, e.2 = T) (hL : L.At T) : L'.At T := by
  induction h with
  | nil => exact hL
  | cons hs _ ih =>
    have := hT _ List.mem_cons_self
    simp only at this
    subst this
    exact ih (fun e he => hT e (List.mem_cons_of_mem _ he)) (hs.at_ hL)

/-- The program that `initialize` finds. -/
def Spec.Alive.found (L : Alive) (D : Decls) (rtti : Rtti) (T : Ids) : Program where
  rtti := rtti
  classes := (L.classes.map (·.1)).map (readClass D T)
  methods := (L.methods.map (·.1)).map fun m => readMethod D T m ((L.overriders m).map (·.1))

theorem Spec.Alive.program_eq {L : Alive} {D : Decls} {rtti : Rtti} {T : Ids} {f : Ids → Ids} (h : (∀ t, f t = T) ∨ f = id ∧ L.At T) :
    L.program D rtti f = L.found D rtti T := by
  have h1 : ∀ x ∈ L.classes, f x.2 = T := fun x hx => h.elim (fun h => h _) fun ⟨hf, h⟩ => by rw [hf]; exact h.1 x hx
  have h2 : ∀ x ∈ L.methods, f x.2 = T := fun x hx => h.elim (fun h => h _) fun ⟨hf, h⟩ => by rw [hf]; exact h.2.1 x hx
  have h3 : ∀ m, ∀ x ∈ L.overriders m, f x.2 = T := fun m x hx => h.elim (fun h => h _) fun ⟨hf, h⟩ => by rw [hf]; exact h.2.2 m x hx
  unfold Alive.program Alive.found
  congr 1
  · rw [List.map_map]
    exact List.map_congr_left fun x hx => by simp [h1 x hx, readClass]
  · rw [List.map_map]
    refine List.map_congr_left fun x hx => ?_
    simp only [h2 x hx, readMethod, Function.comp, List.map_map, MethodInfo.mk.injEq, true_and]
    exact List.map_congr_left fun y hy => by simp [h3 _ y hy, readOverrider]

/-! ## Classes in types -/

theorem CT.class_of_virtualType {r : Nat} {t : CT} {c : Cls} (h : t.virtualType r = some (.cls c)) : t.class? = some c := by
  unfold CT.virtualType at h
  split at h
  all_goals try (simp only [Option.some.injEq, CT.cls.injEq, reduceCtorEq] at h; try subst h)
  all_goals try rfl
  · rename_i t n
    split at h
    · cases t with
      | cls d => simpa [CT.element, CT.class?] using h
      | smart k u => cases u <;> simp_all [CT.element, CT.class?]
      | _ => simp [CT.element] at h
    · simp at h
  · rename_i t n
    split at h
    · cases t with
      | cls d => simpa [CT.element, CT.class?] using h
      | smart k u => cases u <;> simp_all [CT.element, CT.class?]
      | _ => simp [CT.element] at h
    · simp at h

theorem CT.marked_iff (p : CT) : p.marked = true ↔ p.IsVirtualParam := by
  unfold CT.marked
  split <;> simp_all [CT.IsVirtualParam]

theorem CT.marked_eq {p : CT} (h : ∀ t r, p ≠ .lref (.vptr t r)) : p.isVirtual = p.marked := by
  rw [Bool.eq_iff_iff, isVirtual_iff, CT.marked_iff]
  exact ⟨fun h' => h'.elim id fun ⟨t, r, e⟩ => absurd e (h t r), .inl⟩

theorem CT.class_removeVirtual (p : CT) : p.removeVirtual.class? = p.class? := by cases p <;> rfl

theorem CT.class_overrider {E : Cpp} {p q : CT} {d : Cls} (h : E.overriderVirtualType p q = some (.cls d)) : q.class? = some d := by
  unfold overriderVirtualType at h
  split at h
  · exact CT.class_of_virtualType h
  · split at h
    · exact CT.class_of_virtualType h
    · cases h
  · split at h
    · exact CT.class_of_virtualType h
    · cases h
  · cases h

variable {E : Cpp} {ps qs : List CT}

/-- The record of a method names the classes of its virtual parameters. -/
theorem method_classes (hP : ∀ p ∈ ps, p.Proper) (hm : ∀ p ∈ ps, E.validMethodParam p = true) (hl : ∀ p ∈ ps, ∀ t r, p ≠ .lref (.vptr t r))
    (hr : ∀ t n, .cref (.vptr t (.reg n)) ∈ ps → n = E.reg) : E.methodVirtualTypes ps = (virtualClasses ps ps).map fun c => some (.cls c) := by
  induction ps with
  | nil => rfl
  | cons p ps ih =>
    have ih := ih (fun q h => hP q (.tail _ h)) (fun q h => hm q (.tail _ h)) (fun q h => hl q (.tail _ h)) fun t n h => hr t n (.tail _ h)
    simp only [methodVirtualTypes, virtualClasses] at ih ⊢
    cases hp : p.marked with
    | false => simpa [CT.marked_eq (hl p (.head _)), hp] using ih
    | true =>
      obtain ⟨c, hc, -⟩ := ((C61_partial (hP p (.head _))).1 ((CT.marked_iff p).1 hp) fun t n e => hr t n (e ▸ .head _)).1 (hm p (.head _))
      have hc' := CT.class_of_virtualType hc
      rw [CT.class_removeVirtual] at hc'
      simpa [CT.marked_eq (hl p (.head _)), hp, hc, hc'] using ih

/-- The record of an overrider names the classes at the same positions; they have those of the method as unambiguous bases. -/
theorem overrider_classes (hw : E.hier.WF) : ∀ (ps qs : List CT), (∀ p ∈ ps, p.Proper) → (∀ q ∈ qs, q.Proper) → (∀ p ∈ ps, E.validMethodParam p = true) → E.validOverrider ps qs = true →
    List.Forall₂ (CT.Related E.hier) ps qs → (∀ p ∈ ps, ∀ t r, p ≠ .lref (.vptr t r)) →
    E.overriderVirtualTypes ps qs = (virtualClasses ps qs).map .cls ∧ (virtualClasses ps qs).length = arity ps ∧
      List.Forall₂ (fun d c => E.hier.Unambiguous d c) (virtualClasses ps qs) (virtualClasses ps ps)
  | [], [], _, _, _, _, _, _ => ⟨rfl, rfl, .nil⟩
  | p :: ps, q :: qs, hP, hQ, hm, ho, hv, hl => by
    simp only [validOverrider, Bool.and_eq_true] at ho
    cases hv with
    | cons hv hvs =>
      obtain ⟨h1, h2, h3⟩ := overrider_classes hw ps qs (fun p h => hP p (.tail _ h)) (fun q h => hQ q (.tail _ h)) (fun p h => hm p (.tail _ h)) ho.2 hvs
        (fun p h => hl p (.tail _ h))
      have hpm := CT.marked_eq (hl p (.head _))
      simp only [overriderVirtualTypes, virtualClasses, arity] at h1 h2 h3 ⊢
      rcases virtual_types hw (hP p (.head _)) (hQ q (.head _)) (hm p (.head _)) ⟨ho.1.1, ho.1.2⟩ hv (hl p (.head _)) with ⟨e1, e2⟩ | ⟨e1, c, d, e2, e3, hb⟩
      · rw [e1] at hpm
        refine ⟨?_, ?_, ?_⟩
        · simpa [e2, ← hpm] using h1
        · simpa [e1, ← hpm] using h2
        · simpa [← hpm] using h3
      · have hc := CT.class_of_virtualType e2
        rw [CT.class_removeVirtual] at hc
        have hd := CT.class_overrider e3
        rw [e1] at hpm
        refine ⟨?_, ?_, ?_⟩
        · simpa [e3, ← hpm, hd] using h1
        · simpa [e1, ← hpm, hd] using h2
        · simpa [← hpm, hc, hd] using ⟨hb, h3⟩
  | [], q :: qs, _, _, _, ho, _, _ => by simp [validOverrider] at ho
  | p :: ps, [], _, _, _, ho, _, _ => by simp [validOverrider] at ho

/-! ## Order of overriders -/

section

variable {D : Cls → Cls → Prop} {css css' : List (List Cls)} {os : List Nat} {xs : List Cls}

/-- `css'` is `css` in the order `os`. -/
structure InOrder (css css' : List (List Cls)) (os : List Nat) : Prop where
  perm : os.Perm (List.range css.length)
  get : ∀ i : Nat, css'[i]? = os[i]?.bind (css[·]?)

theorem InOrder.mem (h : InOrder css css' os) {o : Nat} {cs : List Cls} (ho : css[o]? = some cs) : ∃ i : Nat, os[i]? = some o := by
  have : o ∈ os := h.perm.mem_iff.2 (List.mem_range.2 (List.getElem?_eq_some_iff.1 ho).1)
  exact List.mem_iff_getElem?.1 this

theorem InOrder.inj (h : InOrder css css' os) {i j o : Nat} (hi : os[i]? = some o) (hj : os[j]? = some o) : i = j := by
  have hn : os.Nodup := h.perm.nodup_iff.2 List.nodup_range
  obtain ⟨h1, e1⟩ := List.getElem?_eq_some_iff.1 hi
  obtain ⟨h2, e2⟩ := List.getElem?_eq_some_iff.1 hj
  exact (hn.getElem_inj_iff).1 (e1.trans e2.symm)

theorem InOrder.applicable (h : InOrder css css' os) {i : Nat} : ApplicableIn D css' xs i ↔ ∃ o, os[i]? = some o ∧ ApplicableIn D css xs o := by
  unfold ApplicableIn
  rw [h.get]
  cases os[i]? <;> simp

theorem InOrder.undominated (h : InOrder css css' os) {i : Nat} : UndominatedIn D css' xs i ↔ ∃ o, os[i]? = some o ∧ UndominatedIn D css xs o := by
  unfold UndominatedIn
  constructor
  · rintro ⟨h1, h2⟩
    obtain ⟨o, ho, h1⟩ := h.applicable.1 h1
    refine ⟨o, ho, h1, ?_⟩
    rintro j hj ⟨as, bs, ha, hb, hm⟩
    obtain ⟨j', hj'⟩ := h.mem ha
    exact h2 j' (h.applicable.2 ⟨j, hj', hj⟩) ⟨as, bs, by rw [h.get, hj']; exact ha, by rw [h.get, ho]; exact hb, hm⟩
  · rintro ⟨o, ho, h1, h2⟩
    refine ⟨h.applicable.2 ⟨o, ho, h1⟩, ?_⟩
    rintro j hj ⟨as, bs, ha, hb, hm⟩
    obtain ⟨o', ho', hj⟩ := h.applicable.1 hj
    rw [h.get, ho'] at ha
    rw [h.get, ho] at hb
    exact h2 o' hj ⟨as, bs, ha, hb, hm⟩

theorem Spec.UndominatedIn.get {i : Nat} (h : UndominatedIn D css xs i) : ∃ cs, css[i]? = some cs := by
  obtain ⟨⟨cs, h, _⟩, _⟩ := h
  exact ⟨cs, h⟩

theorem InOrder.unique (h : InOrder css css' os) {i o : Nat} (ho : os[i]? = some o) :
    (UndominatedIn D css' xs i ∧ ∀ j, UndominatedIn D css' xs j → j = i) ↔ (UndominatedIn D css xs o ∧ ∀ j, UndominatedIn D css xs j → j = o) := by
  constructor
  · rintro ⟨h1, h2⟩
    obtain ⟨o', ho', h1⟩ := h.undominated.1 h1
    obtain rfl := Option.some.inj (ho.symm.trans ho')
    refine ⟨h1, fun j hj => ?_⟩
    obtain ⟨cs, hcs⟩ := UndominatedIn.get hj
    obtain ⟨j', hj'⟩ := h.mem hcs
    have := h2 j' (h.undominated.2 ⟨j, hj', hj⟩)
    subst this
    exact Option.some.inj (hj'.symm.trans ho)
  · rintro ⟨h1, h2⟩
    refine ⟨h.undominated.2 ⟨o, ho, h1⟩, fun j hj => ?_⟩
    obtain ⟨o', ho', hj⟩ := h.undominated.1 hj
    obtain rfl := h2 o' hj
    exact h.inj ho' ho

/-- The expected outcome does not depend on the order of the overriders; `i` is then the position of the overrider, instead of its number. -/
theorem InOrder.expected (h : InOrder css css' os) :
    (∀ i, ExpectedIn D css' xs (.run i) → ∃ o, os[i]? = some o ∧ ExpectedIn D css xs (.run o)) ∧
    (ExpectedIn D css' xs .noOverrider → ExpectedIn D css xs .noOverrider) ∧ (ExpectedIn D css' xs .ambiguous → ExpectedIn D css xs .ambiguous) := by
  refine ⟨fun i hi => ?_, fun hi o ⟨cs, ho, ha⟩ => ?_, fun ⟨⟨i, hi⟩, hn⟩ => ?_⟩
  · obtain ⟨o, ho, _⟩ := h.undominated.1 hi.1
    exact ⟨o, ho, (h.unique ho).1 hi⟩
  · obtain ⟨i, hio⟩ := h.mem ho
    exact hi i (h.applicable.2 ⟨o, hio, cs, ho, ha⟩)
  · obtain ⟨o, ho, ha⟩ := h.applicable.1 hi
    refine ⟨⟨o, ha⟩, ?_⟩
    rintro ⟨o', h1, h2⟩
    obtain ⟨cs, hcs⟩ := UndominatedIn.get h1
    obtain ⟨i', hi'⟩ := h.mem hcs
    exact hn ⟨i', (h.unique hi').2 ⟨h1, h2⟩⟩

theorem expectedBy_in {p : Program} {m : MethodInfo} (r : Outcome) : ExpectedBy D p m xs r ↔ ExpectedIn D (m.overriders.map fun o => classesOf p o.vp) xs r := by
  have h1 : ∀ i, ApplicableAtBy D p m xs i ↔ ApplicableIn D (m.overriders.map fun o => classesOf p o.vp) xs i := by
    intro i
    unfold ApplicableAtBy ApplicableIn ApplicableBy
    rw [List.getElem?_map]
    cases m.overriders[i]? <;> simp
  have h2 : ∀ i, UndominatedBy D p m xs i ↔ UndominatedIn D (m.overriders.map fun o => classesOf p o.vp) xs i := by
    intro i
    unfold UndominatedBy UndominatedIn
    simp only [h1]
    refine and_congr_right fun _ => forall_congr' fun j => imp_congr_right fun _ => not_congr ?_
    unfold DominatesBy
    rw [List.getElem?_map, List.getElem?_map]
    cases m.overriders[i]? <;> cases m.overriders[j]? <;> simp [MoreSpecificBy, MoreSpecificIn]
  cases r <;> simp only [ExpectedBy, ExpectedIn, h1, h2]

theorem InOrder.subset (h : InOrder css css' os) {cs : List Cls} (hc : cs ∈ css') : cs ∈ css := by
  obtain ⟨i, hi⟩ := List.mem_iff_getElem?.1 hc
  rw [h.get] at hi
  obtain ⟨o, _, ho⟩ := Option.bind_eq_some_iff.1 hi
  exact List.mem_of_getElem? ho

/-- Permuting the candidates does not matter. -/
theorem InOrder.settled (h : InOrder css css' os) (hs : SettledIn D css xs) : SettledIn D css' xs := by
  have up : ∀ {i o : Nat}, os[i]? = some o → ∀ {cs : List Cls}, css[o]? = some cs ↔ css'[i]? = some cs := by
    intro i o ho cs
    rw [h.get, ho]
    rfl
  have find : ∀ {o : Nat}, ApplicableIn D css xs o → ∃ i, os[i]? = some o ∧ ApplicableIn D css' xs i := by
    rintro o ⟨cs, ho, ha⟩
    obtain ⟨i, hi⟩ := h.mem ho
    exact ⟨i, hi, h.applicable.2 ⟨o, hi, cs, ho, ha⟩⟩
  have top : ∀ {i o : Nat}, os[i]? = some o → UndominatedIn D css xs o → UndominatedIn D css' xs i := by
    intro i o hi ho
    exact h.undominated.2 ⟨o, hi, ho⟩
  rcases hs with h0 | ⟨o, o', hne, ho, ho'⟩ | ⟨o, ho, hb⟩
  · refine .inl fun i hi => ?_
    obtain ⟨o, _, ho⟩ := h.applicable.1 hi
    exact h0 o ho
  · obtain ⟨i, hi, _⟩ := find ho.1
    obtain ⟨j, hj, _⟩ := find ho'.1
    refine .inr (.inl ⟨i, j, ?_, top hi ho, top hj ho'⟩)
    rintro rfl
    exact hne (Option.some.inj (hi.symm.trans hj))
  · obtain ⟨i, hi, hA⟩ := find ho
    refine .inr (.inr ⟨i, hA, fun j hj hne => ?_⟩)
    obtain ⟨o', hj', ho'⟩ := h.applicable.1 hj
    obtain ⟨as, bs, h1, h2, h3⟩ := hb o' ho' (by
      rintro rfl
      exact hne (h.inj hj' hi))
    exact ⟨as, bs, (up hi).1 h1, (up hj').1 h2, h3⟩

theorem settledBy_in {p : Program} {m : MethodInfo} : SettledBy D p m xs ↔ SettledIn D (m.overriders.map fun o => classesOf p o.vp) xs := by
  have h1 : ∀ i, ApplicableAtBy D p m xs i ↔ ApplicableIn D (m.overriders.map fun o => classesOf p o.vp) xs i := by
    intro i
    unfold ApplicableAtBy ApplicableIn ApplicableBy
    rw [List.getElem?_map]
    cases m.overriders[i]? <;> simp
  have h2 : ∀ i j, DominatesBy D p m i j ↔ ∃ as bs, (m.overriders.map fun o => classesOf p o.vp)[i]? = some as ∧
      (m.overriders.map fun o => classesOf p o.vp)[j]? = some bs ∧ MoreSpecificIn D as bs := by
    intro i j
    unfold DominatesBy
    rw [List.getElem?_map, List.getElem?_map]
    cases m.overriders[i]? <;> cases m.overriders[j]? <;> simp [MoreSpecificBy, MoreSpecificIn]
  simp only [SettledBy, SettledIn, SettledOn, h1, h2]

open Classical in
/-- A choice among finitely many candidates is settled if the comparison is transitive. -/
theorem settledOn_transitive {A : Nat → Prop} {more : Nat → Nat → Prop} {n : Nat} (hn : ∀ i, A i → i < n) (hirr : ∀ i, ¬ more i i)
    (ht : ∀ i j k, A i → A j → A k → more i j → more j k → more i k) : SettledOn A more := by
  let l := (List.range n).filter fun i => decide (A i)
  have hl : ∀ i, i ∈ l ↔ A i := fun i => by
    simp only [l, List.mem_filter, List.mem_range, decide_eq_true_eq]
    exact ⟨fun h => h.2, fun h => ⟨hn i h, h⟩⟩
  have up : ∀ j, A j → ∃ i, (A i ∧ ∀ k, A k → ¬ more k i) ∧ (i = j ∨ more i j) := by
    intro j hj
    obtain ⟨z, hz, hzj, hmax⟩ := exists_undominated (more := fun a b => decide (more a b)) l (fun x => by simpa using hirr x)
      (fun x hx y hy z hz h1 h2 => by
        simp only [decide_eq_true_eq] at *
        exact ht x y z ((hl x).1 hx) ((hl y).1 hy) ((hl z).1 hz) h1 h2) j ((hl j).2 hj)
    exact ⟨z, ⟨(hl z).1 hz, fun k hk => by simpa using hmax k ((hl k).2 hk)⟩, by simpa using hzj⟩
  by_cases h0 : ∀ i, ¬ A i
  · exact .inl h0
  · simp only [not_forall, not_not] at h0
    obtain ⟨j, hj⟩ := h0
    obtain ⟨i, hi, _⟩ := up j hj
    by_cases h2 : ∃ k, k ≠ i ∧ A k ∧ ∀ l, A l → ¬ more l k
    · obtain ⟨k, hne, hk⟩ := h2
      exact .inr (.inl ⟨k, i, hne, hk, hi⟩)
    · refine .inr (.inr ⟨i, hi.1, fun k hk hne => ?_⟩)
      obtain ⟨z, hz, rfl | hzk⟩ := up k hk
      · exact absurd ⟨z, hne, hz⟩ h2
      · by_cases he : z = i
        · exact he ▸ hzk
        · exact absurd ⟨z, he, hz⟩ h2

theorem TransitiveIn.settled (h : TransitiveIn D css xs) : SettledIn D css xs := by
  refine settledOn_transitive (n := css.length) ?_ ?_ ?_
  · rintro i ⟨cs, hi, _⟩
    exact (List.getElem?_eq_some_iff.1 hi).1
  · rintro i ⟨as, bs, ha, hb, ⟨k, x, y, hx, hy, _, hne⟩, _⟩
    obtain rfl := Option.some.inj (ha.symm.trans hb)
    exact hne (Option.some.inj (hx.symm.trans hy))
  · rintro i j k ⟨a, ha, ha'⟩ ⟨b, hb, hb'⟩ ⟨c, hc, hc'⟩ ⟨a1, b1, e1, e2, h1⟩ ⟨b2, c2, e3, e4, h2⟩
    obtain rfl := Option.some.inj (ha.symm.trans e1)
    obtain rfl := Option.some.inj (hb.symm.trans e2)
    obtain rfl := Option.some.inj (hb.symm.trans e3)
    obtain rfl := Option.some.inj (hc.symm.trans e4)
    exact ⟨a, c, ha, hc, h _ (List.mem_of_getElem? ha) _ (List.mem_of_getElem? hb) _ (List.mem_of_getElem? hc) ha' hb' hc' h1 h2⟩

theorem applicable_at {as : List Cls} (h : List.Forall₂ (fun q a => D a q) as xs) {i : Nat} {a : Cls} (ha : as[i]? = some a) : ∃ x, xs[i]? = some x ∧ D x a := by
  obtain ⟨hlt, rfl⟩ := List.getElem?_eq_some_iff.1 ha
  exact ⟨xs[i]'(h.length_eq ▸ hlt), List.getElem?_eq_getElem _, h.get hlt (h.length_eq ▸ hlt)⟩

/-- Being more specific is transitive if the classes above each argument form a chain. -/
theorem transitiveIn_chain (ht : ∀ a b c, D a b → D b c → D a c) (hs : ∀ a b, D a b → D b a → a = b)
    (hx : ∀ x ∈ xs, ∀ a b, D x a → D x b → D a b ∨ D b a) : TransitiveIn D css xs := by
  intro as _ bs _ cs _ ha hb hc h1 h2
  have key : ∀ {as bs : List Cls}, List.Forall₂ (fun q a => D a q) as xs → List.Forall₂ (fun q a => D a q) bs xs → MoreSpecificIn D as bs →
      ∀ (i : Nat) (a b : Cls), as[i]? = some a → bs[i]? = some b → D a b := by
    intro as bs ha hb h i a b ea eb
    obtain ⟨x, ex, hxa⟩ := applicable_at ha ea
    obtain ⟨x', ex', hxb⟩ := applicable_at hb eb
    obtain rfl := Option.some.inj (ex.symm.trans ex')
    rcases hx x (List.mem_of_getElem? ex) a b hxa hxb with h' | h'
    · exact h'
    · by_cases e : b = a
      · exact e ▸ (e ▸ h' : D a a)
      · exact absurd ⟨h', e⟩ (h.2 i a b ea eb)
  have hmid : ∀ (i : Nat) (a : Cls), as[i]? = some a → ∃ b, bs[i]? = some b := by
    intro i a ea
    have : i < bs.length := by rw [hb.length_eq, ← ha.length_eq]; exact (List.getElem?_eq_some_iff.1 ea).1
    exact ⟨_, List.getElem?_eq_getElem this⟩
  have hac : ∀ (i : Nat) (a c : Cls), as[i]? = some a → cs[i]? = some c → D a c := by
    intro i a c ea ec
    obtain ⟨b, eb⟩ := hmid i a ea
    exact ht _ _ _ (key ha hb h1 i a b ea eb) (key hb hc h2 i b c eb ec)
  refine ⟨?_, fun i a c ea ec h => h.2 (hs _ _ h.1 (hac i a c ea ec))⟩
  obtain ⟨i, a, b, ea, eb, hab, hne⟩ := h1.1
  have : i < cs.length := by rw [hc.length_eq, ← ha.length_eq]; exact (List.getElem?_eq_some_iff.1 ea).1
  refine ⟨i, a, cs[i], ea, List.getElem?_eq_getElem this, hac i a _ ea (List.getElem?_eq_getElem this), fun e => hne (hs _ _ hab ?_)⟩
  have := key hb hc h2 i b _ eb (List.getElem?_eq_getElem this)
  rw [← e] at this
  exact this

/-- It is transitive if there is one virtual parameter. -/
theorem transitiveIn_one (ht : ∀ a b c, D a b → D b c → D a c) (hs : ∀ a b, D a b → D b a → a = b) (hx : xs.length = 1) : TransitiveIn D css xs := by
  intro as _ bs _ cs _ ha hb hc h1 h2
  rw [← ha.length_eq] at hx
  obtain ⟨a, rfl⟩ := List.length_eq_one_iff.1 hx
  have hx := ha.length_eq
  rw [← hb.length_eq] at hx
  obtain ⟨b, rfl⟩ := List.length_eq_one_iff.1 hx.symm
  have hx := hb.length_eq
  rw [← hc.length_eq] at hx
  obtain ⟨c, rfl⟩ := List.length_eq_one_iff.1 hx.symm
  have one : ∀ {a b : Cls}, MoreSpecificIn D [a] [b] → D a b ∧ a ≠ b := by
    rintro a b ⟨⟨i, x, y, ex, ey, h⟩, _⟩
    cases i with
    | zero => cases ex; cases ey; exact h
    | succ i => simp at ex
  obtain ⟨h1, h1'⟩ := one h1
  obtain ⟨h2, _⟩ := one h2
  have hne : a ≠ c := fun e => h1' (hs _ _ h1 (by rw [e]; exact h2))
  refine ⟨⟨0, a, c, rfl, rfl, ht _ _ _ h1 h2, hne⟩, fun i x y ex ey h => ?_⟩
  cases i with
  | zero => cases ex; cases ey; exact h.2 (hs _ _ h.1 (ht _ _ _ h1 h2))
  | succ i => simp at ex

end

/-! ## The records of a program -/

namespace Source

variable {S : Source} {cfg : Config} {rs : List ClassInfo} {L : Alive} {k : Nat} {M : MethodDecl}

/-- What `initialize` finds when the objects in `L` are alive. -/
abbrev found (S : Source) (rs : List ClassInfo) (L : Alive) : Program := L.found (S.decls rs) S.rtti (S.static rs)

/-- The record of method number `k`, whose overriders are constructed in the order `os`. -/
abbrev record (S : Source) (rs : List ClassInfo) (k : Nat) (os : List Nat) : MethodInfo := readMethod (S.decls rs) (S.static rs) k os

theorem compile_some (h : S.compile = some rs) : allRecords S.cpp.hier S.uses = some rs ∧
    ∀ m ∈ S.methods, S.cpp.validMethod m.params = true ∧ ∀ o ∈ m.overriders, S.cpp.validOverrider m.params o.params = true := by
  unfold compile at h
  split at h
  · rename_i ha
    refine ⟨h, fun m hm => ?_⟩
    simp only [accepts, List.all_eq_true, Bool.and_eq_true] at ha
    exact ⟨(ha m hm).1, fun o ho => ((ha m hm).2 o ho).1⟩
  · cases h

/-- The id in the record is that of a listed class exactly if such a class is returned. -/
theorem ret_listed (hS : S.Ok cfg) {t : Option CT} (hP : ∀ u ∈ t, u.Proper) (hc : ∀ c, S.ReturnsClass t c → S.cpp.hier.Defined c) :
    (Named S.uses (S.rtti.ti (S.ids (S.cpp.returnType t))) ↔ ∃ c, S.ReturnsClass t c ∧ Named S.uses c) ∧
    ∀ c, S.ReturnsClass t c → S.rtti.ti (S.ids (S.cpp.returnType t)) = c := by
  have key : ∀ c, S.ReturnsClass t c ↔ S.cpp.returnType t = some (.cls c) := by
    intro c
    cases t with
    | none => simp [ReturnsClass, Cpp.returnType]
    | some u => simpa [ReturnsClass] using (returnType_iff (E := S.cpp) (c := c) (hP u rfl)).symm
  have hid : ∀ c, S.ReturnsClass t c → S.rtti.ti (S.ids (S.cpp.returnType t)) = c := fun c h => by
    rw [(key c).1 h]; exact hS.ids c (hc c h)
  refine ⟨⟨fun h => ?_, fun ⟨c, h1, h2⟩ => (hid c h1).symm ▸ h2⟩, hid⟩
  by_cases hx : ∃ c, S.ReturnsClass t c
  · obtain ⟨c, hx⟩ := hx
    exact ⟨c, hx, hid c hx ▸ h⟩
  · exact absurd (hS.defined _ h) (hS.otherIds _ fun c e => hx ⟨c, (key c).2 e⟩)

theorem range_map {α β : Type} {l : List α} {f : Nat → β} {g : α → β} (h : ∀ i a, l[i]? = some a → f i = g a) : (List.range l.length).map f = l.map g := by
  refine List.ext_getElem (by simp) fun i h1 h2 => ?_
  simp only [List.getElem_map, List.getElem_range]
  exact h i _ (List.getElem?_eq_getElem (by simpa using h1))

theorem Loaded.classes_perm (hL : S.Loaded rs L) : (S.found rs L).classes.Perm rs := by
  have := hL.classes.map (readClass (S.decls rs) (S.static rs))
  rw [range_map (g := id) (l := rs), List.map_id] at this
  · exact this
  · intro i a h
    simp [readClass, decls, static, h]

theorem Ok.registers (hS : S.Ok cfg) (hc : S.compile = some rs) (hL : S.Loaded rs L) : Registers S.cpp.hier S.uses (S.found rs L) :=
  ⟨hS.wf, hS.defined, fun u hu c h => (hS.useIds u hu c h).1, rs, (compile_some hc).1, hL.classes_perm⟩

theorem mem_methods (hL : S.Loaded rs L) {m : MethodInfo} :
    m ∈ (S.found rs L).methods ↔ ∃ k M, S.methods[k]? = some M ∧ m = S.record rs k ((L.overriders k).map (·.1)) := by
  simp only [found, Alive.found, List.mem_map (f := fun m => readMethod _ _ m _)]
  constructor
  · rintro ⟨k, hk, rfl⟩
    have hk := List.mem_range.1 (hL.methods.subset hk)
    exact ⟨k, _, List.getElem?_eq_getElem hk, rfl⟩
  · rintro ⟨k, M, hk, rfl⟩
    exact ⟨k, hL.methods.symm.subset (List.mem_range.2 (List.getElem?_eq_some_iff.1 hk).1), rfl⟩

theorem classesOf_ids (hS : S.Ok cfg) {cs : List Cls} (h : ∀ c ∈ cs, S.cpp.hier.Defined c) : (cs.map fun c => S.ids (some (.cls c))).map S.rtti.ti = cs := by
  rw [List.map_map]
  exact (List.map_congr_left fun c hc => hS.ids c (h c hc)).trans (List.map_id' _)

theorem record_vp (hS : S.Ok cfg) (hc : S.compile = some rs) (hk : S.methods[k]? = some M) (os : List Nat) :
    (S.record rs k os).vp = M.classes.map fun c => S.ids (some (.cls c)) := by
  have hM := List.mem_of_getElem? hk
  have hv := ((compile_some hc).2 M hM).1
  simp only [validMethod, Bool.and_eq_true, List.all_eq_true] at hv
  have := method_classes (hS.proper M hM).1 hv.1 (hS.noRef M hM) (hS.registry M hM)
  simp [record, readMethod, static, hk, methodVp, this, MethodDecl.classes]

theorem record_classes (hS : S.Ok cfg) (hc : S.compile = some rs) (hk : S.methods[k]? = some M) (os : List Nat) :
    classesOf (S.found rs L) (S.record rs k os).vp = M.classes := by
  rw [record_vp hS hc hk, classesOf]
  exact classesOf_ids hS (hS.complete M (List.mem_of_getElem? hk))

theorem record_params (hS : S.Ok cfg) (hk : S.methods[k]? = some M) (os : List Nat) : (S.record rs k os).params = M.kinds := by
  have hM := List.mem_of_getElem? hk
  simp only [record, readMethod, decls, hk, Option.map_some, Option.getD_some, MethodDecl.kinds]
  exact List.map_congr_left fun p hp => CT.marked_eq (hS.noRef M hM p hp)

theorem record_pos (hS : S.Ok cfg) (hc : S.compile = some rs) (hk : S.methods[k]? = some M) : M.kinds.count true = M.classes.length ∧ 0 < M.classes.length := by
  have hM := List.mem_of_getElem? hk
  have hv := ((compile_some hc).2 M hM).1
  simp only [validMethod, Bool.and_eq_true, List.all_eq_true, decide_eq_true_eq] at hv
  have := congrArg List.length (method_classes (hS.proper M hM).1 hv.1 (hS.noRef M hM) (hS.registry M hM))
  simp only [methodVirtualTypes, List.length_map, ← List.countP_eq_length_filter] at this
  rw [MethodDecl.classes, ← this]
  refine ⟨?_, hv.2⟩
  rw [MethodDecl.kinds, List.count, List.countP_map]
  refine List.countP_congr fun p hp => ?_
  simp [CT.marked_eq (hS.noRef M hM p hp)]

theorem override_vp (hS : S.Ok cfg) (hc : S.compile = some rs) (hk : S.methods[k]? = some M) {i : Nat} {o : OverrideDecl} (ho : M.overriders[i]? = some o) :
    (readOverrider (S.decls rs) (S.static rs) k i).vp = (o.classes M).map (fun c => S.ids (some (.cls c))) ∧
    List.Forall₂ (fun d c => S.cpp.hier.Unambiguous d c) (o.classes M) M.classes := by
  have hM := List.mem_of_getElem? hk
  have hO := List.mem_of_getElem? ho
  have hv := (compile_some hc).2 M hM
  have hv1 := hv.1
  simp only [validMethod, Bool.and_eq_true, List.all_eq_true] at hv1
  obtain ⟨h1, h2, h3⟩ := overrider_classes hS.wf M.params o.params (hS.proper M hM).1 ((hS.proper M hM).2 o hO) hv1.1 (hv.2 o hO) (hS.virt M hM o hO) (hS.noRef M hM)
  refine ⟨?_, h3⟩
  simp [readOverrider, static, hk, ho, overriderVp, h1, h2, OverrideDecl.classes, Function.comp_def]

theorem override_defined (hS : S.Ok cfg) (hc : S.compile = some rs) (hk : S.methods[k]? = some M) {i : Nat} {o : OverrideDecl} (ho : M.overriders[i]? = some o) :
    ∀ c ∈ o.classes M, S.cpp.hier.Defined c := by
  intro c h
  obtain ⟨n, hn⟩ := List.mem_iff_getElem?.1 h
  have h2 := (override_vp hS hc hk ho).2
  obtain ⟨hlt, rfl⟩ := List.getElem?_eq_some_iff.1 hn
  exact (h2.get hlt (h2.length_eq ▸ hlt)).defined

theorem override_classes (hS : S.Ok cfg) (hc : S.compile = some rs) (hk : S.methods[k]? = some M) {i : Nat} {o : OverrideDecl} (ho : M.overriders[i]? = some o) :
    classesOf (S.found rs L) (readOverrider (S.decls rs) (S.static rs) k i).vp = o.classes M := by
  rw [(override_vp hS hc hk ho).1, classesOf]
  exact classesOf_ids hS (override_defined hS hc hk ho)

/-- The overriders of the record are those of the method, in the order of construction. -/
theorem inOrder (hS : S.Ok cfg) (hc : S.compile = some rs) (hL : S.Loaded rs L) (hk : S.methods[k]? = some M) :
    InOrder (M.overriders.map fun o => o.classes M)
      ((S.record rs k ((L.overriders k).map (·.1))).overriders.map fun o => classesOf (S.found rs L) o.vp) ((L.overriders k).map (·.1)) := by
  have hp := hL.overriders k M hk
  refine ⟨by rwa [List.length_map], fun i => ?_⟩
  simp only [record, readMethod, List.map_map, List.getElem?_map]
  cases h : (L.overriders k)[i]? with
  | none => rfl
  | some x =>
    have hx : x.1 ∈ List.range M.overriders.length := hp.subset (List.mem_map_of_mem (List.mem_of_getElem? h))
    have hx := List.getElem?_eq_getElem (List.mem_range.1 hx)
    have := override_classes (L := L) hS hc hk hx
    simp [hx, this, found]

theorem Ok.good (hS : S.Ok cfg) (hc : S.compile = some rs) (hL : S.Loaded rs L) : (S.found rs L).Good cfg := by
  have hR := hS.registers hc hL
  refine ⟨⟨hR.acyclic, ?_, ?_⟩, ?_, ?_⟩
  · intro m hm
    obtain ⟨k, M, hk, rfl⟩ := (mem_methods hL).1 hm
    have hl : (S.record rs k ((L.overriders k).map (·.1))).vp.length = M.classes.length := by rw [record_vp hS hc hk]; simp
    refine ⟨?_, ?_, ?_⟩
    · rw [hl]; exact (record_pos hS hc hk).2
    · rw [hl, record_params hS hk]; exact (record_pos hS hc hk).1
    · intro o ho
      obtain ⟨i, hi, rfl⟩ := List.mem_map.1 ho
      have hi := List.mem_range.1 ((hL.overriders k M hk).subset hi)
      obtain ⟨h1, h2⟩ := override_vp hS hc hk (List.getElem?_eq_getElem hi)
      rw [h1, hl, List.length_map, h2.length_eq]
  · simp only [found, Alive.found, List.map_map]
    have : (L.methods.map (·.1)).Nodup := hL.methods.nodup_iff.2 List.nodup_range
    simpa [Function.comp_def, readMethod] using this
  · intro a ha b hb e
    obtain ⟨u, hu, c, h1, R⟩ := hR.mem.2 a ha
    obtain ⟨v, hv, d, h2, R'⟩ := hR.mem.2 b hb
    have hcd := hS.vars u hu v hv c h1 d h2 (by rw [← R.var, ← R'.var]; exact e)
    change S.rtti.ti a.type = S.rtti.ti b.type
    rw [R.type, R'.type, (hS.useIds u hu c h1).1, (hS.useIds v hv d h2).1, hcd]
  · rintro hcfg ⟨cr, hcr, e⟩
    obtain ⟨u, hu, c, h1, R⟩ := hR.mem.2 cr hcr
    exact (hS.useIds u hu c h1).2 hcfg (by rw [← R.type, e])

theorem flat_perm {β : Type} (hL : S.Loaded rs L) {f : Nat → Nat → β} {g : OverrideDecl → β}
    (h : ∀ k M i o, S.methods[k]? = some M → M.overriders[i]? = some o → f k i = g o) :
    ((L.methods.map (·.1)).flatMap fun k => ((L.overriders k).map (·.1)).map (f k)).Perm ((S.methods.flatMap (·.overriders)).map g) := by
  refine (hL.methods.flatMap_right _).trans ?_
  have h1 : ∀ k ∈ List.range S.methods.length, (((L.overriders k).map (·.1)).map (f k)).Perm ((S.methods[k]?.map fun M => M.overriders.map g).getD []) := by
    intro k hk
    have hk := List.getElem?_eq_getElem (List.mem_range.1 hk)
    rw [hk]
    have := (hL.overriders k _ hk).map (f k)
    rwa [range_map fun i o ho => h k _ i o hk ho] at this
  refine (List.Perm.flatMap_left _ h1).trans (.of_eq ?_)
  rw [List.flatMap_def, range_map (g := fun M => M.overriders.map g), List.map_flatMap, List.flatMap_def]
  intro i M hi
  simp [hi]

theorem Ok.distinct (hS : S.Ok cfg) (hL : S.Loaded rs L) : (S.found rs L).Distinct := by
  have key : ∀ {β : Type} (F : OverriderInfo → β), ((S.found rs L).methods.flatMap (·.overriders)).map F =
      (L.methods.map (·.1)).flatMap fun k => ((L.overriders k).map (·.1)).map fun i => F (readOverrider (S.decls rs) (S.static rs) k i) := by
    intro β F
    simp [found, Alive.found, List.flatMap_map, List.map_flatMap, readMethod, Function.comp_def]
  constructor
  · rw [key, (flat_perm hL (g := (·.pf)) ?_).nodup_iff]
    · exact hS.pf
    · intro k M i o hk ho
      simp [readOverrider, decls, hk, ho]
  · rw [key, (flat_perm hL (g := (·.next)) ?_).nodup_iff]
    · exact hS.next
    · intro k M i o hk ho
      simp [readOverrider, decls, hk, ho]

/-- `initialize` accepts the program exactly when all classes are listed. -/
theorem accepted (hS : S.Ok cfg) (hc : S.compile = some rs) (hL : S.Loaded rs L) (pl : Platform) (gen : Nat) :
    (∃ rep img, install pl false (S.found rs L) gen = .ok (rep, img)) ↔ S.Listed := by
  have hR := hS.registers hc hL
  obtain ⟨_, _, hreg, hiff⟩ := C57 hR hS.together
  rw [C20_accepted (hS.good hc hL).valid]
  constructor
  · rintro ⟨h1, -⟩ M hM
    obtain ⟨k, hk⟩ := List.mem_iff_getElem?.1 hM
    have hm := (mem_methods hL).2 ⟨k, M, hk, rfl⟩
    refine ⟨fun c hcm => ?_, fun o ho => ?_⟩
    · have := h1 (S.ids (some (.cls c))) (Or.inr ⟨_, hm, Or.inl (by rw [record_vp hS hc hk]; exact List.mem_map_of_mem hcm)⟩)
      change Registered (S.found rs L) (S.rtti.ti _) at this
      rwa [hS.ids c (hS.complete M hM c hcm), hreg] at this
    · obtain ⟨i, hi⟩ := List.mem_iff_getElem?.1 ho
      have hir : readOverrider (S.decls rs) (S.static rs) k i ∈ (S.record rs k ((L.overriders k).map (·.1))).overriders :=
        List.mem_map_of_mem ((hL.overriders k M hk).mem_iff.2 (List.mem_range.2 (List.getElem?_eq_some_iff.1 hi).1))
      refine ⟨fun c hcm => ?_, fun c h2 h3 => ?_⟩
      · have := h1 (S.ids (some (.cls c))) (Or.inr ⟨_, hm, Or.inr ⟨_, hir, Or.inl (by rw [(override_vp hS hc hk hi).1]; exact List.mem_map_of_mem hcm)⟩⟩)
        change Registered (S.found rs L) (S.rtti.ti _) at this
        rwa [hS.ids c (override_defined hS hc hk hi c hcm), hreg] at this
      · have e1 : (S.record rs k ((L.overriders k).map (·.1))).ret = S.ids (S.cpp.returnType M.ret) := by simp [record, readMethod, static, hk]
        have e2 : (readOverrider (S.decls rs) (S.static rs) k i).ret = S.ids (S.cpp.returnType o.ret) := by simp [readOverrider, static, hk, hi]
        have hr := ret_listed hS (hS.properRet M hM).1 (hS.completeRet M hM).1
        have hv : S.rtti.ti (S.ids (S.cpp.returnType M.ret)) ≠ S.rtti.ti S.rtti.void := by
          rw [hr.2 c h2]
          intro e
          exact hS.otherIds none (by simp) (by rw [hS.void, ← e]; exact hS.defined c h3)
        have := h1 (S.ids (S.cpp.returnType o.ret)) (Or.inr ⟨_, hm, Or.inr ⟨_, hir, Or.inr ⟨e2.symm, by rw [e1]; exact hv,
          by rw [e1]; exact (hreg _).2 (hr.1.2 ⟨c, h2, h3⟩)⟩⟩⟩)
        exact (ret_listed hS ((hS.properRet M hM).2 o ho) ((hS.completeRet M hM).2 o ho)).1.1 ((hreg _).1 this)
  · intro hl
    constructor
    · rintro t (⟨cr, hcr, ht⟩ | ⟨m, hm, ht⟩)
      · rw [hreg]
        obtain ⟨u, hu, c, h1, R⟩ := hR.mem.2 cr hcr
        obtain ⟨b, hb, _, rfl⟩ := (R.bases t).1 ht
        exact (hS.useIds u hu b hb).1.symm ▸ ⟨u, hu, hb⟩
      · obtain ⟨k, M, hk, rfl⟩ := (mem_methods hL).1 hm
        have hM := List.mem_of_getElem? hk
        obtain ⟨l1, l2⟩ := hl M hM
        rw [hreg]
        rcases ht with ht | ⟨o, ho, ht⟩
        · rw [record_vp hS hc hk] at ht
          obtain ⟨c, h1, rfl⟩ := List.mem_map.1 ht
          exact (hS.ids c (hS.complete M hM c h1)).symm ▸ l1 c h1
        · obtain ⟨i, hi, rfl⟩ := List.mem_map.1 ho
          obtain ⟨O, hi⟩ : ∃ O, M.overriders[i]? = some O := ⟨_, List.getElem?_eq_getElem (List.mem_range.1 ((hL.overriders k M hk).subset hi))⟩
          obtain ⟨l3, l4⟩ := l2 _ (List.mem_of_getElem? hi)
          rcases ht with ht | ⟨rfl, ht⟩
          · rw [(override_vp hS hc hk hi).1] at ht
            obtain ⟨c, h1, rfl⟩ := List.mem_map.1 ht
            exact (hS.ids c (override_defined hS hc hk hi c h1)).symm ▸ l3 c h1
          · have e1 : (S.record rs k ((L.overriders k).map (·.1))).ret = S.ids (S.cpp.returnType M.ret) := by simp [record, readMethod, static, hk]
            have e2 : (readOverrider (S.decls rs) (S.static rs) k i).ret = S.ids (S.cpp.returnType O.ret) := by simp [readOverrider, static, hk, hi]
            rw [e2]
            rw [CovariantReturn, e1] at ht
            have hO := List.mem_of_getElem? hi
            obtain ⟨c, h2, h3⟩ := (ret_listed hS (hS.properRet M hM).1 (hS.completeRet M hM).1).1.1 ((hreg _).1 ht.2)
            exact (ret_listed hS ((hS.properRet M hM).2 O hO) ((hS.completeRet M hM).2 O hO)).1.2 (l4 c h2 h3)
    · rintro m o n t v ⟨hm, ho, ht, hv, hnd⟩
      obtain ⟨k, M, hk, rfl⟩ := (mem_methods hL).1 hm
      have hM := List.mem_of_getElem? hk
      obtain ⟨i, hi, rfl⟩ := List.mem_map.1 ho
      have hi := List.getElem?_eq_getElem (List.mem_range.1 ((hL.overriders k M hk).subset hi))
      obtain ⟨e1, hf⟩ := override_vp hS hc hk hi
      rw [e1, List.getElem?_map] at ht
      rw [record_vp hS hc hk, List.getElem?_map] at hv
      obtain ⟨d, hd, rfl⟩ := Option.map_eq_some_iff.1 ht
      obtain ⟨c, hcm, rfl⟩ := Option.map_eq_some_iff.1 hv
      apply hnd
      have hd' := List.mem_of_getElem? hd
      have hc' := List.mem_of_getElem? hcm
      change Derives (S.found rs L) (S.rtti.ti _) (S.rtti.ti _)
      rw [hS.ids c (hS.complete M hM c hc'), hS.ids d (override_defined hS hc hk hi d hd')]
      rw [hiff d c (((hl M hM).2 _ (List.mem_of_getElem? hi)).1 d hd')]
      obtain ⟨h1, rfl⟩ := List.getElem?_eq_some_iff.1 hd
      obtain ⟨h2, rfl⟩ := List.getElem?_eq_some_iff.1 hcm
      exact (hf.get h1 h2).inherits

end Source

end OpenMethod

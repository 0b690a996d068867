import Verif.SpecAccept
import Verif.Proof.Refine

/-! # Which registrations `initialize` accepts -/

namespace OpenMethod

open Spec Relation

variable {n : Bool} {pl : Platform} {p : Program}

theorem addBase_err {r : Rtti} {c : Cls} {s : Lattice} {t : TypeId} {e : Err} (h : addBase r c s t = .err e) :
    r.ti t ∉ s.order ∧ e = .missingClass t := by
  unfold addBase at h
  dsimp only at h
  split at h
  · rename_i hin; exact ⟨hin, (Res.err.inj h).symm⟩
  · split at h <;> simp at h

theorem addBase_ub {r : Rtti} {c : Cls} {s : Lattice} {t : TypeId} : addBase r c s t ≠ .ub := by
  unfold addBase
  dsimp only
  split
  · simp
  · split <;> simp

theorem addBases_order {r : Rtti} {s s' : Lattice} {cr : ClassInfo} (h : addBases r s cr = .ok s') : s'.order = s.order := by
  unfold addBases at h
  refine foldlM_inv (fun x : Lattice => x.order = s.order) _ _ _ _ h rfl ?_
  intro b a b' _ hb hf
  obtain ⟨_, h2, _⟩ := addBase_ok hf
  rw [h2]; exact hb

theorem addBases_foldlM_order {r : Rtti} {s s' : Lattice} {l : List ClassInfo} (h : l.foldlM (addBases r) s = .ok s') :
    s'.order = s.order := by
  refine foldlM_inv (fun x : Lattice => x.order = s.order) _ _ _ _ h rfl ?_
  intro b a b' _ hb hf
  rw [addBases_order hf]; exact hb

theorem augmentClasses_err {e : Err} (h : augmentClasses pl p.rtti p.classes = .err e) :
    ∃ cr ∈ p.classes, ∃ t ∈ cr.bases, ¬ Registered p (p.rtti.ti t) ∧ e = .missingClass t := by
  unfold augmentClasses at h
  simp only [Res.bind_eq_err, Res.pure_eq, reduceCtorEq, and_false, exists_false, or_false] at h
  obtain ⟨pre, cr, post, s, hl, hs, h⟩ := foldlM_eq_err.1 h
  unfold addBases at h
  obtain ⟨pre', t, post', s', hl', hs', h⟩ := foldlM_eq_err.1 h
  obtain ⟨h1, h2⟩ := addBase_err h
  refine ⟨cr, by rw [hl]; simp, t, by rw [hl']; simp, ?_, h2⟩
  have ho : s'.order = (p.classes.foldl (addClass p.rtti) Lattice.empty).order := by
    have h3 := addBases_foldlM_order hs
    have h4 : s'.order = s.order := by
      refine foldlM_inv (fun x : Lattice => x.order = s.order) _ _ _ _ hs' rfl ?_
      intro b a b' _ hb hf
      obtain ⟨_, h2, _⟩ := addBase_ok hf
      rw [h2]; exact hb
    rw [h4, h3]
  rw [ho, (pass1 p.rtti p.classes).mem_order] at h1
  exact h1

theorem augmentClasses_ub : augmentClasses pl p.rtti p.classes ≠ .ub := by
  intro h
  unfold augmentClasses at h
  simp only [Res.bind_eq_ub, Res.pure_eq, reduceCtorEq, and_false, exists_false, or_false] at h
  obtain ⟨pre, cr, post, s, hl, hs, h⟩ := foldlM_eq_ub.1 h
  unfold addBases at h
  obtain ⟨pre', t, post', s', hl', hs', h⟩ := foldlM_eq_ub.1 h
  exact addBase_ub h

theorem augmentClasses_known {L : Lattice} (h : augmentClasses pl p.rtti p.classes = .ok L) :
    ∀ cr ∈ p.classes, ∀ t ∈ cr.bases, Registered p (p.rtti.ti t) := by
  unfold augmentClasses at h
  rw [Res.bind_eq_ok] at h
  obtain ⟨s, hs, h⟩ := h
  have P1 := pass1 p.rtti p.classes
  have P2 := pass2 P1.tb hs
  intro cr hcr t ht
  exact (P1.mem_order _).1 (P2.known cr hcr t ht)

theorem needs_iff {L : Lattice} (hL : LatticeOk p L) (m : MethodInfo) (t : TypeId) :
    Needs p.rtti L m t ↔ t ∈ m.vp ∨ ∃ o ∈ m.overriders, t ∈ o.vp ∨ (t = o.ret ∧ CovariantReturn p m) := by
  unfold Needs
  rw [methodRet_eq hL m]

theorem typeIds_first {L : Lattice} (hL : LatticeOk p L) {c : Cls} {t : TypeId} (h : (L.typeIds c)[0]? = some t) :
    p.rtti.ti t = c ∧ ∃ cr ∈ p.classes, cr.type = t := by
  have := (hL.mem_typeIds c t).1 (List.mem_of_getElem? h)
  exact ⟨this.2, this.1⟩

theorem typeIds_ne {L : Lattice} (hL : LatticeOk p L) {c : Cls} (h : c ∈ L.order) : L.typeIds c ≠ [] := by
  obtain ⟨cr, hcr, rfl⟩ := (hL.mem_order c).1 h
  intro h0
  have := (hL.mem_typeIds _ cr.type).2 ⟨⟨cr, hcr, rfl⟩, rfl⟩
  rw [h0] at this
  simp at this

/-- `augment_methods` on the classes found by `augment_classes`. -/
theorem augment_cases {L : Lattice} (hL : LatticeOk p L) (hwf : ∀ m ∈ p.methods, m.WF)
    (hk : ∀ cr ∈ p.classes, ∀ t ∈ cr.bases, Registered p (p.rtti.ti t)) :
    (∃ t, augment p.rtti L p.methods = .err (.missingClass t) ∧ Unregistered p t) ∨
    ((∀ t, Named p t → Registered p (p.rtti.ti t)) ∧
      ((∃ b d m o k t v, augment p.rtti L p.methods = .err (.missingBase b d) ∧ NotDerived p m o k t v ∧
          SameClass p b t ∧ SameClass p d v) ∨
       (∃ ms, augment p.rtti L p.methods = .ok ms ∧ ∀ m o k t v, ¬ NotDerived p m o k t v))) := by
  cases ha : augmentMethods p.rtti L p.methods with
  | ub => exact absurd ha augmentMethods_ub
  | err e =>
    obtain ⟨m, hm, t, hn, hr, rfl⟩ := augmentMethods_err ha
    refine .inl ⟨t, by simp [augment, ha], .inr ⟨m, hm, (needs_iff hL m t).1 hn⟩, fun h => hr ((hL.mem_order _).2 h)⟩
  | ok ms =>
    obtain ⟨rfl, hN⟩ := augmentMethods_ok.1 ha
    have hreg : ∀ t, Named p t → Registered p (p.rtti.ti t) := by
      rintro t (⟨cr, hcr, ht⟩ | ⟨m, hm, ht⟩)
      · exact hk cr hcr t ht
      · exact (hL.mem_order _).1 (hN m hm t ((needs_iff hL m t).2 ht))
    refine .inr ⟨hreg, ?_⟩
    cases hc : checkMethods L (p.methods.map (toMeth p.rtti L)) with
    | ub =>
      refine absurd hc (checkMethods_ub ?_ ?_ ?_)
      · intro m hm o ho
        obtain ⟨m', hm', rfl⟩ := List.mem_map.1 hm
        obtain ⟨o', ho', rfl⟩ := List.mem_map.1 ho
        simpa [toMeth] using (hwf m' hm').overriders o' ho'
      · intro m hm o ho c hc
        obtain ⟨m', hm', rfl⟩ := List.mem_map.1 hm
        obtain ⟨o', ho', rfl⟩ := List.mem_map.1 ho
        obtain ⟨t, ht, rfl⟩ := List.mem_map.1 hc
        exact typeIds_ne hL (hN m' hm' t (.inr ⟨o', ho', .inl ht⟩))
      · intro m hm c hc
        obtain ⟨m', hm', rfl⟩ := List.mem_map.1 hm
        obtain ⟨t, ht, rfl⟩ := List.mem_map.1 hc
        exact typeIds_ne hL (hN m' hm' t (.inl ht))
    | err e =>
      obtain ⟨m, hm, k, v, hv, o, ho, c, hoc, hne, htd, b, d, hb, hd, rfl⟩ := checkMethods_err hc
      obtain ⟨m', hm', rfl⟩ := List.mem_map.1 hm
      obtain ⟨o', ho', rfl⟩ := List.mem_map.1 ho
      simp only [toMeth, List.getElem?_map, Option.map_eq_some_iff] at hv hoc
      obtain ⟨v', hv', rfl⟩ := hv
      obtain ⟨t', ht', rfl⟩ := hoc
      refine .inl ⟨b, d, m', o', k, t', v', by simp [augment, ha, hc], ⟨hm', ho', ht', hv', ?_⟩, (typeIds_first hL hb).1,
        (typeIds_first hL hd).1⟩
      intro hder
      exact htd ((hL.mem_td _ (hN m' hm' v' (.inl (List.mem_of_getElem? hv'))) _).2 hder)
    | ok u =>
      refine .inr ⟨p.methods.map (toMeth p.rtti L), by simp [augment, ha, hc], ?_⟩
      rintro m o k t v ⟨hm, ho, ht, hv, hnd⟩
      have := checkMethods_ok.1 hc (toMeth p.rtti L m) (List.mem_map_of_mem hm) k (p.rtti.ti v) (by simp [toMeth, hv]) _
        (List.mem_map_of_mem ho)
      obtain ⟨c, hc1, hc2⟩ := this
      simp only [List.getElem?_map, ht, Option.map_some, Option.some.injEq] at hc1
      subst hc1
      rcases hc2 with h | h
      · exact hnd (by rw [h]; exact .refl)
      · exact hnd ((hL.mem_td _ (hN m hm v (.inl (List.mem_of_getElem? hv))) _).1 h)

/-- The outcome of `initialize`. -/
theorem install_cases (hv : p.Valid) (gen : Nat) :
    (∃ t, install pl n p gen = .err (.missingClass t) ∧ Unregistered p t) ∨
    ((∀ t, Named p t → Registered p (p.rtti.ti t)) ∧
      ((∃ b d m o k t v, install pl n p gen = .err (.missingBase b d) ∧ NotDerived p m o k t v ∧
          SameClass p b t ∧ SameClass p d v) ∨
       ((∀ m o k t v, ¬ NotDerived p m o k t v) ∧ ((∃ rep img, install pl n p gen = .ok (rep, img)) ∨
          (install pl n p gen = .ub ∧ n = true))))) := by
  unfold install
  cases hc : compile pl n p with
  | err e =>
    rcases compile_shape hc hv.acyclic hv.wf with ⟨e', he, hcase⟩ | ⟨he, _⟩ | ⟨c', ms, he, _⟩
    · obtain rfl := Res.err.inj he
      rcases hcase with h | ⟨L, h1, h2⟩
      · obtain ⟨cr, hcr, t, ht, hr, rfl⟩ := augmentClasses_err h
        exact .inl ⟨t, rfl, .inl ⟨cr, hcr, ht⟩, hr⟩
      · rcases augment_cases (augmentClasses_ok hv.acyclic h1) hv.wf (augmentClasses_known h1) with
          ⟨t, h3, h4⟩ | ⟨h3, ⟨b, d, m, o, k, t, v, h4, h5⟩ | ⟨ms, h4, _⟩⟩
        · rw [h2] at h3
          obtain rfl := Res.err.inj h3
          exact .inl ⟨t, rfl, h4⟩
        · rw [h2] at h4
          obtain rfl := Res.err.inj h4
          exact .inr ⟨h3, .inl ⟨b, d, m, o, k, t, v, rfl, h5⟩⟩
        · rw [h2] at h4; simp at h4
    · simp at he
    · simp at he
  | ub =>
    rcases compile_shape hc hv.acyclic hv.wf with ⟨e', he, hcase⟩ | ⟨_, hcase⟩ | ⟨c', ms, he, _⟩
    · simp at he
    · rcases hcase with h | ⟨L, h1, h2⟩
      · exact absurd h augmentClasses_ub
      · rcases augment_cases (augmentClasses_ok hv.acyclic h1) hv.wf (augmentClasses_known h1) with
          ⟨t, h3, h4⟩ | ⟨h3, ⟨b, d, m, o, k, t, v, h4, h5⟩ | ⟨ms, h4, h5⟩⟩
        · rw [h3] at h2; simp at h2
        · rw [h4] at h2; simp at h2
        · rw [h4] at h2
          rcases h2 with h2 | ⟨_, _, m, _, args, _, hub⟩
          · simp at h2
          · refine .inr ⟨h3, .inr ⟨h5, .inr ⟨rfl, ?_⟩⟩⟩
            cases n with
            | true => rfl
            | false => exact absurd hub (cellUb_false _ _ _ _)
    · simp at he
  | ok c =>
    rcases compile_shape hc hv.acyclic hv.wf with ⟨e', he, hcase⟩ | ⟨he, _⟩ | ⟨c', ms, he, h1, h2, C⟩
    · simp at he
    · simp at he
    · obtain rfl := Res.ok.inj he
      obtain ⟨bases, img, hi, _⟩ := writeGlobal_ok C gen
      rcases augment_cases C.lat hv.wf (augmentClasses_known h1) with
        ⟨t, h3, h4⟩ | ⟨h3, ⟨b, d, m, o, k, t, v, h4, h5⟩ | ⟨ms, h4, h5⟩⟩
      · rw [h2] at h3; simp at h3
      · rw [h2] at h4; simp at h4
      · exact .inr ⟨h3, .inr ⟨h5, .inl ⟨c.report, img, by simp [hi]⟩⟩⟩

end OpenMethod

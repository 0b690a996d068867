import Verif.Proof.Refine

/-! # Outcomes of calls in terms of the documented rule -/

namespace OpenMethod

open Spec Relation

open Classical in
/-- Decided version of `Dominates`. -/
noncomputable def domB (p : Program) (m : MethodInfo) (i j : Nat) : Bool := decide (Dominates p m i j)

theorem domB_iff {p : Program} {m : MethodInfo} {i j : Nat} : domB p m i j = true ↔ Dominates p m i j := by
  simp [domB]

theorem domB_false {p : Program} {m : MethodInfo} {i j : Nat} : domB p m i j = false ↔ ¬ Dominates p m i j := by
  simp [domB]

theorem domB_irrefl (p : Program) (m : MethodInfo) (i : Nat) : domB p m i i = false := domB_false.2 (dominates_irrefl m i)

theorem domB_asymm (p : Program) (m : MethodInfo) (i j : Nat) (h : domB p m i j = true) : domB p m j i = false :=
  domB_false.2 (dominates_asymm (domB_iff.1 h))

open Classical in
/-- Indices of the applicable overriders. -/
noncomputable def appIdx (p : Program) (m : MethodInfo) (xs : List Cls) : List Nat :=
  setBits (m.overriders.map fun o => decide (Applicable p o xs))

variable {p : Program}

theorem mem_appIdx {m : MethodInfo} {xs : List Cls} {i : Nat} : i ∈ appIdx p m xs ↔ ApplicableAt p m xs i := by
  unfold appIdx ApplicableAt
  rw [mem_setBits, List.getElem?_map]
  cases m.overriders[i]? with
  | none => simp
  | some o => simp

theorem appIdx_nodup (p : Program) (m : MethodInfo) (xs : List Cls) : (appIdx p m xs).Nodup := setBits_nodup _

theorem appIdx_map (p : Program) (m : MethodInfo) (xs : List Cls) :
    (appIdx p m xs).map (fun i => m.overriders[i]?) = (applicable p m xs).map some :=
  setBits_map _ _

/-- Survivors, as indices. -/
noncomputable def survIdx (p : Program) (m : MethodInfo) (is : List Nat) : List Nat := survivors (domB p m) is

theorem survIdx_surv (m : MethodInfo) (is : List Nat) : Surv (domB p m) is (survIdx p m is) := by
  have E := eliminate_ok (domB p m) (is.map some).length (is.map some) le_rfl
  have e := alive_eliminate (domB p m) (is.map some).length (is.map some) le_rfl
  rw [alive_map_some] at e
  have hs := E.elim.alive_sublist
  rw [e, alive_map_some] at hs
  have ha := E.apart
  have hb := E.beaten
  have hn := E.nonempty
  rw [e, alive_map_some] at *
  exact ⟨hs, ha, hb, hn, rfl⟩

theorem survIdx_map (m : MethodInfo) (is : List Nat) (os : List OverriderInfo) (h : is.map (fun i => m.overriders[i]?) = os.map some) :
    (survIdx p m is).map (fun i => m.overriders[i]?) = (survivors (moreB p) os).map some := by
  let more' : Option OverriderInfo → Option OverriderInfo → Bool := fun a b =>
    match a, b with
    | some a, some b => moreB p a b
    | _, _ => false
  unfold survIdx
  rw [← survivors_map (fun i => m.overriders[i]?) (domB p m) more' is, h, survivors_map some (moreB p) more' os]
  · intro x _ y _; rfl
  · intro i _ j _
    rw [Bool.eq_iff_iff, domB_iff]
    simp only [Dominates, more']
    cases m.overriders[i]? with
    | none => simp
    | some a =>
      cases m.overriders[j]? with
      | none => simp
      | some b => simp [moreB]

/-- What happens when the overriders with these indices remain. -/
def Remain (m : MethodInfo) (types : List TypeId) (r : Res Nat) : List Nat → Prop
  | [] => r = .err (.noOverrider (badCallArity types) (badCallTypes types))
  | [i] => ∃ o, m.overriders[i]? = some o ∧ r = .ok o.pf
  | _ => r = .err (.ambiguousCall (badCallArity types) (badCallTypes types))

theorem refCall_remain (p : Program) (m : MethodInfo) (xs : List Cls) (types : List TypeId) :
    Remain m types (refCall p m xs types) (survIdx p m (appIdx p m xs)) := by
  have h := survIdx_map (p := p) m _ _ (appIdx_map p m xs)
  unfold refCall
  generalize survIdx p m (appIdx p m xs) = is at h
  generalize survivors (moreB p) (applicable p m xs) = os at h
  match is, os with
  | [], [] => rfl
  | [i], [o] => exact ⟨o, by simpa using h, rfl⟩
  | i :: j :: is, o :: o' :: os => rfl
  | [], _ :: _ => simp at h
  | _ :: _, [] => simp at h
  | [_], _ :: _ :: _ => simp at h
  | _ :: _ :: _, [_] => simp at h

theorem mem_survIdx {m : MethodInfo} {xs : List Cls} (ht : TransitiveAt p m xs) (i : Nat) :
    i ∈ survIdx p m (appIdx p m xs) ↔ Undominated p m xs i := by
  have S := survIdx_surv (p := p) m (appIdx p m xs)
  rw [S.mem_iff (domB_irrefl p m)]
  · unfold Undominated
    rw [mem_appIdx]
    simp only [mem_appIdx, domB_false]
  · intro x hx y hy z hz h1 h2
    rw [mem_appIdx] at hx hy hz
    exact domB_iff.2 (ht x y z hx hy hz (domB_iff.1 h1) (domB_iff.1 h2))

/-- When dominance is transitive among applicable overriders, the documented rule applies. -/
theorem refCall_expected {m : MethodInfo} {xs : List Cls} (ht : TransitiveAt p m xs) (types : List TypeId) :
    ∃ r, Expected p m xs r ∧ Does m (refCall p m xs types) r := by
  have hR := refCall_remain p m xs types
  have hm := mem_survIdx ht
  have S := survIdx_surv (p := p) m (appIdx p m xs)
  have hnd := S.sub.nodup (appIdx_nodup p m xs)
  have hne := S.nonempty
  generalize survIdx p m (appIdx p m xs) = is at *
  match is with
  | [] =>
    refine ⟨.noOverrider, ?_, _, _, hR⟩
    intro i hi
    exact hne (List.ne_nil_of_mem (mem_appIdx.2 hi)) rfl
  | [i] =>
    refine ⟨.run i, ⟨(hm i).1 (by simp), fun j hj => ?_⟩, hR⟩
    have := (hm j).2 hj
    simpa using this
  | i :: j :: l =>
    refine ⟨.ambiguous, ⟨⟨i, ((hm i).1 (by simp)).1⟩, ?_⟩, _, _, hR⟩
    rintro ⟨k, _, hk⟩
    have h1 := hk i ((hm i).1 (by simp))
    have h2 := hk j ((hm j).1 (by simp))
    rw [h1, h2] at hnd
    simp at hnd

/-- The ancestors of `x` are totally ordered: there is no multiple inheritance above `x`. -/
def SingleInheritance (p : Program) (x : Cls) : Prop :=
  ∀ a b, Derives p x a → Derives p x b → Derives p a b ∨ Derives p b a

theorem forall₂_get_left {α β : Type} {R : α → β → Prop} {as : List α} {bs : List β} (h : List.Forall₂ R as bs) {i : Nat}
    {a : α} (ha : as[i]? = some a) : ∃ b, bs[i]? = some b ∧ R a b := by
  induction h generalizing i with
  | nil => simp at ha
  | cons hab _ ih =>
    cases i with
    | zero => simp at ha; subst ha; exact ⟨_, by simp, hab⟩
    | succ i => simpa using ih (by simpa using ha)

theorem moreSpecific_trans (hac : Acyclic p) {xs : List Cls} {a b c : OverriderInfo} (ha : Applicable p a xs)
    (hb : Applicable p b xs) (hc : Applicable p c xs)
    (hcmp : ∀ x ∈ xs, SingleInheritance p x)
    (h1 : MoreSpecific p a b) (h2 : MoreSpecific p b c) : MoreSpecific p a c := by
  have hl : ∀ {o : OverriderInfo} (_ : Applicable p o xs) {i : Nat} {q : Cls}, (classesOf p o.vp)[i]? = some q →
      ∃ x, xs[i]? = some x ∧ Derives p x q := fun h _ _ hq => forall₂_get_left h hq
  have hg : ∀ {o : OverriderInfo} (_ : Applicable p o xs) {i : Nat} {x : Cls}, xs[i]? = some x →
      ∃ q, (classesOf p o.vp)[i]? = some q := by
    intro o h i x hx
    obtain ⟨q, hq, _⟩ := forall₂_get_left (List.Forall₂.flip h) hx
    exact ⟨q, hq⟩
  -- at each position, the class of a more specific overrider is below
  have hle : ∀ {o o' : OverriderInfo}, Applicable p o xs → Applicable p o' xs → MoreSpecific p o o' →
      ∀ (i : Nat) (q q' : Cls), (classesOf p o.vp)[i]? = some q → (classesOf p o'.vp)[i]? = some q' → Derives p q q' := by
    intro o o' ho ho' hm i q q' hq hq'
    obtain ⟨x, hx, hxq⟩ := hl ho hq
    obtain ⟨x', hx', hxq'⟩ := hl ho' hq'
    obtain rfl := Option.some.inj (hx.symm.trans hx')
    rcases hcmp x (List.mem_of_getElem? hx) q q' hxq hxq' with h | h
    · exact h
    · by_cases he : q = q'
      · subst he; exact h
      · exact absurd ⟨h, Ne.symm he⟩ (hm.2 i q q' hq hq')
  obtain ⟨i, q, q', hq, hq', hd, hne⟩ := h1.1
  obtain ⟨x, hx, _⟩ := hl ha hq
  obtain ⟨q'', hq''⟩ := hg hc hx
  have h23 := hle hb hc h2 i q' q'' hq' hq''
  refine ⟨⟨i, q, q'', hq, hq'', hd.trans h23, ?_⟩, ?_⟩
  · rintro rfl
    exact hne (hac q q' hd h23)
  · rintro j u w hu hw ⟨hwu, hne'⟩
    obtain ⟨y, hy, _⟩ := hl ha hu
    obtain ⟨v, hv⟩ := hg hb hy
    have h12 := hle ha hb h1 j u v hu hv
    have h23' := hle hb hc h2 j v w hv hw
    exact hne' (hac w u hwu (h12.trans h23'))

theorem transitiveAt_single (hac : Acyclic p) {m : MethodInfo} {xs : List Cls} (h : ∀ x ∈ xs, SingleInheritance p x) :
    TransitiveAt p m xs := by
  rintro i j k ⟨a, ha, hA⟩ ⟨b, hb, hB⟩ ⟨c, hc, hC⟩ ⟨a', b', ha', hb', h1⟩ ⟨b'', c', hb'', hc', h2⟩
  obtain rfl := Option.some.inj (ha.symm.trans ha')
  obtain rfl := Option.some.inj (hb.symm.trans hb')
  obtain rfl := Option.some.inj (hb.symm.trans hb'')
  obtain rfl := Option.some.inj (hc.symm.trans hc')
  exact ⟨a, c, ha, hc, moreSpecific_trans hac hA hB hC h h1 h2⟩

theorem moreSpecific_one {a b : OverriderInfo} {x y : Cls} (ha : classesOf p a.vp = [x]) (hb : classesOf p b.vp = [y]) :
    MoreSpecific p a b ↔ ProperlyDerives p x y ∧ ¬ ProperlyDerives p y x := by
  unfold MoreSpecific
  rw [ha, hb]
  constructor
  · rintro ⟨⟨i, x', y', hx, hy, h⟩, h2⟩
    cases i with
    | zero =>
      simp at hx hy; subst hx; subst hy
      exact ⟨h, h2 0 _ _ rfl rfl⟩
    | succ i => simp at hx
  · rintro ⟨h, h'⟩
    refine ⟨⟨0, x, y, rfl, rfl, h⟩, ?_⟩
    intro i x' y' hx hy
    cases i with
    | zero => simp at hx hy; subst hx; subst hy; exact h'
    | succ i => simp at hx

theorem properlyDerives_asymm (hac : Acyclic p) {x y : Cls} (h : ProperlyDerives p x y) : ¬ ProperlyDerives p y x :=
  fun h' => h.2 (hac x y h.1 h'.1)

theorem classesOf_one {o : OverriderInfo} (h : o.vp.length = 1) : ∃ x, classesOf p o.vp = [x] := by
  obtain ⟨t, ht⟩ := List.length_eq_one_iff.1 h
  exact ⟨p.rtti.ti t, by rw [ht]; rfl⟩

theorem transitiveAt_one (hac : Acyclic p) {m : MethodInfo} (hwf : m.WF) (h1 : m.vp.length = 1) (xs : List Cls) : TransitiveAt p m xs := by
  rintro i j k _ _ _ ⟨a, b, ha, hb, hab⟩ ⟨b', c, hb', hc, hbc⟩
  obtain rfl := Option.some.inj (hb.symm.trans hb')
  have hl : ∀ {i : Nat} {o : OverriderInfo}, m.overriders[i]? = some o → ∃ x, classesOf p o.vp = [x] := fun ho =>
    classesOf_one ((hwf.overriders _ (List.mem_of_getElem? ho)).trans h1)
  obtain ⟨x, hx⟩ := hl ha
  obtain ⟨y, hy⟩ := hl hb
  obtain ⟨z, hz⟩ := hl hc
  rw [moreSpecific_one hx hy] at hab
  rw [moreSpecific_one hy hz] at hbc
  refine ⟨a, c, ha, hc, (moreSpecific_one hx hz).2 ?_⟩
  have hxz : ProperlyDerives p x z := ⟨hab.1.1.trans hbc.1.1, by rintro rfl; exact hab.1.2 (hac _ _ hab.1.1 hbc.1.1)⟩
  exact ⟨hxz, properlyDerives_asymm hac hxz⟩

/-- An applicable overrider that dominates all others is selected. -/
theorem refCall_best {m : MethodInfo} {xs : List Cls} {i : Nat} {o : OverriderInfo} (ho : m.overriders[i]? = some o)
    (hA : Applicable p o xs) (hb : ∀ j, ApplicableAt p m xs j → j ≠ i → Dominates p m i j) (types : List TypeId) :
    refCall p m xs types = .ok o.pf := by
  have hR := refCall_remain p m xs types
  have S := survIdx_surv (p := p) m (appIdx p m xs)
  have := S.best (appIdx_nodup p m xs) (domB_asymm p m) (o := i) (mem_appIdx.2 ⟨o, ho, hA⟩)
    (fun j hj hne => domB_iff.2 (hb j (mem_appIdx.1 hj) hne)) (domB_irrefl p m i)
  rw [this] at hR
  obtain ⟨o', ho', hr⟩ := hR
  obtain rfl := Option.some.inj (ho.symm.trans ho')
  exact hr

/-- If an overrider runs, it is applicable. -/
theorem refCall_ok {m : MethodInfo} {xs : List Cls} {types : List TypeId} {n : Nat} (h : refCall p m xs types = .ok n) :
    ∃ i o, m.overriders[i]? = some o ∧ o.pf = n ∧ Applicable p o xs ∧ survIdx p m (appIdx p m xs) = [i] := by
  have hR := refCall_remain p m xs types
  have S := survIdx_surv (p := p) m (appIdx p m xs)
  rw [h] at hR
  generalize survIdx p m (appIdx p m xs) = is at *
  match is with
  | [] => simp [Remain] at hR
  | [i] =>
    obtain ⟨o, ho, hr⟩ := hR
    obtain ⟨o', ho', hA⟩ := mem_appIdx.1 (S.sub.subset (by simp : i ∈ [i]))
    obtain rfl := Option.some.inj (ho.symm.trans ho')
    exact ⟨i, o, ho, (Res.ok.inj hr).symm, hA, rfl⟩
  | i :: j :: l => simp [Remain] at hR

theorem refCall_noOverrider {m : MethodInfo} {xs : List Cls} {types : List TypeId} :
    (∃ a ts, refCall p m xs types = .err (.noOverrider a ts)) ↔ ∀ i, ¬ ApplicableAt p m xs i := by
  have hR := refCall_remain p m xs types
  have S := survIdx_surv (p := p) m (appIdx p m xs)
  generalize survIdx p m (appIdx p m xs) = is at *
  match is with
  | [] =>
    refine ⟨fun _ i hi => S.nonempty (List.ne_nil_of_mem (mem_appIdx.2 hi)) rfl, fun _ => ⟨_, _, hR⟩⟩
  | [i] =>
    obtain ⟨o, _, hr⟩ := hR
    rw [hr]
    refine ⟨by rintro ⟨_, _, h⟩; simp at h, fun h => absurd (mem_appIdx.1 (S.sub.subset (by simp : i ∈ [i]))) (h i)⟩
  | i :: j :: l =>
    rw [hR]
    refine ⟨by rintro ⟨_, _, h⟩; simp at h, fun h => absurd (mem_appIdx.1 (S.sub.subset (by simp : i ∈ i :: j :: l))) (h i)⟩

/-! ## Choices that are settled by direct comparisons -/

/-- Transitive dominance is founded: candidates are finitely many. -/
theorem Spec.TransitiveAt.founded {m : MethodInfo} {xs : List Cls} (ht : TransitiveAt p m xs) : Founded p m xs := by
  intro j hj
  have S := survIdx_surv (p := p) m (appIdx p m xs)
  rcases S.dominated (domB_irrefl p m) (fun x hx y hy z hz h1 h2 => domB_iff.2 (ht x y z (mem_appIdx.1 hx) (mem_appIdx.1 hy) (mem_appIdx.1 hz) (domB_iff.1 h1) (domB_iff.1 h2)))
    j (mem_appIdx.2 hj) with h | ⟨i, hi, h⟩
  · exact .inl ((mem_survIdx ht j).1 h)
  · exact .inr ⟨i, (mem_survIdx ht i).1 hi, domB_iff.1 h⟩

theorem Spec.Founded.settled {m : MethodInfo} {xs : List Cls} (h : Founded p m xs) : Settled p m xs := by
  by_cases h0 : ∀ i, ¬ ApplicableAt p m xs i
  · exact .inl h0
  · simp only [not_forall, not_not] at h0
    obtain ⟨j, hj⟩ := h0
    obtain ⟨i, hi⟩ : ∃ i, Undominated p m xs i := (h j hj).elim (fun h => ⟨j, h⟩) fun ⟨i, h, _⟩ => ⟨i, h⟩
    by_cases h2 : ∃ k, k ≠ i ∧ Undominated p m xs k
    · obtain ⟨k, hne, hk⟩ := h2
      exact .inr (.inl ⟨k, i, hne, hk, hi⟩)
    · refine .inr (.inr ⟨i, hi.1, fun k hk hne => ?_⟩)
      rcases h k hk with hu | ⟨l, hl, hd⟩
      · exact absurd ⟨k, hne, hu⟩ h2
      · by_cases he : l = i
        · exact he ▸ hd
        · exact absurd ⟨l, he, hl⟩ h2

/-- Undominated overriders are never eliminated. -/
theorem Spec.Undominated.survives {m : MethodInfo} {xs : List Cls} {i : Nat} (h : Undominated p m xs i) : i ∈ survIdx p m (appIdx p m xs) := by
  rcases (survIdx_surv (p := p) m (appIdx p m xs)).beaten i (mem_appIdx.2 h.1) with h' | ⟨j, hj, hd⟩
  · exact h'
  · exact absurd (domB_iff.1 hd) (h.2 j (mem_appIdx.1 hj))

theorem Spec.Founded.mem_survIdx {m : MethodInfo} {xs : List Cls} (h : Founded p m xs) (i : Nat) :
    i ∈ survIdx p m (appIdx p m xs) ↔ Undominated p m xs i := by
  refine ⟨fun hi => ?_, fun h => h.survives⟩
  have S := survIdx_surv (p := p) m (appIdx p m xs)
  rcases h i (mem_appIdx.1 (S.sub.subset hi)) with hu | ⟨k, hk, hd⟩
  · exact hu
  · have hne : k ≠ i := by rintro rfl; exact dominates_irrefl m k hd
    have := (pairwise_symm_mem S.apart (fun _ _ h => ⟨h.2, h.1⟩) hk.survives hi hne).1
    exact absurd hd (domB_false.1 this)

/-- Whatever the dominance, undominated overriders are called, or the call is ambiguous. -/
theorem refCall_undominated {m : MethodInfo} {xs : List Cls} {i : Nat} (h : Undominated p m xs i) (types : List TypeId) :
    Does m (refCall p m xs types) (.run i) ∨ Does m (refCall p m xs types) .ambiguous := by
  have hR := refCall_remain p m xs types
  have hi := h.survives
  generalize survIdx p m (appIdx p m xs) = is at hR hi
  match is with
  | [] => simp at hi
  | [j] =>
    obtain rfl := List.mem_singleton.1 hi
    exact .inl hR
  | j :: k :: l => exact .inr ⟨_, _, hR⟩

theorem refCall_two {m : MethodInfo} {xs : List Cls} {i j : Nat} (hne : i ≠ j) (hi : Undominated p m xs i) (hj : Undominated p m xs j) (types : List TypeId) :
    refCall p m xs types = .err (.ambiguousCall (badCallArity types) (badCallTypes types)) := by
  have hR := refCall_remain p m xs types
  have hi := hi.survives
  have hj := hj.survives
  generalize survIdx p m (appIdx p m xs) = is at hR hi hj
  match is with
  | [] => simp at hi
  | [k] => exact absurd ((List.mem_singleton.1 hi).trans (List.mem_singleton.1 hj).symm) hne
  | _ :: _ :: _ => exact hR

theorem refCall_settled {m : MethodInfo} {xs : List Cls} (h : Settled p m xs) (types : List TypeId) :
    ∃ r, Expected p m xs r ∧ Does m (refCall p m xs types) r := by
  rcases h with h | ⟨i, j, hne, hi, hj⟩ | ⟨i, ⟨o, ho, hA⟩, hb⟩
  · exact ⟨.noOverrider, h, refCall_noOverrider.2 h⟩
  · refine ⟨.ambiguous, ⟨⟨i, hi.1⟩, ?_⟩, _, _, refCall_two hne hi hj types⟩
    rintro ⟨k, _, hk⟩
    exact hne ((hk i hi).trans (hk j hj).symm)
  · refine ⟨.run i, ⟨⟨⟨o, ho, hA⟩, fun j hj hd => ?_⟩, fun j hj => ?_⟩, o, ho, refCall_best ho hA hb types⟩
    · by_cases he : j = i
      · exact dominates_irrefl m i (he ▸ hd)
      · exact dominates_asymm (hb j hj he) hd
    · by_contra he
      exact hj.2 i ⟨o, ho, hA⟩ (hb j hj.1 he)

end OpenMethod

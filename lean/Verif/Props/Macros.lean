import Verif.SpecMacros
import Verif.Props.Returns

/-!
# C66: macros
-/

namespace OpenMethod

open Hier Cpp

namespace Props

variable {E : Cpp}

/-- C66: a call by the name of a method, and an overrider added by this name, reach the method that overload resolution selects for ordinary functions with the parameters of the methods;
and the overriders that are added are those with the documented parameters. -/
def C66 : Prop := ∀ (E : Cpp) (ms : List (List CT)), E.hier.WF → (∀ c, E.poly c = true) → (∀ ps ∈ ms, E.validMethod ps = true ∧ ∀ p ∈ ps, p.Proper) →
  (∀ as : List CT, (∀ a ∈ as, a.Proper) → ∀ m, E.locate ms as = some m ↔ E.Selected ms as m) ∧
  ∀ qs : List CT, (∀ q ∈ qs, q.Proper) → ∀ (m : Nat) ps, ms[m]? = some ps → (E.overrides ms qs = some m ↔ E.Selected ms qs m ∧ List.Forall₂ (Documented E.hier) ps qs)

/-! ## Which method is found -/

theorem mem_candidates {ms : List (List CT)} {as : List CT} {m : Nat} : m ∈ E.candidates ms as ↔ ∃ ps, ms[m]? = some ps ∧ E.callable ps as = true := by
  simp only [candidates, List.mem_filter, List.mem_range, decide_eq_true_eq, Option.map_eq_some_iff]
  exact ⟨fun h => h.2, fun ⟨ps, h, h'⟩ => ⟨(List.getElem?_eq_some_iff.1 h).1, ps, h, h'⟩⟩

/-- A method is found if and only if it is the only one that can be called with these arguments. -/
theorem C66_found {ms : List (List CT)} {as : List CT} {m : Nat} :
    E.locate ms as = some m ↔ (∃ ps, ms[m]? = some ps ∧ E.callable ps as = true) ∧ ∀ (m' : Nat) ps', ms[m']? = some ps' → E.callable ps' as = true → m' = m := by
  have hn : (E.candidates ms as).Nodup := List.nodup_range.filter _
  have hm := fun m' => mem_candidates (E := E) (ms := ms) (as := as) (m := m')
  constructor
  · intro h
    unfold locate at h
    split at h
    · rename_i k hk
      obtain rfl := Option.some.inj h
      refine ⟨(hm _).1 (by rw [hk]; simp), fun m' ps' h1 h2 => ?_⟩
      have := (hm m').2 ⟨ps', h1, h2⟩
      rw [hk] at this
      exact List.mem_singleton.1 this
    · cases h
  · rintro ⟨h, hu⟩
    have h1 := (hm m).2 h
    have h2 : ∀ x ∈ E.candidates ms as, x = m := fun x hx => by
      obtain ⟨ps, e1, e2⟩ := (hm x).1 hx
      exact hu x ps e1 e2
    unfold locate
    match hc : E.candidates ms as with
    | [] => rw [hc] at h1; cases h1
    | [x] => rw [hc] at h2; simp [h2 x (by simp)]
    | x :: y :: l =>
      rw [hc] at h2 hn
      exact absurd ((h2 x (by simp)).trans (h2 y (by simp)).symm) (by rw [List.nodup_cons] at hn; rintro rfl; exact hn.1 (by simp))

/-- The method that is found is the one that overload resolution selects for ordinary functions. -/
theorem C66_selected {ms : List (List CT)} {as : List CT} {m : Nat} (h : E.locate ms as = some m) : E.Selected ms as m := by
  obtain ⟨⟨ps, h1, h2⟩, h3⟩ := C66_found.1 h
  exact ⟨ps, h1, h2, fun m' ps' e1 e2 => .inl (h3 m' ps' e1 e2)⟩

/-! ## Overriders -/

variable {p q : CT}

/-- A method can be called with the parameters of a documented overrider. -/
theorem passes_of_documented (hw : E.hier.WF) (hm : E.validMethodParam p = true) (h : Documented E.hier p q) (he : ¬ Excepted E p q) : E.passes p.removeVirtual q = true := by
  rcases h with ⟨c, d, h, hb⟩ | ⟨hv, rfl⟩
  · have hu := (isConvertible_iff hw).2 hb
    cases h with
    | virt h => cases h with
      | smartRef =>
        rename_i k
        cases k with
        | unique => simp [validMethodParam, CT.virtualType] at hm
        | _ => simp [passes, CT.removeVirtual, returnOk, bindsTo, bindsTo.same, bindsTemporary, toValue, fromLvalue, valueType, toObject, hu]
      | _ => simp [passes, CT.removeVirtual, returnOk, bindsTo, bindsTo.same, toValue, fromLvalue, valueType, toObject, isRvalue, hu]
    | value h => cases h <;> simp [passes, CT.removeVirtual, returnOk, toValue, fromLvalue, valueType, toObject, isRvalue, convertible, CT.element, hu]
    | constRef h => cases h with
      | plain => simp [passes, CT.removeVirtual, returnOk, bindsTo, bindsTo.same, bindsTemporary, toValue, fromLvalue, valueType, toObject, holdsUnique, convertible, CT.element, hu]
      | smart =>
        rename_i k
        cases k with
        | unique => exact absurd (.inr ⟨_, _, rfl, .inr (.inl ⟨_, rfl⟩)⟩) he
        | _ => simp [passes, CT.removeVirtual, returnOk, bindsTo, bindsTo.same, bindsTemporary, toValue, fromLvalue, valueType, toObject, holdsUnique, convertible, hu]
  · have : q.removeVirtual = q := by cases q <;> first | rfl | exact absurd (.inl ⟨_, rfl⟩) hv
    rw [this]
    exact C64_accepted hw (.inl rfl)

theorem when_some {h : Handed} {b : Bool} : (h.when b).isSome = true ↔ b = true := by
  rw [when_isSome]

/-- What the macro accepts for a parameter marked with `virtual_`, of another form. -/
theorem mixed_of_stray {t : CT} (hw : E.hier.WF) (hI : q.InHier E.hier) (hn : E.virtCastOk t q = false) (hcast : (E.strayCast t q).isSome = true) (hc : E.passes t q = true) : CT.Mixed E (.virt t) q := by
  have key : ∀ {c d : Cls}, E.hier.Defined d → d = c ∨ E.hier.isConvertible d c = true → E.hier.Unambiguous d c := by
    rintro c d hd (rfl | h)
    · exact unambiguous_self hw hd
    · exact (isConvertible_iff hw).1 h
  have hv : ∀ {moved : Bool} {s u : CT} {n m : Nat}, (E.vptrHanded moved s n u m).isSome = true → u.InHier E.hier → E.convertible u s = true ∨ u = s →
      n = m ∧ ∃ c d, CT.Pointee s u c d ∧ E.hier.Unambiguous d c := by
    intro moved s u n m h hd hc
    unfold vptrHanded at h
    split at h
    · rename_i d hu
      simp only [when_some, Bool.and_eq_true, decide_eq_true_eq] at h
      obtain ⟨⟨rfl, rfl⟩, h⟩ := h
      obtain ⟨c, hp, hdd⟩ := castPtr_pointee hw moved hu hc h
      refine ⟨rfl, c, d, hp, ?_⟩
      cases hp with
      | plain =>
        rcases hc with hc | hc
        · simp only [convertible, CT.element, CT.cls.injEq, Bool.or_eq_true, decide_eq_true_eq] at hc
          exact key hdd hc
        · cases hc; exact key hdd (.inl rfl)
      | smart =>
        rcases hc with hc | hc
        · simp only [convertible, decide_true, Bool.true_and] at hc
          exact key hdd (.inr hc)
        · cases hc; exact key hdd (.inl rfl)
    · cases h
  unfold strayCast at hcast
  split at hcast
  case h_11 =>
    simp [passes, returnOk, toValue, fromLvalue, valueType, toObject, isRvalue] at hc
    exact ⟨_, _, _, rfl, .rvalue, key hI (.inr hc)⟩
  case h_12 =>
    simp [passes, returnOk, bindsTo, bindsTo.same, bindsTemporary, toValue, fromLvalue, valueType, toObject, isRvalue] at hc
    exact ⟨_, _, _, rfl, .rvalueRef, key hI (hc.imp id fun h => h.2)⟩
  case h_13 =>
    unfold intrusiveCast at hcast
    split at hcast
    · rw [when_some] at hcast
      simp [virtCastOk, smartCastOk, hcast] at hn
    all_goals simp_all [passes, returnOk, toValue, fromLvalue, valueType, toObject, isRvalue]
  case h_14 =>
    unfold intrusiveCast at hcast
    split at hcast
    · rw [when_some] at hcast
      simp [virtCastOk, hcast] at hn
    all_goals simp_all [passes, returnOk, bindsTo, bindsTo.same, bindsTemporary, toValue, fromLvalue, valueType, toObject, isRvalue]
  case h_15 =>
    unfold intrusiveCast at hcast
    split at hcast
    · simp [passes, returnOk, bindsTo, bindsTo.same, bindsTemporary, toValue, fromLvalue, valueType, toObject, isRvalue] at hc
      exact ⟨_, _, _, rfl, .rvalueRef, key hI (hc.imp id fun h => h.2)⟩
    all_goals simp_all [passes, returnOk, bindsTo, bindsTo.same, bindsTemporary, toValue, fromLvalue, valueType, toObject, isRvalue]
  case h_16 =>
    unfold intrusiveCast at hcast
    split at hcast
    · rw [when_some] at hcast
      simp [virtCastOk, hcast] at hn
    all_goals simp_all [passes, returnOk, bindsTo, bindsTo.same, bindsTemporary, toValue, fromLvalue, valueType, toObject, isRvalue]
  case h_17 =>
    rename_i k d _
    rw [when_some] at hcast
    cases k <;> simp_all [virtCastOk, smartCastOk, passes, returnOk, toValue, fromLvalue, valueType, toObject, isRvalue]
  case h_18 => simp [passes, returnOk, toValue, fromLvalue, valueType, toObject] at hc
  case h_19 =>
    simp [passes, returnOk, toValue, fromLvalue, valueType, toObject, isRvalue] at hc
    obtain ⟨rfl, c, d, hp, hb⟩ := hv hcast hI (hc.elim (fun h => .inr h.1.symm) fun h => .inl h.2)
    exact ⟨_, c, d, rfl, .vptr hp, hb⟩
  case h_20 =>
    simp [passes, returnOk, bindsTo, bindsTemporary, toValue, fromLvalue, valueType, toObject, isRvalue] at hc
    obtain ⟨rfl, c, d, hp, hb⟩ := hv hcast hI (.inl hc.2)
    exact ⟨_, c, d, rfl, .vptrByValue hp, hb⟩
  case h_21 =>
    simp [passes, returnOk, bindsTo, bindsTo.same, bindsTemporary, toValue, fromLvalue, valueType, toObject, isRvalue] at hc
    obtain ⟨rfl, c, d, hp, hb⟩ := hv hcast hI (hc.elim (fun h => .inr h.1) fun h => .inl h.2.2)
    exact ⟨_, c, d, rfl, .vptrRef hp, hb⟩
  case h_22 =>
    simp [passes, returnOk, bindsTo, bindsTo.same, bindsTemporary, toValue, fromLvalue, valueType, toObject, isRvalue] at hc
    obtain ⟨rfl, c, d, hp, hb⟩ := hv hcast hI (hc.elim (fun h => .inr h.1) fun h => .inl h.2.2)
    exact ⟨_, c, d, rfl, .vptrRvalue hp, hb⟩
  case h_23 => cases hcast
  all_goals simp [passes, returnOk, bindsTo, bindsTo.same, bindsTemporary, toValue, fromLvalue, valueType, toObject] at hc

/-- What the macro accepts for a parameter marked with `virtual_`. -/
theorem documented_of_virt {t : CT} (hw : E.hier.WF) (hI : q.InHier E.hier) (hcast : E.castOk (.virt t) q = true) (hc : E.passes (CT.virt t).removeVirtual q = true) :
    (Documented E.hier (.virt t) q ∧ ¬ Excepted E (.virt t) q) ∨ CT.Mixed E (.virt t) q := by
  have he : ¬ Excepted E (.virt t) q := by rintro (⟨_, h⟩ | ⟨_, _, h, _⟩) <;> cases h
  simp only [castOk_virt, Bool.or_eq_true] at hcast
  simp only [CT.removeVirtual] at hc
  have key : ∀ {c d : Cls}, E.hier.Defined d → d = c ∨ E.hier.isConvertible d c = true → E.hier.Unambiguous d c := by
    rintro c d hd (rfl | h)
    · exact unambiguous_self hw hd
    · exact (isConvertible_iff hw).1 h
  cases hn : E.virtCastOk t q
  · exact .inr (mixed_of_stray hw hI hn (hcast.resolve_left (by simp [hn])) hc)
  replace hcast := hn
  unfold virtCastOk at hcast
  split at hcast
  · simp [passes, returnOk, bindsTo, bindsTo.same] at hc
    exact .inl ⟨.inl ⟨_, _, .virt .lref, key hI hc⟩, he⟩
  · simp [passes, returnOk, bindsTo] at hc
  · simp [passes, returnOk, bindsTo, bindsTo.same, bindsTemporary, toValue, fromLvalue, valueType, toObject] at hc
    exact .inl ⟨.inl ⟨_, _, .virt .cref, key hI (hc.elim id fun h => .inr h.2)⟩, he⟩
  · simp [passes, returnOk, bindsTo, bindsTo.same, bindsTemporary, toValue, fromLvalue, valueType, toObject] at hc
    exact .inl ⟨.inl ⟨_, _, .virt .rref, key hI (hc.elim id fun h => .inr h.2)⟩, he⟩
  · simp [passes, returnOk, toValue, fromLvalue, valueType, toObject] at hc
    exact .inl ⟨.inl ⟨_, _, .virt .ptr, key hI (hc.elim (fun e => .inl e.symm) id)⟩, he⟩
  · rename_i k c l d
    simp only [Bool.and_eq_true, decide_eq_true_eq] at hcast
    obtain ⟨rfl, -⟩ := hcast
    simp [passes, returnOk, toValue, fromLvalue, valueType, toObject, isRvalue] at hc
    exact .inl ⟨.inl ⟨_, _, .virt .smart, key hI (hc.imp Eq.symm id)⟩, he⟩
  · simp [passes, returnOk, toValue, fromLvalue, valueType, toObject] at hc
    exact .inr ⟨_, _, _, rfl, .byRef (by simp), key hI (.inr hc)⟩
  · simp [passes, returnOk, bindsTo, bindsTemporary, toValue, fromLvalue, valueType, toObject, isRvalue] at hc
    exact .inr ⟨_, _, _, rfl, .byValue (by simp), key hI (.inr hc)⟩
  · simp [passes, returnOk, bindsTo, bindsTo.same, bindsTemporary, toValue, fromLvalue, valueType, toObject] at hc
    exact .inl ⟨.inl ⟨_, _, .virt .smartRef, key hI (hc.imp id fun h => h.2)⟩, he⟩
  · simp [passes, returnOk, bindsTo, bindsTemporary, toValue, fromLvalue, valueType, toObject, isRvalue] at hc
    exact .inr ⟨_, _, _, rfl, .byValue (by simp), key hI (.inr hc)⟩
  · simp [passes, returnOk, bindsTo, bindsTo.same, bindsTemporary, toValue, fromLvalue, valueType, toObject] at hc
    exact .inl ⟨.inl ⟨_, _, .virt .smartRef, key hI (hc.imp id fun h => h.2)⟩, he⟩
  · cases hcast

/-- Unlike `method::override` (see `C59_refuted`), the macro only accepts documented parameters, apart from smart pointers passed in another way than to the method, and from
`virtual_ptr`s marked with `virtual_`. -/
theorem documented_of_macro (hw : E.hier.WF) (hp : ∀ c, E.poly c = true) (hP : p.Proper) (hQ : q.Proper) (hI : q.InHier E.hier) (hm : E.validMethodParam p = true) (ha : E.Accepts p q)
    (hc : E.passes p.removeVirtual q = true) : (Documented E.hier p q ∧ ¬ Excepted E p q) ∨ CT.Mixed E p q := by
  rcases (C59_partial hw hp hP hQ hm).2 ha with ⟨t, rfl⟩ | h
  · exact documented_of_virt hw hI ha.2 hc
  · exact .inl h

theorem callable_of (hw : E.hier.WF) {ps qs : List CT} (hm : ∀ p ∈ ps, E.validMethodParam p = true) (h : List.Forall₂ (fun p q => Documented E.hier p q ∧ ¬ Excepted E p q) ps qs) :
    E.callable ps qs = true := by
  induction h with
  | nil => rfl
  | cons h _ ih =>
    simp only [callable, Bool.and_eq_true]
    exact ⟨passes_of_documented hw (hm _ (by simp)) h.1 h.2, ih fun p hp => hm p (by simp [hp])⟩

theorem validOverrider_of (hw : E.hier.WF) (hp : ∀ c, E.poly c = true) {ps qs : List CT} (hm : ∀ p ∈ ps, E.validMethodParam p = true) (hP : ∀ p ∈ ps, p.Proper) (hQ : ∀ q ∈ qs, q.Proper)
    (h : List.Forall₂ (fun p q => Documented E.hier p q ∧ ¬ Excepted E p q) ps qs) : E.validOverrider ps qs = true := by
  induction h with
  | nil => rfl
  | cons h _ ih =>
    obtain ⟨h1, h2⟩ := (C59_partial hw hp (hP _ (by simp)) (hQ _ (by simp)) (hm _ (by simp))).1 h.1 h.2
    simp [validOverrider, h1, h2, ih (fun p hp => hm p (by simp [hp])) (fun p hp => hP p (by simp [hp])) fun q hq => hQ q (by simp [hq])]

theorem documented_of (hw : E.hier.WF) (hp : ∀ c, E.poly c = true) : ∀ {ps qs : List CT}, (∀ p ∈ ps, E.validMethodParam p = true) → (∀ p ∈ ps, p.Proper) →
    (∀ q ∈ qs, q.Proper ∧ q.InHier E.hier) → E.validOverrider ps qs = true → E.callable ps qs = true →
    List.Forall₂ (fun p q => (Documented E.hier p q ∧ ¬ Excepted E p q) ∨ CT.Mixed E p q) ps qs
  | [], [], _, _, _, _, _ => .nil
  | p :: ps, q :: qs, hm, hP, hQ, h1, h2 => by
    simp only [validOverrider, callable, Bool.and_eq_true] at h1 h2
    exact .cons (documented_of_macro hw hp (hP p (by simp)) (hQ q (by simp)).1 (hQ q (by simp)).2 (hm p (by simp)) ⟨h1.1.1, h1.1.2⟩ h2.1)
      (documented_of hw hp (fun p hp => hm p (by simp [hp])) (fun p hp => hP p (by simp [hp])) (fun q hq => hQ q (by simp [hq])) h1.2 h2.2)
  | [], q :: qs, _, _, _, h1, _ => by simp [validOverrider] at h1
  | p :: ps, [], _, _, _, h1, _ => by simp [validOverrider] at h1

theorem overrides_iff {ms : List (List CT)} {qs ps : List CT} {m : Nat} (hps : ms[m]? = some ps) :
    E.overrides ms qs = some m ↔ E.locate ms qs = some m ∧ E.validOverrider ps qs = true := by
  unfold overrides
  cases hl : E.locate ms qs with
  | none => simp
  | some k =>
    by_cases hk : k = m
    · subst hk; simp [hps]
    · simp [hk, Option.bind_eq_some_iff]

/-- Partial: if no other method of this name can be called with the same arguments, a call finds its method, and the overriders that are added to it are those with documented parameters, apart from the
exceptions of C59, from smart pointers passed in another way than to the method, and from `virtual_ptr`s marked with `virtual_`. -/
theorem C66_partial (hw : E.hier.WF) (hp : ∀ c, E.poly c = true) {ms : List (List CT)} (hm : ∀ ps ∈ ms, E.validMethod ps = true ∧ ∀ p ∈ ps, p.Proper) {m : Nat} {ps : List CT}
    (hps : ms[m]? = some ps) :
    (∀ as, (∀ (m' : Nat) ps', ms[m']? = some ps' → E.callable ps' as = true → m' = m) → (E.locate ms as = some m ↔ E.Selected ms as m)) ∧
    ∀ qs, (∀ q ∈ qs, q.Proper ∧ q.InHier E.hier) →
      (E.overrides ms qs = some m → E.Selected ms qs m ∧ List.Forall₂ (fun p q => (Documented E.hier p q ∧ ¬ Excepted E p q) ∨ CT.Mixed E p q) ps qs) ∧
      ((∀ (m' : Nat) ps', ms[m']? = some ps' → E.callable ps' qs = true → m' = m) → List.Forall₂ (fun p q => Documented E.hier p q ∧ ¬ Excepted E p q) ps qs → E.overrides ms qs = some m) := by
  have hv : ∀ p ∈ ps, E.validMethodParam p = true := by
    have := (hm ps (List.mem_of_getElem? hps)).1
    simp only [validMethod, Bool.and_eq_true, List.all_eq_true] at this
    exact this.1
  have hP := (hm ps (List.mem_of_getElem? hps)).2
  refine ⟨fun as hu => ⟨C66_selected, ?_⟩, fun qs hQ => ⟨fun h => ?_, fun hu h => ?_⟩⟩
  · rintro ⟨ps', h1, h2, -⟩
    exact C66_found.2 ⟨⟨ps', h1, h2⟩, hu⟩
  · obtain ⟨h1, h2⟩ := (overrides_iff hps).1 h
    obtain ⟨⟨ps', e1, e2⟩, -⟩ := C66_found.1 h1
    obtain rfl := Option.some.inj (hps.symm.trans e1)
    exact ⟨C66_selected h1, documented_of hw hp hv hP hQ h2 e2⟩
  · exact (overrides_iff hps).2 ⟨C66_found.2 ⟨⟨ps, hps, callable_of hw hv h⟩, hu⟩, validOverrider_of hw hp hv hP (fun q hq => (hQ q hq).1) h⟩

/-- `meet(virtual_ptr<0>, virtual_ptr<0>)`, and a method of the same name with one parameter. -/
example : (polymorphic zoo).overrides [[vp (.cls 0), vp (.cls 0)], [.virt (.lref (.cls 0))]] [vp (.cls 1), vp (.cls 0)] = some 0 := by
  refine ((C66_partial (E := polymorphic zoo) zoo_wf (fun _ => rfl) ?_ rfl).2 _ ?_).2 ?_ (.cons ?_ (.cons ?_ .nil))
  · simp only [List.mem_cons, List.not_mem_nil, or_false]
    rintro ps (rfl | rfl)
    · refine ⟨by decide +kernel, fun p hp => ?_⟩
      simp only [List.mem_cons, List.not_mem_nil, or_false, or_self] at hp
      subst hp
      exact ⟨.inl ⟨0, rfl⟩, 0, rfl⟩
    · refine ⟨by decide +kernel, fun p hp => ?_⟩
      obtain rfl := List.mem_singleton.1 hp
      trivial
  · simp only [List.mem_cons, List.not_mem_nil, or_false]
    rintro q (rfl | rfl)
    · exact ⟨⟨.inl ⟨1, rfl⟩, 0, rfl⟩, by simp [CT.InHier, zoo, polymorphic, Hier.Defined]⟩
    · exact ⟨⟨.inl ⟨0, rfl⟩, 0, rfl⟩, by simp [CT.InHier, zoo, polymorphic, Hier.Defined]⟩
  · rintro (_ | _ | _) ps' h1 h2
    · rfl
    · cases h1; simp [callable] at h2
    · simp at h1
  · exact ⟨.inl ⟨0, 1, .value .plain, zoo_derives⟩, by rintro (⟨_, h⟩ | ⟨_, _, h, _⟩) <;> cases h⟩
  · exact ⟨.inl ⟨0, 0, .value .plain, unambiguous_self zoo_wf ⟨[], by simp [zoo, polymorphic]⟩⟩, by rintro (⟨_, h⟩ | ⟨_, _, h, _⟩) <;> cases h⟩

/-- Two methods of the same name, one for a class and one for a derived class: a call with an object of the derived class, and an overrider for it, are rejected, although overload resolution would
select the second among ordinary functions. -/
theorem C66_overloads : let E := polymorphic zoo; let ms := [[vp (.cls 0)], [vp (.cls 1)]]
    E.Selected ms [vp (.cls 1)] 1 ∧ List.Forall₂ (Documented E.hier) [vp (.cls 1)] [vp (.cls 1)] ∧ E.locate ms [vp (.cls 1)] = none ∧ E.overrides ms [vp (.cls 1)] = none := by
  refine ⟨⟨_, rfl, by decide +kernel, ?_⟩, .cons (.inl ⟨1, 1, .value .plain, unambiguous_self zoo_wf ⟨[(0, false)], by simp [zoo, polymorphic]⟩⟩) .nil, by decide +kernel, by decide +kernel⟩
  rintro (_ | _ | _) ps' h1 h2
  · cases h1
    exact .inr ⟨⟨.inr ⟨rfl, 0, 1, .value .plain, by decide⟩, trivial⟩, by decide +kernel⟩
  · exact .inl rfl
  · simp at h1

theorem C66_refuted : ¬ C66 := by
  intro h
  obtain ⟨h1, -, h2, -⟩ := C66_overloads
  have := (h (polymorphic zoo) [[vp (.cls 0)], [vp (.cls 1)]] zoo_wf (fun _ => rfl) ?_).1 [vp (.cls 1)] ?_ 1
  · rw [this.2 h1] at h2; cases h2
  · simp only [List.mem_cons, List.not_mem_nil, or_false]
    rintro ps (rfl | rfl) <;> refine ⟨by decide +kernel, fun p hp => ?_⟩ <;> obtain rfl := List.mem_singleton.1 hp
    · exact ⟨.inl ⟨0, rfl⟩, 0, rfl⟩
    · exact ⟨.inl ⟨1, rfl⟩, 0, rfl⟩
  · intro a ha
    obtain rfl := List.mem_singleton.1 ha
    exact ⟨.inl ⟨1, rfl⟩, 0, rfl⟩

end Props

end OpenMethod

import Verif.SpecForms
import Verif.Props.Params

/-!
# C75: overrider parameters of other forms than the method's
-/

namespace OpenMethod.Props

open OpenMethod Hier Cpp

variable {E : Cpp} {p q t u r : CT} {c d : Cls} {k : Smart}

/-- C75: if the compiler accepts an overrider for a parameter marked with `virtual_`, and `initialize` accepts its class, the overrider gets the object. -/
def C75 : Prop := ∀ (E : Cpp) (t q : CT) (c d : Cls), E.hier.WF → t.Proper → q.Proper → E.validMethodParam (.virt t) = true → E.Accepts (.virt t) q →
  t.virtualType E.reg = some (.cls c) → q.virtualType E.reg = some (.cls d) → E.hier.Unambiguous d c → E.handed t q = some .object

theorem when_eq_some {h h' : Handed} {b : Bool} : h.when b = some h' ↔ h = h' ∧ b = true := by
  cases b <;> simp [Handed.when]

theorem accepts_virt_iff (hq : ∀ v, q ≠ .virt v) : E.Accepts (.virt t) q ↔ (E.handed t q).isSome = true := by
  rw [Accepts, valid_virt hq, castOk]
  simp

/-- The object is handed over, unless the forms are among those that go astray. -/
theorem C75_exact (ha : E.Accepts (.virt t) q)
    (hd : q.virtualType E.reg = some (.cls d)) : E.handed t q = some .object ↔ ¬ CT.Astray t q := by
  have hs : (E.handed t q).isSome = true := ha.2
  clear ha
  have hobj : ∀ {b : Bool}, (Handed.object.when b).isSome = true → Handed.object.when b = some .object := by
    intro b hb
    rw [when_isSome] at hb
    rw [hb]; rfl
  have hopt : ∀ {c s}, E.optimalToVptr c s ≠ some .object := by
    intro c s
    unfold optimalToVptr
    split
    · split <;> simp [when_eq_some]
    · simp [when_eq_some]
  have hvp : ∀ {b s n u m}, (E.vptrHanded b s n u m).isSome = true → E.vptrHanded b s n u m = some .object := by
    intro b s n u m h
    unfold vptrHanded at h ⊢
    split at h
    · exact hobj h
    · cases h
  unfold handed at hs ⊢
  split
  · rename_i h
    simp only [true_iff]
    intro hA
    unfold virtCastOk at h
    cases hA <;> split at h <;> simp_all
  · rename_i hn
    rw [if_neg hn] at hs
    clear hn
    unfold strayCast at hs ⊢
    split at hs
    case h_3 => exact ⟨fun h => absurd h (by simp [when_eq_some]), fun h => absurd .smart h⟩
    case h_4 => exact ⟨fun h => absurd h hopt, fun h => absurd .vptr h⟩
    case h_5 => exact ⟨fun h => absurd h (by simp [when_eq_some]), fun h => absurd .constSmart h⟩
    case h_6 => exact ⟨fun h => absurd h (by simp [when_eq_some]), fun h => absurd .constVptr h⟩
    case h_13 =>
      unfold intrusiveCast at hs ⊢
      split at hs
      · exact ⟨fun _ h => (by cases h; contradiction), fun _ => hobj hs⟩
      · exact ⟨fun h => absurd h (by simp [when_eq_some]), fun h => absurd (.intrusive (by rintro rfl; simp_all)) h⟩
      · exact ⟨fun _ h => (by cases h), fun _ => hobj hs⟩
      · exact ⟨fun _ h => (by cases h), fun _ => hobj hs⟩
      · cases hs
    case h_14 =>
      unfold intrusiveCast at hs ⊢
      split at hs
      · exact ⟨fun _ h => (by cases h; contradiction), fun _ => hobj hs⟩
      · exact ⟨fun h => absurd h (by simp [when_eq_some]), fun h => absurd (.intrusiveRef (by rintro rfl; simp_all)) h⟩
      · exact ⟨fun _ h => (by cases h), fun _ => hobj hs⟩
      · exact ⟨fun _ h => (by cases h), fun _ => hobj hs⟩
      · cases hs
    case h_15 => cases hx : ‹CT› <;> simp_all [CT.virtualType, intrusiveCast]
    case h_16 =>
      unfold intrusiveCast at hs ⊢
      split at hs
      · exact ⟨fun _ h => (by cases h; contradiction), fun _ => hobj hs⟩
      · exact ⟨fun h => absurd h (by simp [when_eq_some]), fun h => absurd (.intrusiveByValue (by rintro rfl; simp_all)) h⟩
      · exact ⟨fun _ h => (by cases h), fun _ => hobj hs⟩
      · exact ⟨fun _ h => (by cases h), fun _ => hobj hs⟩
      · cases hs
    case h_17 => exact ⟨fun _ h => (by cases h), fun _ => hobj hs⟩
    case h_18 => exact ⟨fun h => absurd h (by simp [when_eq_some]), fun h => absurd .unique h⟩
    case h_19 => exact ⟨fun _ h => (by cases h), fun _ => hvp hs⟩
    case h_20 => exact ⟨fun _ h => (by cases h), fun _ => hvp hs⟩
    case h_21 => exact ⟨fun _ h => (by cases h), fun _ => hvp hs⟩
    case h_23 => cases hs
    all_goals simp [CT.virtualType] at hd

/-- Partial: C75 for all forms but those that go astray. -/
theorem C75_partial (ha : E.Accepts (.virt t) q) (hd : q.virtualType E.reg = some (.cls d)) (hA : ¬ CT.Astray t q) :
    E.handed t q = some .object := (C75_exact ha hd).2 hA

/-! ## What happens otherwise -/

/-- An overrider that takes a reference to a smart pointer is accepted for a parameter that is a reference to an object, and is never reached: the cast throws. -/
theorem C75_smart (hp : E.poly c = true) (k : Smart) : (E.Accepts (.virt (.lref (.cls c))) (.cref (.smart k u)) ∧ E.handed (.lref (.cls c)) (.cref (.smart k u)) = some .nothing) ∧
    (E.Accepts (.virt (.cref (.cls c))) (.cref (.smart k u)) ∧ E.handed (.cref (.cls c)) (.cref (.smart k u)) = some .nothing) := by
  have h1 : E.handed (.lref (.cls c)) (.cref (.smart k u)) = some .nothing := by simp [handed, virtCastOk, strayCast, Handed.when, hp]
  have h2 : E.handed (.cref (.cls c)) (.cref (.smart k u)) = some .nothing := by simp [handed, virtCastOk, strayCast, Handed.when, hp]
  exact ⟨⟨(accepts_virt_iff (by simp)).2 (by rw [h1]; rfl), h1⟩, (accepts_virt_iff (by simp)).2 (by rw [h2]; rfl), h2⟩

/-- An overrider that takes a `const virtual_ptr&` is accepted as well. If its class is that of the method, it gets a reference to a `virtual_ptr` that does not exist any more; if it is derived from it,
the cast throws. -/
theorem C75_vptr (hw : E.hier.WF) (hp : E.poly c = true) (hb : E.hier.Unambiguous d c) (r : CT) : E.Accepts (.virt (.lref (.cls c))) (.cref (.vptr (.cls d) r)) ∧
    E.handed (.lref (.cls c)) (.cref (.vptr (.cls d) r)) = some (if d = c then .dangling else .nothing) := by
  have h1 : E.handed (.lref (.cls c)) (.cref (.vptr (.cls d) r)) = some (if d = c then .dangling else .nothing) := by
    simp only [handed, virtCastOk, Bool.false_eq_true, if_false, strayCast, optimalToVptr, Handed.when, hp, if_true]
    by_cases h : d = c
    · subst h
      simp [(isConvertible_iff hw).2 hb]
    · have : E.hier.isConvertible c d = false := by
        rw [Bool.eq_false_iff]
        exact fun h' => h (((isConvertible_iff hw).1 h').inherits.antisymm hw hb.inherits)
      simp [h, this]
  exact ⟨(accepts_virt_iff (by simp)).2 (by rw [h1]; rfl), h1⟩

/-- If the class of the method is a virtual base of that of the overrider, a smart pointer of another kind is accepted instead of a `boost::intrusive_ptr`, and becomes another owner of the object. -/
theorem C75_intrusive (hw : E.hier.WF) (hp : E.poly c = true) (hb : E.hier.Unambiguous d c) (hs : ¬ E.hier.StaticDown d c) (hc : E.hier.Defined c) (hk : k ≠ .intrusive) :
    E.Accepts (.virt (.smart .intrusive (.cls c))) (.smart k (.cls d)) ∧ E.handed (.smart .intrusive (.cls c)) (.smart k (.cls d)) = some .twice := by
  have h1 : E.handed (.smart .intrusive (.cls c)) (.smart k (.cls d)) = some .twice := by
    have h2 : E.staticOk c d = false := by
      rw [Bool.eq_false_iff, Ne, staticOk_iff hw]
      rintro (h | h)
      · obtain rfl := h.inherits.antisymm hw hb.inherits
        exact hs ⟨hb, [_], .self hc, rfl⟩
      · exact hs h
    have h3 := dynamicOk_down hw hp hb
    cases k <;> simp_all [handed, virtCastOk, strayCast, intrusiveCast, Handed.when]
  exact ⟨(accepts_virt_iff (by simp)).2 (by rw [h1]; rfl), h1⟩

/-- A `virtual_ptr` is accepted instead of a `std::unique_ptr`, and no pointer owns the object any more. -/
theorem C75_unique (hw : E.hier.WF) (hp : E.poly c = true) (hd : E.poly d = true) (hb : E.hier.Unambiguous d c) (r : CT) :
    E.Accepts (.virt (.smart .unique (.cls c))) (.vptr (.cls d) r) ∧ E.handed (.smart .unique (.cls c)) (.vptr (.cls d) r) = some .lost := by
  have h1 : E.handed (.smart .unique (.cls c)) (.vptr (.cls d) r) = some .lost := by
    simp [handed, virtCastOk, strayCast, Handed.when, dynamicOk_down hw hp hb, hd]
  exact ⟨(accepts_virt_iff (by simp)).2 (by rw [h1]; rfl), h1⟩

theorem C75_refuted : ¬ C75 := by
  intro h
  have h1 := (C75_smart (E := polymorphic zoo) (c := 0) (u := .cls 1) rfl .shared).1
  have := h (polymorphic zoo) (.lref (.cls 0)) (.cref (.smart .shared (.cls 1))) 0 1 zoo_wf trivial trivial rfl h1.1 rfl rfl zoo_derives
  rw [h1.2] at this
  cases this

/-! ## Which of the other forms are accepted -/

/-- Exactly which overriders are accepted, for the other forms that get the object. -/
theorem C75_accepted (hw : E.hier.WF) (hc : E.hier.Defined c) :
    (E.Accepts (.virt (.lref (.cls c))) (.cref (.cls d)) ↔ E.poly c = true ∧ ¬ E.hier.Inherits c d ∨ E.hier.Unambiguous c d ∨ E.hier.StaticDown d c) ∧
    (∀ k, E.Accepts (.virt (.smart k (.cls c))) (.cref (.smart k (.cls d))) ↔
      k = .shared ∧ E.cpp20 = true ∧ (E.poly c = true ∧ ¬ E.hier.Inherits c d ∨ E.hier.Unambiguous c d ∨ E.hier.StaticDown d c)) ∧
    (∀ k, k ≠ .unique → (E.Accepts (.virt (.cref (.smart k (.cls c)))) (.smart k (.cls d)) ↔
      E.poly c = true ∧ ¬ E.hier.Inherits c d ∨ E.hier.Unambiguous c d ∨ E.hier.StaticDown d c ∧ k ≠ .shared)) := by
  have ho := optimalOk_iff (d := d) hw hc
  have hd := dynamicOk_iff (d := d) hw hc
  refine ⟨?_, fun k => ?_, fun k hk => ?_⟩
  · rw [Accepts, valid_virt (by simp), castOk_virt]
    simp [virtCastOk, strayCast, ho]
  · rw [Accepts, valid_virt (by simp), castOk_virt]
    cases k <;> simp [virtCastOk, strayCast, intrusiveCast, ho]
  · rw [Accepts, valid_virt (by simp), castOk_virt]
    cases k <;> simp [virtCastOk, strayCast, intrusiveCast, when_isSome, ho, hd] at hk ⊢

/-- `virtual_ptr`s marked with `virtual_`: like those that are not marked (see `C62_exact`), but those passed by `const` reference may be the same in the method and the overrider. -/
theorem C75_marked (hw : E.hier.WF) (hp : CT.Pointee t u c d) (hb : E.hier.Unambiguous d c) (hc : E.hier.Defined c) :
    (E.Accepts (.virt (.vptr t (.reg E.reg))) (.vptr u (.reg E.reg)) ↔
      E.poly c = true ∨ d = c ∨ E.hier.StaticDown d c ∧ t ≠ .smart .unique (.cls c)) ∧
    (E.Accepts (.virt (.cref (.vptr t (.reg E.reg)))) (.cref (.vptr u (.reg E.reg))) ↔ t ≠ .smart .unique (.cls c) ∧ (E.poly c = true ∨ d = c ∨ E.hier.StaticDown d c)) ∧
    (E.Accepts (.virt (.cref (.vptr t (.reg E.reg)))) (.vptr u (.reg E.reg)) ↔ t ≠ .smart .unique (.cls c) ∧ (E.poly c = true ∨ d = c ∨ E.hier.StaticDown d c)) := by
  have ho := optimalOk_iff (d := d) hw hc
  have hd := dynamicOk_iff (d := d) hw hc
  have he : E.hier.Unambiguous c d ↔ d = c := ⟨fun h => h.inherits.antisymm hw hb.inherits, fun h => by subst h; exact hb⟩
  have hi : E.hier.Inherits c d ↔ d = c := ⟨fun h => h.antisymm hw hb.inherits, fun h => by subst h; exact .refl⟩
  rw [he, hi] at ho hd
  have hcast : ∀ b, (E.vptrHanded b t E.reg u E.reg).isSome = true ↔ E.downOk t c d = true ∧ movable b t = true := by
    intro b
    simp only [vptrHanded, hp.right, when_isSome, decide_true, Bool.true_and]
    exact castPtr_iff hw b hp hb
  have h1 : E.Accepts (.virt (.vptr t (.reg E.reg))) (.vptr u (.reg E.reg)) ↔ E.downOk t c d = true ∧ movable true t = true := by
    rw [Accepts, valid_virt (by simp), castOk_virt, ← hcast]
    simp [virtCastOk, strayCast]
  have h2 : E.Accepts (.virt (.cref (.vptr t (.reg E.reg)))) (.cref (.vptr u (.reg E.reg))) ↔ E.downOk t c d = true ∧ movable false t = true := by
    rw [Accepts, valid_virt (by simp), castOk_virt, ← hcast]
    simp [virtCastOk, strayCast]
  have h3 : E.Accepts (.virt (.cref (.vptr t (.reg E.reg)))) (.vptr u (.reg E.reg)) ↔ E.downOk t c d = true ∧ movable false t = true := by
    rw [Accepts, valid_virt (by simp), castOk_virt, ← hcast]
    simp [virtCastOk, strayCast]
  rw [h1, h2, h3]
  clear h1 h2 h3 hcast
  have ho' : E.optimalOk c d = true ↔ E.poly c = true ∨ d = c ∨ E.hier.StaticDown d c := by
    rw [ho]; by_cases h : d = c <;> simp [h]
  have hd' : E.dynamicOk c d = true ↔ E.poly c = true ∨ d = c := by
    rw [hd]; by_cases h : d = c <;> simp [h]
  clear ho hd he hi
  cases hp with
  | plain => simp [downOk, movable, ho']
  | smart =>
    rename_i l
    cases l <;> simp [downOk, movable, smartCastOk, ho', hd']

/-! ## Rvalue references -/

/-- An overrider that takes an rvalue reference to a smart pointer is accepted, and so is one that takes an rvalue reference to a `virtual_ptr`; but `initialize` does not find its class. -/
theorem C75_rvalue (hw : E.hier.WF) (hp : E.poly c = true) (hb : E.hier.Unambiguous d c) :
    E.Accepts (.virt (.cref (.smart .shared (.cls c)))) (.rref (.smart .shared (.cls d))) ∧
    E.overriderVirtualType (.virt (.cref (.smart .shared (.cls c)))) (.rref (.smart .shared (.cls d))) = some (.smart .shared (.cls d)) ∧
    (E.cpp20 = true → E.Accepts (.virt (.smart .shared (.cls c))) (.rref (.smart .shared (.cls d)))) := by
  have hd := dynamicOk_down hw hp hb
  refine ⟨?_, rfl, fun h20 => ?_⟩
  · rw [Accepts, valid_virt (by simp), castOk_virt]
    simp [virtCastOk, strayCast, when_isSome, hd]
  · rw [Accepts, valid_virt (by simp), castOk_virt]
    simp [virtCastOk, strayCast, when_isSome, optimalOk, hd, h20]

/-! ## Concrete cases -/

/-- A `const std::shared_ptr<0>&` in the method, a `std::shared_ptr<1>` in the overrider. -/
example : (polymorphic zoo).handed (.cref (sp 0)) (sp 1) = some .object := by
  have hd : (polymorphic zoo).hier.Defined 0 := ⟨[], by simp [zoo, polymorphic]⟩
  refine C75_partial (E := polymorphic zoo) (t := .cref (sp 0)) (q := sp 1) (((C75_accepted zoo_wf hd).2.2 .shared (by simp)).2 ?_) rfl (fun h => by cases h)
  refine .inl ⟨rfl, fun h => ?_⟩
  exact absurd (h.antisymm zoo_wf zoo_derives.inherits) (by simp)

/-- A `virtual_ptr<0>` in the method, marked with `virtual_`, a `virtual_ptr<1>` in the overrider. -/
example : (polymorphic zoo).Accepts (.virt (vp (.cls 0))) (vp (.cls 1)) :=
  (C75_marked (E := polymorphic zoo) zoo_wf .plain zoo_derives ⟨[], by simp [zoo, polymorphic]⟩).1.2 (.inl rfl)

/-- Class 0 is a virtual base of class 1. -/
def virtualBase : Hier := [(1, [(0, true)]), (0, [])]

theorem virtualBase_wf : virtualBase.WF := by
  refine ⟨⟨trivial, ?_, ?_⟩, ?_, ?_⟩ <;> simp [Hier.Defined]

/-- An intrusive pointer to 0 in the method, a shared pointer to 1 in the overrider. -/
example : (polymorphic virtualBase).handed (.smart .intrusive (.cls 0)) (sp 1) = some .twice := by
  refine (C75_intrusive (E := polymorphic virtualBase) (d := 1) virtualBase_wf rfl ((isConvertible_iff virtualBase_wf).1 (by decide +kernel)) ?_ ⟨[], by simp [virtualBase, polymorphic]⟩ (by simp)).2
  intro h
  have h1 : (polymorphic virtualBase).staticOk 0 1 = true := staticOk_of virtualBase_wf h
  exact absurd h1 (by decide +kernel)

example : (polymorphic zoo).handed (.lref (.cls 0)) (.cref (vp (.cls 0))) = some .dangling :=
  (C75_vptr (E := polymorphic zoo) zoo_wf rfl (unambiguous_self zoo_wf ⟨[], by simp [zoo, polymorphic]⟩) (.reg 0)).2

example : (polymorphic zoo).handed (.smart .unique (.cls 0)) (vp (.cls 1)) = some .lost :=
  (C75_unique (E := polymorphic zoo) zoo_wf rfl rfl zoo_derives (.reg 0)).2

example : (polymorphic zoo).Accepts (.virt (.cref (sp 0))) (.rref (sp 1)) := (C75_rvalue (E := polymorphic zoo) zoo_wf rfl zoo_derives).1

end OpenMethod.Props

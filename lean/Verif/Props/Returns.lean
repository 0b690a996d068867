import Verif.SpecReturns
import Verif.SpecSource
import Verif.Proof.Params
import Verif.Props.Params

/-!
# C64: return types of overriders
-/

namespace OpenMethod

open Hier Cpp

namespace Props

variable {E : Cpp} {t u : CT} {c d : Cls}

/-- What C64 says of the return types `t` of a method and `u` of an overrider. -/
structure Returns (E : Cpp) (t u : Option CT) : Prop where
  accepted : E.returnOk t u = true ↔ DocumentedReturn E.hier t u
  /-- the class named in the record of an accepted overrider is that of the method or derives from it -/
  record : E.returnOk t u = true → ∀ c, (∃ t' ∈ t, t'.ReturnsClass E.reg c) → E.returnType t = some (.cls c) ∧
    ∃ d, (d = c ∨ E.hier.Unambiguous d c) ∧ E.returnType u = some (.cls d)
  /-- the caller receives the object that the overrider returned -/
  result : E.returnOk t u = true → ∀ t' ∈ t, ∀ u' ∈ u, ∀ c d, t'.class? = some c → u'.class? = some d → ∀ ti a x, ResultRefers E.hier ti d a x →
    ∃ a', returned E.hier (E.bindsTemporary u' t') (some c) (some d) (some (.virt a)) = .ok (some (.virt a')) ∧ ResultRefers E.hier ti c a' x ∧
      SamePassed (.virt a) (.virt a')

/-- C64, in full. -/
def C64 : Prop := ∀ (E : Cpp) (t u : Option CT), E.hier.WF → (∀ t' ∈ t, t'.Proper) → (∀ u' ∈ u, u'.Proper) → Returns E t u

/-! ## What is accepted -/

/-- Documented overriders are accepted. -/
theorem C64_accepted (hw : E.hier.WF) {t u : Option CT} (h : DocumentedReturn E.hier t u) : E.returnOk t u = true := by
  rcases h with rfl | ⟨t', u', c, d, rfl, rfl, hc, hu⟩
  · cases u with
    | none => rfl
    | some u => cases u <;> simp [returnOk, bindsTo, bindsTo.same]
  · have hu := (isConvertible_iff hw).2 hu
    cases hc with
    | lref => simp [returnOk, bindsTo, bindsTo.same, hu]
    | cref => simp [returnOk, bindsTo, bindsTo.same, hu]
    | rref => simp [returnOk, bindsTo, bindsTo.same, hu]
    | ptr => simp [returnOk, toValue, fromLvalue, valueType, toObject, hu]
    | smart => simp [returnOk, toValue, valueType, toObject, isRvalue, hu]
    | vptr hp => cases hp <;> simp [returnOk, toValue, valueType, toObject, isRvalue, hu, convertible, CT.element]

/-- Among the types of the same form, only the documented ones are accepted. -/
theorem accepted_iff (hw : E.hier.WF) (h : t.Covariant u c d) : E.returnOk (some t) (some u) = true ↔ DocumentedReturn E.hier (some t) (some u) := by
  refine ⟨fun ha => ?_, C64_accepted hw⟩
  have key : u = t ∨ E.hier.isConvertible d c = true → DocumentedReturn E.hier (some t) (some u) := fun h' =>
    h'.elim (fun e => .inl (by rw [e])) fun e => .inr ⟨t, u, c, d, rfl, rfl, h, (isConvertible_iff hw).1 e⟩
  apply key
  cases h with
  | lref => simpa [returnOk, bindsTo, bindsTo.same] using ha
  | cref =>
    simp [returnOk, bindsTo, bindsTo.same, bindsTemporary, toValue, fromLvalue, valueType, toObject] at ha ⊢
    exact ha.elim id fun h => .inr h.2
  | rref =>
    simp [returnOk, bindsTo, bindsTo.same, bindsTemporary, toValue, fromLvalue, valueType, toObject] at ha ⊢
    exact ha.elim id fun h => .inr h.2
  | ptr =>
    simp [returnOk, toValue, fromLvalue, valueType, toObject] at ha ⊢
    exact ha.imp Eq.symm id |>.elim .inl id
  | smart =>
    rename_i k
    simp [returnOk, toValue, fromLvalue, valueType, toObject, isRvalue] at ha ⊢
    exact ha.imp Eq.symm id
  | vptr hp =>
    cases hp with
    | plain =>
      simp [returnOk, toValue, fromLvalue, valueType, toObject, isRvalue, convertible, CT.element] at ha ⊢
      exact ha.elim (fun h => .inl h.symm) id
    | smart =>
      simp [returnOk, toValue, fromLvalue, valueType, toObject, isRvalue, convertible] at ha ⊢
      exact ha.imp Eq.symm id

/-! ## Classes of return types -/

/-- `d` is `c`, or has it as an unambiguous base. -/
abbrev Below (H : Hier) (d c : Cls) : Prop := d = c ∨ H.Unambiguous d c

theorem class_toObject (hw : E.hier.WF) {moved : Bool} (h : E.toObject moved u t = true) (ht : t.class? = some c) : ∃ d, u.class? = some d ∧ Below E.hier d c := by
  unfold toObject at h
  split at h
  · cases ht
    exact ⟨_, rfl, .inr ((isConvertible_iff hw).1 h)⟩
  · cases ht
    simp only [Bool.and_eq_true] at h
    exact ⟨_, rfl, .inr ((isConvertible_iff hw).1 h.2)⟩
  · cases ht
    simp only [Bool.and_eq_true] at h
    exact ⟨_, rfl, .inr ((isConvertible_iff hw).1 h.2)⟩
  · rename_i u r t r'
    simp only [Bool.and_eq_true] at h
    have h := h.2
    unfold convertible at h
    split at h
    · cases ht
      simp only [Bool.or_eq_true, decide_eq_true_eq] at h
      rcases h with rfl | h
      · exact ⟨_, rfl, .inl rfl⟩
      · split at h
        · rename_i d hd
          refine ⟨d, ?_, .inr ((isConvertible_iff hw).1 h)⟩
          unfold CT.element at hd
          split at hd <;> cases hd <;> rfl
        · cases h
    · cases ht
      simp only [Bool.and_eq_true] at h
      exact ⟨_, rfl, .inr ((isConvertible_iff hw).1 h.2)⟩
    · simp only [decide_eq_true_eq] at h
      subst h
      exact ⟨c, ht, .inl rfl⟩
  · simp only [Bool.or_eq_true, decide_eq_true_eq] at h
    rcases h with rfl | h
    · exact ⟨c, ht, .inl rfl⟩
    · split at h
      · cases ht
        exact ⟨_, rfl, .inr ((isConvertible_iff hw).1 h)⟩
      · cases h
  · cases ht
    exact ⟨_, rfl, .inr ((isConvertible_iff hw).1 h)⟩
  · cases ht
    simp only [Bool.and_eq_true] at h
    exact ⟨_, rfl, .inr ((isConvertible_iff hw).1 h.2)⟩
  · cases ht
  · cases h

theorem class_fromLvalue (hw : E.hier.WF) (h : E.fromLvalue u t = true) (ht : t.class? = some c) : ∃ d, u.class? = some d ∧ Below E.hier d c := by
  unfold fromLvalue at h
  split at h
  · cases ht
    simp only [Bool.and_eq_true] at h
    exact ⟨_, rfl, .inr ((isConvertible_iff hw).1 h.2)⟩
  · cases h

theorem class_bindsTo (hw : E.hier.WF) (h : E.bindsTo u t = true) (ht : t.class? = some c) : ∃ d, u.class? = some d ∧ Below E.hier d c := by
  have key : ∀ {u t : CT}, bindsTo.same E u t = true → t.class? = some c → ∃ d, u.class? = some d ∧ Below E.hier d c := by
    intro u t h ht
    simp only [bindsTo.same, Bool.or_eq_true, decide_eq_true_eq] at h
    rcases h with rfl | h
    · exact ⟨c, ht, .inl rfl⟩
    · split at h
      · cases ht
        exact ⟨_, rfl, .inr ((isConvertible_iff hw).1 h)⟩
      · cases h
  unfold bindsTo at h
  split at h
  all_goals first
    | (cases h)
    | (obtain ⟨d, h1, h2⟩ := key h ht; exact ⟨d, h1, h2⟩)

theorem class_valueType : (valueType u).class? = u.class? := by
  unfold valueType
  split <;> rfl

theorem class_toValue (hw : E.hier.WF) (h : E.toValue u t = true) (ht : t.class? = some c) : ∃ d, u.class? = some d ∧ Below E.hier d c := by
  simp only [toValue, Bool.or_eq_true] at h
  rcases h with h | h
  · exact class_fromLvalue hw h ht
  · obtain ⟨d, h1, h2⟩ := class_toObject hw h ht
    exact ⟨d, class_valueType.symm.trans h1, h2⟩

/-- Whatever the form of an accepted return type, it refers to the class to which that of the method refers, or to one that has it as an unambiguous base. -/
theorem C64_class (hw : E.hier.WF) (h : E.returnOk (some t) (some u) = true) (ht : t.class? = some c) : ∃ d, u.class? = some d ∧ Below E.hier d c := by
  have tmp : E.bindsTemporary u t = true → ∃ d, u.class? = some d ∧ Below E.hier d c := by
    intro h
    unfold bindsTemporary at h
    split at h
    · simp only [Bool.and_eq_true] at h
      exact class_toValue hw h.2 ht
    · simp only [Bool.and_eq_true] at h
      exact class_toValue hw h.2 ht
    · cases h
  simp only [returnOk] at h
  split at h
  · exact class_bindsTo hw h ht
  · simp only [Bool.or_eq_true] at h
    exact h.elim (fun h => class_bindsTo hw h ht) tmp
  · simp only [Bool.or_eq_true] at h
    exact h.elim (fun h => class_bindsTo hw h ht) tmp
  · simp only [Bool.or_eq_true, decide_eq_true_eq] at h
    rcases h with rfl | h
    · exact ⟨c, ht, .inl rfl⟩
    · exact class_toValue hw h ht

/-! ## Records -/

/-- The class in the record is the one that is returned polymorphically. -/
theorem returnType_iff (hP : t.Proper) : E.returnType (some t) = some (.cls c) ↔ t.ReturnsClass E.reg c := by
  have hp : ∀ {t : CT} {r : CT}, (CT.vptr t r).Proper → ∀ {c}, t.element = some c → CT.Pointee t t c c := by
    rintro t r ⟨⟨d, rfl⟩ | ⟨k, d, rfl⟩, _⟩ c h <;> cases h
    · exact .plain
    · exact .smart
  constructor
  · intro h
    simp only [returnType, Option.bind_some] at h
    unfold CT.virtualType at h
    split at h
    · cases h; exact .ptr
    · cases h; exact .smart
    · cases h; exact .smartRef (by simp)
    · cases h; exact .smartRef (by simp)
    · rename_i t n
      split at h
      · rename_i e
        obtain ⟨d, h1, h2⟩ := Option.map_eq_some_iff.1 h
        cases h2
        subst e
        exact .vptr (hp hP h1)
      · cases h
    · rename_i t n
      split at h
      · rename_i e
        obtain ⟨d, h1, h2⟩ := Option.map_eq_some_iff.1 h
        cases h2
        subst e
        exact .vptrRef (hp (r := .reg E.reg) hP h1)
      · cases h
    · cases h; exact .lref
    · cases h; exact .cref
    · cases h; exact .rref
    · cases h
  · intro h
    cases h with
    | smartRef hk => rename_i k; cases k <;> first | rfl | exact absurd rfl hk
    | vptr hp => cases hp <;> simp [returnType, CT.virtualType, CT.element]
    | vptrRef hp => cases hp <;> simp [returnType, CT.virtualType, CT.element]
    | _ => rfl

/-- The record of a documented overrider names the class of the method, or a class that has it as an unambiguous base. -/
theorem C64_record {t u : Option CT} (hP : ∀ t' ∈ t, t'.Proper) (h : DocumentedReturn E.hier t u) (hc : ∃ t' ∈ t, t'.ReturnsClass E.reg c) :
    E.returnType t = some (.cls c) ∧ ∃ d, Below E.hier d c ∧ E.returnType u = some (.cls d) := by
  obtain ⟨t', ht, hc⟩ := hc
  obtain rfl := ht
  have h1 := (returnType_iff (E := E) (hP t' rfl)).2 hc
  refine ⟨h1, ?_⟩
  rcases h with rfl | ⟨t', u', c', d, e, rfl, hv, hu⟩
  · exact ⟨c, .inl rfl, h1⟩
  · cases e
    cases hv with
    | vptr hp =>
      cases hc with
      | vptr hp' => cases hp <;> cases hp' <;> exact ⟨d, .inr hu, by simp [returnType, CT.virtualType, CT.element]⟩
    | smart => cases hc; exact ⟨d, .inr hu, rfl⟩
    | _ => cases hc; exact ⟨d, .inr hu, rfl⟩

/-! ## Results -/

/-- The caller receives the object that the overrider returned. -/
theorem C64_result (hw : E.hier.WF) (hu : E.hier.Unambiguous d c) {ti : TypeId → Cls} {a : VArg} {x : Cls} (h : ResultRefers E.hier ti d a x) :
    ∃ a', returned E.hier false (some c) (some d) (some (.virt a)) = .ok (some (.virt a')) ∧ ResultRefers E.hier ti c a' x ∧ SamePassed (.virt a) (.virt a') ∧ a'.pass = a.pass ∧ a'.vp = a.vp := by
  obtain ⟨τ, ⟨h1, h2⟩, h3⟩ := hu
  have ho := (only_eq_some hw).2 ⟨⟨h1, h2⟩, h3⟩
  obtain ⟨pass, vp, ref⟩ := a
  obtain ⟨r, e, h4, h5, h6⟩ := h
  simp only at e
  subst e
  refine ⟨⟨pass, vp, some { r with path := Hier.sub r.path τ }⟩, ?_, ⟨_, rfl, h4, h5.sub h6 h1, sub_ofClass h6 h2⟩, .virt rfl, rfl, rfl⟩
  simp [returned, convertArg, ho, Res.ofOption]

theorem class_covariant (h : t.Covariant u c d) : t.class? = some c ∧ u.class? = some d := by
  cases h with
  | vptr hp => cases hp <;> exact ⟨rfl, rfl⟩
  | _ => exact ⟨rfl, rfl⟩

/-- C64, for overriders that have the return type of the method, or one of the same form. -/
theorem C64_partial (hw : E.hier.WF) {t u : Option CT} (hP : ∀ t' ∈ t, t'.Proper)
    (h : u = t ∨ ∃ t' u' c d, t = some t' ∧ u = some u' ∧ t'.Covariant u' c d) : Returns E t u := by
  have hiff : E.returnOk t u = true ↔ DocumentedReturn E.hier t u := by
    rcases h with rfl | ⟨t', u', c, d, rfl, rfl, h⟩
    · exact ⟨fun _ => .inl rfl, C64_accepted hw⟩
    · exact accepted_iff hw h
  refine ⟨hiff, fun ha c hc => C64_record hP (hiff.1 ha) hc, ?_⟩
  intro ha t' ht u' hu c d hc hd ti a x hx
  obtain rfl := ht
  obtain rfl := hu
  have key : E.bindsTemporary u' t' = false ∧ E.hier.Unambiguous d c := by
    rcases hiff.1 ha with e | ⟨t1, u1, c1, d1, e1, e2, hv, hb⟩
    · cases e
      obtain rfl := Option.some.inj (hc.symm.trans hd)
      refine ⟨?_, ?_⟩
      · unfold bindsTemporary
        split <;> simp [bindsTo, bindsTo.same]
      · obtain ⟨r, _, _, h1, h2⟩ := hx
        exact unambiguous_self hw ((h1.inherits h2).defined hw h1.defined)
    · cases e1; cases e2
      obtain ⟨h1, h2⟩ := class_covariant hv
      obtain rfl := Option.some.inj (hc.symm.trans h1)
      obtain rfl := Option.some.inj (hd.symm.trans h2)
      refine ⟨?_, hb⟩
      have hb := (isConvertible_iff hw).2 hb
      cases hv <;> simp [bindsTemporary, bindsTo, bindsTo.same, hb]
  rw [key.1]
  obtain ⟨a', h1, h2, h3, _⟩ := C64_result hw key.2 hx
  exact ⟨a', h1, h2, h3⟩

/-- Values that are not objects are returned as they are. -/
theorem C64_other (H : Hier) (c d : Option Cls) (v : Nat) : returned H false c d none = .ok none ∧ returned H false c d (some (.other v)) = .ok (some (.other v)) :=
  ⟨rfl, rfl⟩

/-- An overrider returns `void` exactly if the method does. -/
theorem C64_void (E : Cpp) (t : Option CT) : (E.returnOk none t = true ↔ t = none) ∧ (E.returnOk t none = true ↔ t = none) := by
  cases t <;> simp [returnOk]

/-- A `virtual_ptr` is not converted to one of another registry. -/
theorem C64_registry {E : Cpp} {t u r r' : CT} (h : E.returnOk (some (.vptr t r)) (some (.vptr u r')) = true) : r' = r := by
  simp only [returnOk, toValue, fromLvalue, valueType, toObject, Bool.or_eq_true, Bool.and_eq_true, decide_eq_true_eq, CT.vptr.injEq, Bool.false_eq_true, false_or] at h
  rcases h with ⟨_, rfl⟩ | ⟨⟨rfl, _⟩, _⟩ <;> rfl

/-! ## Concrete types -/

/-- C64 does not hold: a method returns `const Animal&`, and an overrider returns a `Dog`. It is accepted; its record contains `void`; the reference is bound to a temporary, so that
the caller cannot use it. -/
theorem C64_refuted : ¬ C64 ∧ (polymorphic zoo).returnOk (some (.cref (.cls 0))) (some (.cls 1)) = true ∧
    (polymorphic zoo).bindsTemporary (.cls 1) (.cref (.cls 0)) = true ∧ (polymorphic zoo).returnType (some (.cls 1)) = none ∧
    returned zoo ((polymorphic zoo).bindsTemporary (.cls 1) (.cref (.cls 0))) (some 0) (some 1) (some (.virt ⟨.ref, none, some ⟨⟨100, 1⟩, [1]⟩⟩)) = .ub := by
  refine ⟨fun h => ?_, by decide +kernel, by decide +kernel, rfl, by decide +kernel⟩
  have h1 := (h (polymorphic zoo) (some (.cref (.cls 0))) (some (.cls 1)) zoo_wf (by simp [CT.Proper]) (by simp [CT.Proper])).accepted.1 (by decide +kernel)
  rcases h1 with h1 | ⟨t, u, c, d, e1, e2, h1, _⟩
  · cases h1
  · cases e1; cases e2; cases h1

/-- An overrider of a method that returns a `std::shared_ptr<Animal>` returns a reference to a `std::shared_ptr<Dog>`. It is accepted, but its record does not name `Dog`. -/
example : (polymorphic zoo).returnOk (some (.smart .shared (.cls 0))) (some (.lref (.smart .shared (.cls 1)))) = true ∧
    (polymorphic zoo).returnType (some (.lref (.smart .shared (.cls 1)))) = some (.smart .shared (.cls 1)) := by decide +kernel

example : (polymorphic zoo).returnOk (some (.ptr (.cls 0))) (some (.ptr (.cls 1))) = true := by decide +kernel
example : (polymorphic zoo).returnOk (some (.ptr (.cls 1))) (some (.ptr (.cls 0))) = false := by decide +kernel
example : (polymorphic zoo).returnOk (some (.ptr (.cls 0))) (some (.ptr (.cls 2))) = false := by decide +kernel
example : (polymorphic zoo).returnOk (some (.lref (.cls 0))) (some (.cls 1)) = false := by decide +kernel
example : (polymorphic zoo).returnOk (some (.lref (.cls 0))) (some (.cref (.cls 1))) = false := by decide +kernel
example : (polymorphic zoo).returnOk (some (.smart .unique (.cls 0))) (some (.smart .unique (.cls 1))) = true := by decide +kernel
example : (polymorphic zoo).returnOk (some (.smart .unique (.cls 0))) (some (.lref (.smart .unique (.cls 1)))) = false := by decide +kernel
example : (polymorphic zoo).returnOk (some (.smart .shared (.cls 0))) (some (.smart .unique (.cls 1))) = true := by decide +kernel
example : (polymorphic zoo).returnOk (some (.vptr (.smart .shared (.cls 0)) (.reg 0))) (some (.vptr (.cls 1) (.reg 0))) = false := by decide +kernel
example : (polymorphic zoo).returnOk (some (.vptr (.cls 0) (.reg 0))) (some (.vptr (.cls 1) (.reg 1))) = false := by decide +kernel
example : (polymorphic zoo).returnOk none (some (.other 0)) = false ∧ (polymorphic zoo).returnOk (some (.other 0)) none = false := by decide +kernel

/-- C64_partial applies to `Animal*` and `Dog*`. -/
example : Returns (polymorphic zoo) (some (.ptr (.cls 0))) (some (.ptr (.cls 1))) ∧ (polymorphic zoo).returnOk (some (.ptr (.cls 0))) (some (.ptr (.cls 1))) = true :=
  ⟨C64_partial zoo_wf (by simp [CT.Proper]) (.inr ⟨_, _, _, _, rfl, rfl, .ptr⟩), by decide +kernel⟩

/-- A `Dog*` is returned as an `Animal*`. -/
example : ∃ a', returned zoo false (some 0) (some 1) (some (.virt ⟨.pointer, none, some ⟨⟨100, 1⟩, [1]⟩⟩)) = .ok (some (.virt a')) ∧
    ResultRefers zoo (·.toNat) 0 a' 1 ∧ SamePassed (.virt ⟨.pointer, none, some ⟨⟨100, 1⟩, [1]⟩⟩) (.virt a') := by
  obtain ⟨a', h1, h2, h3, _⟩ := C64_result (E := polymorphic zoo) zoo_wf zoo_derives (ti := (·.toNat)) (a := ⟨.pointer, none, some ⟨⟨100, 1⟩, [1]⟩⟩) (x := 1)
    ⟨_, rfl, rfl, .inl (.self ⟨[(0, false)], by decide⟩), rfl⟩
  exact ⟨a', h1, h2, h3⟩

end Props

end OpenMethod

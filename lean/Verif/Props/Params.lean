import Verif.Proof.Params

/-!
# C59-C62: checks of parameter types
-/

namespace OpenMethod.Props

open OpenMethod Hier Cpp

variable {E : Cpp} {p q t u : CT} {c d : Cls}

/-! ## C59: the compiler accepts an overrider exactly when its parameters meet the documented requirements -/

/-- The documented overriders that are rejected: a method parameter of rvalue reference type, which no overrider can have; the same `const virtual_ptr&` in the method and the overrider;
`const virtual_ptr&` containing a `std::unique_ptr`; and a `const virtual_ptr&` of another registry, which should be rejected in the method. -/
def Excepted (E : Cpp) (p q : CT) : Prop :=
  (∃ t, p = .rref t) ∨ ∃ t r, p = .cref (.vptr t r) ∧ (q = p ∨ (∃ c, t = .smart .unique (.cls c)) ∨ r ≠ .reg E.reg)

theorem dynamicOk_down (hw : E.hier.WF) (hp : E.poly c = true) (hb : E.hier.Unambiguous d c) : E.dynamicOk c d = true := by
  unfold dynamicOk
  split
  · next h =>
    obtain rfl := hb.inherits.antisymm hw ((isBaseOf_iff hw (defined_of_isBaseOf hw h)).1 h)
    exact (isConvertible_iff hw).2 hb
  · exact hp

theorem downOk_of_poly (hw : E.hier.WF) (hp : ∀ c, E.poly c = true) (hb : E.hier.Unambiguous d c) (t : CT) : E.downOk t c d = true := by
  have h0 := dynamicOk_down hw (hp c) hb
  have h1 : E.optimalOk c d = true := by simp [optimalOk, h0]
  have h2 : ∀ k, E.smartCastOk c d k = true := by intro k; cases k <;> simp [smartCastOk, h1, h0]
  unfold downOk
  split
  · exact h2 _
  · exact h1

theorem element_of_proper {r : CT} (h : (CT.vptr t r).Proper) : t.element ≠ none := by
  obtain ⟨⟨c, rfl⟩ | ⟨k, c, rfl⟩, -⟩ := h <;> simp [CT.element]

theorem castOk_other (h1 : ¬ p.IsVirtualParam) (h2 : ∀ t, p ≠ .rref t) : E.castOk p q = decide (p = q) := by
  cases p with
  | vptr t r => exact absurd (.inr (.inl ⟨t, r, rfl⟩)) h1
  | virt t => exact absurd (.inl ⟨t, rfl⟩) h1
  | rref t => exact absurd rfl (h2 t)
  | cref x => cases x with
    | vptr t r => exact absurd (.inr (.inr ⟨t, r, rfl⟩)) h1
    | _ => rfl
  | _ => rfl

/-- Parameters other than `virtual_`: exactly the documented ones, apart from the exceptions. -/
theorem accepts_iff (hw : E.hier.WF) (hp : ∀ c, E.poly c = true) (hP : p.Proper) (hQ : q.Proper) (hm : E.validMethodParam p = true) (hv : ∀ t, p ≠ .virt t) :
    E.Accepts p q ↔ Documented E.hier p q ∧ ¬ Excepted E p q := by
  by_cases h1 : p.IsVirtualParam
  · rcases h1 with ⟨t, rfl⟩ | ⟨t, r, rfl⟩ | ⟨t, r, rfl⟩
    · exact absurd rfl (hv t)
    · obtain ⟨-, n, rfl⟩ := id hP
      obtain rfl : n = E.reg := by simpa [validMethodParam] using hm
      have he : ¬ Excepted E (.vptr t (.reg E.reg)) q := by rintro (⟨_, h⟩ | ⟨_, _, h, _⟩) <;> cases h
      simp only [he, not_false_eq_true, and_true]
      by_cases hq : ∃ u r', q = .vptr u r'
      · obtain ⟨u, r', rfl⟩ := hq
        rw [accepts_value hw (element_of_proper hQ)]
        constructor
        · rintro ⟨rfl, c, d, h, hb, _⟩
          exact .inl ⟨c, d, .value h, hb⟩
        · rintro (⟨c, d, h, hb⟩ | ⟨h, _⟩)
          · cases h with
            | value h => exact ⟨rfl, c, d, h, hb, downOk_of_poly hw hp hb t⟩
          · exact absurd (.inr (.inl ⟨_, _, rfl⟩)) h
      · constructor
        · rintro ⟨h, _⟩
          rw [valid_vptr_other fun u r' e => hq ⟨u, r', e⟩] at h
          cases h
        · rintro (⟨c, d, h, hb⟩ | ⟨h, _⟩)
          · cases h with
            | value h => exact absurd ⟨_, _, rfl⟩ hq
          · exact absurd (.inr (.inl ⟨_, _, rfl⟩)) h
    · obtain ⟨-, n, rfl⟩ := id (show (CT.vptr t r).Proper from hP)
      by_cases hn : n = E.reg
      · subst hn
        by_cases hq : ∃ u r', q = .cref (.vptr u r')
        · obtain ⟨u, r', rfl⟩ := hq
          rw [accepts_cref hw (element_of_proper (t := u) (r := r') hQ)]
          constructor
          · rintro ⟨rfl, hne, hmv, c, d, h, hb, _⟩
            refine ⟨.inl ⟨c, d, .constRef h, hb⟩, ?_⟩
            rintro (⟨_, h'⟩ | ⟨_, _, h', h''⟩)
            · cases h'
            · cases h'
              rcases h'' with h'' | ⟨c, rfl⟩ | h''
              · cases h''; exact hne rfl
              · simp [movable] at hmv
              · exact h'' rfl
          · rintro ⟨⟨c, d, h, hb⟩ | ⟨h, _⟩, he⟩
            · cases h with
              | constRef h =>
                refine ⟨rfl, ?_, ?_, c, d, h, hb, downOk_of_poly hw hp hb t⟩
                · rintro rfl
                  exact he (.inr ⟨_, _, rfl, .inl rfl⟩)
                · cases h with
                  | plain => rfl
                  | smart =>
                    rename_i k
                    cases k with
                    | unique => exact absurd (.inr ⟨_, _, rfl, .inr (.inl ⟨_, rfl⟩)⟩) he
                    | _ => rfl
            · exact absurd (.inr (.inr ⟨_, _, rfl⟩)) h
        · constructor
          · rintro ⟨h, _⟩
            rw [valid_cref_other fun u r' e => hq ⟨u, r', e⟩] at h
            cases h
          · rintro ⟨⟨c, d, h, hb⟩ | ⟨h, _⟩, -⟩
            · cases h with
              | constRef h => exact absurd ⟨_, _, rfl⟩ hq
            · exact absurd (.inr (.inr ⟨_, _, rfl⟩)) h
      · constructor
        · exact fun h => absurd h (not_accepts_foreign hw hn)
        · rintro ⟨-, he⟩
          exact absurd (.inr ⟨_, _, rfl, .inr (.inr fun e => hn (by cases e; rfl))⟩) he
  · have hdoc : Documented E.hier p q ↔ q = p := by
      constructor
      · rintro (⟨c, d, h, -⟩ | ⟨-, h⟩)
        · cases h with
          | virt => exact absurd (.inl ⟨_, rfl⟩) h1
          | value => exact absurd (.inr (.inl ⟨_, _, rfl⟩)) h1
          | constRef => exact absurd (.inr (.inr ⟨_, _, rfl⟩)) h1
        · exact h
      · exact fun h => .inr ⟨h1, h⟩
    by_cases h2 : ∃ t, p = .rref t
    · obtain ⟨t, rfl⟩ := h2
      constructor
      · rintro ⟨-, h⟩; simp [castOk] at h
      · rintro ⟨-, h⟩; exact absurd (.inl ⟨t, rfl⟩) h
    · have h2' : ∀ t, p ≠ .rref t := fun t e => h2 ⟨t, e⟩
      rw [Accepts, valid_other h1 h2', castOk_other h1 h2', hdoc]
      constructor
      · rintro ⟨rfl, -⟩
        refine ⟨rfl, ?_⟩
        rintro (h | ⟨t, r, rfl, -⟩)
        · exact h2 h
        · exact h1 (.inr (.inr ⟨t, r, rfl⟩))
      · rintro ⟨rfl, -⟩
        simp

theorem castOk_virt : E.castOk (.virt t) q = (E.virtCastOk t q || (E.strayCast t q).isSome) := by
  simp only [castOk, handed]
  split <;> simp_all

/-- Parameters marked with `virtual_`: types of the same form are accepted, if there is a cast. -/
theorem accepts_virt (hd : E.dynamicOk c d = true) (hm : E.validMethodParam (.virt t) = true) (h : CT.SameForm t u c d) : E.Accepts (.virt t) u := by
  have h1 : E.optimalOk c d = true := by simp [optimalOk, hd]
  refine ⟨valid_virt (by cases h <;> simp), ?_⟩
  cases h with
  | smart =>
    rename_i k
    cases k <;> simp [castOk_virt, virtCastOk, smartCastOk, h1, hd]
  | smartRef =>
    rename_i k
    cases k with
    | unique => simp [validMethodParam, CT.virtualType] at hm
    | _ => simp [castOk_virt, virtCastOk, h1, hd]
  | _ => simp [castOk_virt, virtCastOk, h1]

/-- Partial: if all classes are polymorphic, the documented overriders are accepted, apart from four exceptions; and accepted overriders are documented ones, apart from parameters
marked with `virtual_`. Full statement: `E.Accepts p q ↔ Documented E.hier p q`, whenever the method is accepted. -/
theorem C59_partial (hw : E.hier.WF) (hp : ∀ c, E.poly c = true) (hP : p.Proper) (hQ : q.Proper) (hm : E.validMethodParam p = true) :
    (Documented E.hier p q → ¬ Excepted E p q → E.Accepts p q) ∧
    (E.Accepts p q → (∃ t, p = .virt t) ∨ Documented E.hier p q ∧ ¬ Excepted E p q) := by
  by_cases hv : ∃ t, p = .virt t
  · obtain ⟨t, rfl⟩ := hv
    refine ⟨?_, fun _ => .inl ⟨t, rfl⟩⟩
    rintro (⟨c, d, h, hb⟩ | ⟨h, _⟩) -
    · cases h with
      | virt h => exact accepts_virt (dynamicOk_down hw (hp c) hb) hm h
    · exact absurd (.inl ⟨t, rfl⟩) h
  · have := accepts_iff (q := q) hw hp hP hQ hm fun t e => hv ⟨t, e⟩
    exact ⟨fun h1 h2 => this.2 ⟨h1, h2⟩, fun h => .inr (this.1 h)⟩

/-- No overrider is accepted for a parameter of rvalue reference type, not marked with `virtual_`. -/
theorem C59_rvalue : ¬ E.Accepts (.rref t) q := by
  rintro ⟨-, h⟩
  simp [castOk] at h

/-- A method with a `const virtual_ptr&` parameter cannot be overridden for the class itself: the partial specialisations for equal types and for two `const virtual_ptr&` match,
and neither is more specialised. -/
theorem C59_ambiguous {r : CT} : select checks [.cref (.vptr t r), .cref (.vptr t r)] = .ambiguous ∧ ¬ E.Accepts (.cref (.vptr t r)) (.cref (.vptr t r)) :=
  ⟨by select_simp; rfl, fun h => by have := h.1; rw [valid_cref_same] at this; cases this⟩

/-- Classes 0, 1 that derives from it, and 2. -/
def zoo : Hier := [(2, []), (1, [(0, false)]), (0, [])]

def polymorphic (H : Hier) : Cpp := { hier := H, poly := fun _ => true, vptrFn := fun _ => false, cpp20 := false, reg := 0 }

theorem zoo_wf : zoo.WF := by
  refine ⟨⟨⟨trivial, ?_, ?_⟩, ?_, ?_⟩, ?_, ?_⟩ <;> simp [Hier.Defined]

theorem zoo_derives : zoo.Unambiguous 1 0 := (isConvertible_iff zoo_wf).1 (by decide +kernel)

theorem zoo_unrelated : ¬ zoo.Unambiguous 2 0 := fun h => absurd ((isConvertible_iff zoo_wf).2 h) (by decide +kernel)

/-- The documented requirement is neither necessary nor sufficient: the same `const virtual_ptr&` in method and overrider is rejected; a non-virtual parameter of rvalue reference type is
rejected; a class that does not derive from that of the method is accepted for a `virtual_` parameter. -/
theorem C59_refuted :
    (∃ (E : Cpp) (p q : CT), E.hier.WF ∧ (∀ c, E.poly c = true) ∧ p.Proper ∧ q.Proper ∧ E.validMethodParam p = true ∧ p.IsVirtualParam ∧ Documented E.hier p q ∧ ¬ E.Accepts p q) ∧
    (∃ (E : Cpp) (p q : CT), E.hier.WF ∧ (∀ c, E.poly c = true) ∧ p.Proper ∧ q.Proper ∧ E.validMethodParam p = true ∧ ¬ p.IsVirtualParam ∧ Documented E.hier p q ∧ ¬ E.Accepts p q) ∧
    (∃ (E : Cpp) (p q : CT), E.hier.WF ∧ (∀ c, E.poly c = true) ∧ p.Proper ∧ q.Proper ∧ E.validMethodParam p = true ∧ ¬ Documented E.hier p q ∧ E.Accepts p q) := by
  refine ⟨⟨polymorphic zoo, .cref (.vptr (.cls 0) (.reg 0)), .cref (.vptr (.cls 0) (.reg 0)), zoo_wf, fun _ => rfl, ⟨.inl ⟨0, rfl⟩, 0, rfl⟩, ⟨.inl ⟨0, rfl⟩, 0, rfl⟩, rfl,
      .inr (.inr ⟨_, _, rfl⟩), .inl ⟨0, 0, .constRef .plain, unambiguous_self zoo_wf ⟨[], by simp [polymorphic, zoo]⟩⟩, C59_ambiguous.2⟩,
    ⟨polymorphic zoo, .rref (.other 0), .rref (.other 0), zoo_wf, fun _ => rfl, trivial, trivial, rfl, ?_, .inr ⟨?_, rfl⟩, C59_rvalue⟩,
    ⟨polymorphic zoo, .virt (.lref (.cls 0)), .lref (.cls 2), zoo_wf, fun _ => rfl, trivial, trivial, rfl, ?_, accepts_virt (by decide +kernel) rfl .lref⟩⟩
  · rintro (⟨_, h⟩ | ⟨_, _, h⟩ | ⟨_, _, h⟩) <;> cases h
  · rintro (⟨_, h⟩ | ⟨_, _, h⟩ | ⟨_, _, h⟩) <;> cases h
  · rintro (⟨c, d, h, hb⟩ | ⟨h, _⟩)
    · cases h with
      | virt h => cases h; exact zoo_unrelated hb
    · exact h (.inl ⟨_, rfl⟩)

/-- The hypotheses of `C59_partial`, for a parameter of each kind. -/
example : (polymorphic zoo).Accepts (.vptr (.cls 0) (.reg 0)) (.vptr (.cls 1) (.reg 0)) ∧ (polymorphic zoo).Accepts (.virt (.ptr (.cls 0))) (.ptr (.cls 1)) ∧
    (polymorphic zoo).Accepts (.lref (.other 4)) (.lref (.other 4)) := by
  refine ⟨(C59_partial (p := .vptr (.cls 0) (.reg 0)) (q := .vptr (.cls 1) (.reg 0)) zoo_wf (fun _ => rfl) ⟨.inl ⟨0, rfl⟩, 0, rfl⟩ ⟨.inl ⟨1, rfl⟩, 0, rfl⟩ rfl).1 (.inl ⟨0, 1, .value .plain, zoo_derives⟩) ?_,
    (C59_partial (p := .virt (.ptr (.cls 0))) (q := .ptr (.cls 1)) zoo_wf (fun _ => rfl) trivial trivial rfl).1 (.inl ⟨0, 1, .virt .ptr, zoo_derives⟩) ?_,
    (C59_partial (p := .lref (.other 4)) (q := .lref (.other 4)) zoo_wf (fun _ => rfl) trivial trivial rfl).1 (.inr ⟨?_, rfl⟩) ?_⟩
  · rintro (⟨_, h⟩ | ⟨_, _, h, _⟩) <;> cases h
  · rintro (⟨_, h⟩ | ⟨_, _, h, _⟩) <;> cases h
  · rintro (⟨_, h⟩ | ⟨_, _, h⟩ | ⟨_, _, h⟩) <;> cases h
  · rintro (⟨_, h⟩ | ⟨_, _, h, _⟩) <;> cases h

/-! Accepted and rejected parameters. -/

section
abbrev sp (c : Cls) : CT := .smart .shared (.cls c)
abbrev vp (t : CT) : CT := .vptr t (.reg 0)
abbrev accepts (E : Cpp) (p q : CT) : Bool := E.validOverriderParam p q && E.castOk p q

-- the documented cases
example : accepts (polymorphic zoo) (vp (.cls 0)) (vp (.cls 1)) = true := by decide +kernel
example : accepts (polymorphic zoo) (vp (.cls 0)) (vp (.cls 0)) = true := by decide +kernel
example : accepts (polymorphic zoo) (.cref (vp (sp 0))) (.cref (vp (sp 1))) = true := by decide +kernel
example : accepts (polymorphic zoo) (.virt (.lref (.cls 0))) (.lref (.cls 1)) = true := by decide +kernel
example : accepts (polymorphic zoo) (.other 3) (.other 3) = true := by decide +kernel
-- a plain virtual_ptr cannot become a smart one, nor conversely, nor another smart one
example : accepts (polymorphic zoo) (vp (.cls 0)) (vp (sp 1)) = false := by decide +kernel
example : accepts (polymorphic zoo) (vp (sp 0)) (vp (.cls 1)) = false := by decide +kernel
example : accepts (polymorphic zoo) (vp (sp 0)) (vp (.smart .unique (.cls 1))) = false := by decide +kernel
-- test/compile_fail_virtual_ptr_other.cpp, ..._ref_to_value.cpp, ..._value_to_ref.cpp
example : accepts (polymorphic zoo) (vp (.cls 0)) (.other 3) = false := by decide +kernel
example : accepts (polymorphic zoo) (.cref (vp (.cls 0))) (vp (.cls 1)) = false := by decide +kernel
example : accepts (polymorphic zoo) (vp (.cls 0)) (.cref (vp (.cls 1))) = false := by decide +kernel
example : accepts (polymorphic zoo) (.virt (.lref (.cls 0))) (.cls 1) = false := by decide +kernel
-- test/compile_fail_virtual_parameter_to_value.cpp, compile_fail_virtual_ptr_different_registries.cpp
example : (polymorphic zoo).validMethodParam (.virt (.cls 0)) = false := by decide +kernel
example : (polymorphic zoo).validMethodParam (.vptr (.cls 0) (.reg 1)) = false := by decide +kernel
-- an unrelated class, and another registry
example : accepts (polymorphic zoo) (vp (.cls 0)) (vp (.cls 2)) = false := by decide +kernel
example : accepts (polymorphic zoo) (vp (.cls 0)) (.vptr (.cls 1) (.reg 1)) = false := by decide +kernel
end

/-! ## C60: the records of a method and its overriders name one class for each virtual parameter, and the overrider's are derived from the method's -/

theorem isVirtual_iff (p : CT) : p.isVirtual = true ↔ p.IsVirtualParam ∨ ∃ t r, p = .lref (.vptr t r) := by
  unfold CT.isVirtual
  split <;> simp_all [CT.IsVirtualParam]

theorem related_of_documented {H : Hier} (h : Documented H p q) : CT.Related H p q := by
  rintro t rfl
  rcases h with ⟨c, d, h, hb⟩ | ⟨h, -⟩
  · cases h with
    | virt h => exact ⟨c, d, .same h, hb⟩
  · exact absurd (.inl ⟨_, rfl⟩) h

theorem related_of_other {H : Hier} (h : ∀ t, p ≠ .virt t) : CT.Related H p q := fun t e => absurd e (h t)

/-- The classes in the records, if the parameter of the method is marked with `virtual_`. -/
theorem fits_types (hm : E.validMethodParam (.virt t) = true) (h : CT.Fits t q c d) : t.virtualType E.reg = some (.cls c) ∧ q.virtualType E.reg = some (.cls d) := by
  have hr : ∀ {s u r}, CT.Pointee s u c d → (t = .vptr s r ∨ t = .cref (.vptr s r)) → r = .reg E.reg := by
    intro s u r hp ht
    rcases ht with rfl | rfl <;> cases r <;> simp [validMethodParam, CT.virtualType] at hm
    all_goals
      rename_i n
      by_cases hn : n = E.reg
      · rw [hn]
      · simp [hn] at hm
  cases h with
  | same h =>
    cases h with
    | smartRef =>
      rename_i k
      cases k <;> simp_all [validMethodParam, CT.virtualType]
    | _ => simp [CT.virtualType]
  | const => simp [CT.virtualType]
  | byRef hk =>
    rename_i k
    cases k <;> simp_all [validMethodParam, CT.virtualType]
  | byValue hk =>
    rename_i k
    cases k <;> simp_all [validMethodParam, CT.virtualType]
  | vptr hp => obtain rfl := hr hp (.inl rfl); simp [CT.virtualType, hp.left, hp.right]
  | vptrRef hp => obtain rfl := hr hp (.inr rfl); simp [CT.virtualType, hp.left, hp.right]
  | vptrByValue hp => obtain rfl := hr hp (.inr rfl); simp [CT.virtualType, hp.left, hp.right]

/-- One parameter. -/
theorem virtual_types (hw : E.hier.WF) (hP : p.Proper) (hQ : q.Proper) (hm : E.validMethodParam p = true) (ha : E.Accepts p q) (hv : CT.Related E.hier p q)
    (hl : ∀ t r, p ≠ .lref (.vptr t r)) :
    (p.isVirtual = false ∧ E.overriderVirtualType p q = none) ∨
    (p.isVirtual = true ∧ ∃ c d, p.removeVirtual.virtualType E.reg = some (.cls c) ∧ E.overriderVirtualType p q = some (.cls d) ∧ E.hier.Unambiguous d c) := by
  cases hpv : p.isVirtual
  · refine .inl ⟨rfl, ?_⟩
    unfold overriderVirtualType
    split <;> simp_all [CT.isVirtual]
  · refine .inr ⟨rfl, ?_⟩
    rcases (isVirtual_iff p).1 hpv with (⟨t, rfl⟩ | ⟨t, r, rfl⟩ | ⟨t, r, rfl⟩) | ⟨t, r, rfl⟩
    · obtain ⟨c, d, hf, hb⟩ := hv t rfl
      obtain ⟨h1, h2⟩ := fits_types hm hf
      exact ⟨c, d, h1, h2, hb⟩
    · obtain ⟨-, n, rfl⟩ := id hP
      obtain rfl : n = E.reg := by simpa [validMethodParam] using hm
      by_cases hq : ∃ u r', q = .vptr u r'
      · obtain ⟨u, r', rfl⟩ := hq
        obtain ⟨rfl, c, d, h, hb, -⟩ := (accepts_value hw (element_of_proper hQ)).1 ha
        exact ⟨c, d, by simp [CT.removeVirtual, CT.virtualType, h.left], by simp [overriderVirtualType, CT.virtualType, h.right], hb⟩
      · have := ha.1
        rw [valid_vptr_other fun u r' e => hq ⟨u, r', e⟩] at this
        cases this
    · obtain ⟨-, n, rfl⟩ := id (show (CT.vptr t r).Proper from hP)
      by_cases hn : n = E.reg
      · subst hn
        by_cases hq : ∃ u r', q = .cref (.vptr u r')
        · obtain ⟨u, r', rfl⟩ := hq
          obtain ⟨rfl, -, -, c, d, h, hb, -⟩ := (accepts_cref hw (element_of_proper (t := u) (r := r') hQ)).1 ha
          exact ⟨c, d, by simp [CT.removeVirtual, CT.virtualType, h.left], by simp [overriderVirtualType, CT.virtualType, h.right], hb⟩
        · have := ha.1
          rw [valid_cref_other fun u r' e => hq ⟨u, r', e⟩] at this
          cases this
      · exact absurd ha (not_accepts_foreign hw hn)
    · exact absurd rfl (hl t r)

theorem records_of (hw : E.hier.WF) : ∀ (ps qs : List CT), (∀ p ∈ ps, p.Proper) → (∀ q ∈ qs, q.Proper) → (∀ p ∈ ps, E.validMethodParam p = true) → E.validOverrider ps qs = true →
    List.Forall₂ (CT.Related E.hier) ps qs → (∀ p ∈ ps, ∀ t r, p ≠ .lref (.vptr t r)) →
    ∃ cs ds, E.methodVirtualTypes ps = cs.map (fun c => some (.cls c)) ∧ E.overriderVirtualTypes ps qs = ds.map .cls ∧ cs.length = arity ps ∧
      List.Forall₂ (fun d c => E.hier.Unambiguous d c) ds cs
  | [], [], _, _, _, _, _, _ => ⟨[], [], rfl, rfl, rfl, .nil⟩
  | p :: ps, q :: qs, hP, hQ, hm, ho, hv, hl => by
    simp only [validOverrider, Bool.and_eq_true] at ho
    cases hv with
    | cons hv hvs =>
      obtain ⟨cs, ds, h1, h2, h3, h4⟩ := records_of hw ps qs (fun p h => hP p (.tail _ h)) (fun q h => hQ q (.tail _ h)) (fun p h => hm p (.tail _ h)) ho.2 hvs
        (fun p h => hl p (.tail _ h))
      rcases virtual_types hw (hP p (.head _)) (hQ q (.head _)) (hm p (.head _)) ⟨ho.1.1, ho.1.2⟩ hv (hl p (.head _)) with ⟨e1, e2⟩ | ⟨e1, c, d, e2, e3, hb⟩
      · refine ⟨cs, ds, ?_, ?_, ?_, h4⟩
        · rw [← h1]; simp [methodVirtualTypes, e1]
        · rw [← h2]; simp [overriderVirtualTypes, e2]
        · rw [h3]; simp [arity, e1]
      · refine ⟨c :: cs, d :: ds, ?_, ?_, ?_, .cons hb h4⟩
        · rw [List.map_cons, ← h1]; simp [methodVirtualTypes, e1, e2]
        · rw [List.map_cons, ← h2]; simp [overriderVirtualTypes, e3]
        · simp [arity, e1, h3]
  | [], q :: qs, _, _, _, ho, _, _ => by simp [validOverrider] at ho
  | p :: ps, [], _, _, _, ho, _, _ => by simp [validOverrider] at ho

/-- Partial: the method has no parameter of type `virtual_ptr<T>&`, and for the parameters marked with `virtual_`, overriders have classes derived from those of the method. The rest of the
requirements is enforced by the compiler. -/
theorem C60_partial (hw : E.hier.WF) {ps qs : List CT} (hP : ∀ p ∈ ps, p.Proper) (hQ : ∀ q ∈ qs, q.Proper) (hm : E.validMethod ps = true) (ho : E.validOverrider ps qs = true)
    (hv : List.Forall₂ (CT.Related E.hier) ps qs) (hl : ∀ p ∈ ps, ∀ t r, p ≠ .lref (.vptr t r)) (ids : Option CT → TypeId) :
    ∃ cs ds : List Cls, E.methodVp ids ps = cs.map (fun c => ids (some (.cls c))) ∧ E.overriderVp ids ps qs = ds.map (fun d => ids (some (.cls d))) ∧
      0 < cs.length ∧ cs.length = (ps.map CT.isVirtual).count true ∧ List.Forall₂ (fun d c => E.hier.Unambiguous d c) ds cs := by
  simp only [validMethod, Bool.and_eq_true, List.all_eq_true, decide_eq_true_eq] at hm
  obtain ⟨cs, ds, h1, h2, h3, h4⟩ := records_of hw ps qs hP hQ hm.1 ho hv hl
  have hlen := h4.length_eq
  refine ⟨cs, ds, ?_, ?_, ?_, ?_, h4⟩
  · simp [methodVp, h1]
  · simp [overriderVp, h2, ← h3, hlen, Function.comp_def]
  · rw [h3]; exact hm.2
  · rw [h3, arity, List.count, List.countP_map]
    congr 1
    funext x
    simp

/-- A `virtual_ptr<T>&` is counted as a virtual parameter, but `virtual_ptr<T>`, which is not a registered class, is taken for its class in the method, and no class at all in the overrider. -/
theorem C60_refuted :
    ∃ (E : Cpp) (ps qs : List CT), E.hier.WF ∧ (∀ c, E.poly c = true) ∧ (∀ p ∈ ps, p.Proper) ∧ E.validMethod ps = true ∧ E.validOverrider ps qs = true ∧ arity ps = 1 ∧
      E.methodVirtualTypes ps = [some (.vptr (.cls 0) (.reg 0))] ∧ E.overriderVirtualTypes ps qs = [] ∧ ∀ ids, E.overriderVp ids ps qs = [0] := by
  refine ⟨polymorphic zoo, [.lref (vp (.cls 0))], [.lref (vp (.cls 0))], zoo_wf, fun _ => rfl, ?_, by decide +kernel, by decide +kernel, by decide +kernel, by decide +kernel,
    by decide +kernel, fun ids => rfl⟩
  simp only [List.mem_singleton, forall_eq]
  exact ⟨.inl ⟨0, rfl⟩, 0, rfl⟩

/-- A method with three parameters, two of them virtual, and an overrider, with a reference to constant where the method has a reference. -/
example (ids : Option CT → TypeId) : ∃ cs ds : List Cls, (polymorphic zoo).methodVp ids [vp (.cls 0), .other 5, .virt (.lref (.cls 0))] = cs.map (fun c => ids (some (.cls c))) ∧
    (polymorphic zoo).overriderVp ids [vp (.cls 0), .other 5, .virt (.lref (.cls 0))] [vp (.cls 1), .other 5, .cref (.cls 1)] = ds.map (fun d => ids (some (.cls d))) ∧
    0 < cs.length ∧ cs.length = 2 ∧ List.Forall₂ (fun d c => zoo.Unambiguous d c) ds cs := by
  refine C60_partial (E := polymorphic zoo) zoo_wf ?_ ?_ (by decide +kernel) (by decide +kernel) (.cons (related_of_other (by simp)) (.cons (related_of_other (by simp)) (.cons ?_ .nil))) (by simp) ids
  · simp [CT.Proper]
  · simp [CT.Proper]
  · rintro t ⟨⟩
    exact ⟨0, 1, .const, zoo_derives⟩

/-! ## C61: a method is accepted exactly when its virtual parameters refer to classes whose v-table pointer can be acquired, in its registry -/

/-- Partial: of the documented virtual parameters, the `const virtual_ptr&`s of other registries are not rejected; `std::shared_ptr<T>&` is rejected as a non-virtual parameter, and
`virtual_ptr<T>&` is treated as one of the virtual parameters. -/
theorem C61_partial (hP : p.Proper) :
    (p.IsVirtualParam → (∀ t n, p = .cref (.vptr t (.reg n)) → n = E.reg) →
      (E.validMethodParam p = true ↔ ∃ c, p.removeVirtual.virtualType E.reg = some (.cls c) ∧ ((∃ t, p = .virt t) → E.poly c = true ∨ E.vptrFn c = true))) ∧
    (¬ p.IsVirtualParam → (∀ t r, p ≠ .lref (.vptr t r)) → (∀ t, p ≠ .lref (.smart .shared t)) → E.validMethodParam p = true ∧ p.isVirtual = false) := by
  constructor
  · rintro (⟨t, rfl⟩ | ⟨t, r, rfl⟩ | ⟨t, r, rfl⟩) hr
    · simp only [validMethodParam, CT.removeVirtual]
      constructor
      · intro h
        split at h
        · rename_i c hc
          refine ⟨c, hc, fun _ => ?_⟩
          simpa [or_comm] using h
        · cases h
      · rintro ⟨c, hc, h⟩
        rw [hc]
        simpa [or_comm] using h ⟨t, rfl⟩
    · obtain ⟨ht, n, rfl⟩ := id hP
      rcases ht with ⟨c, rfl⟩ | ⟨k, c, rfl⟩ <;>
      · by_cases hn : n = E.reg <;> simp [validMethodParam, CT.removeVirtual, CT.virtualType, hn, CT.element]
    · obtain ⟨ht, n, rfl⟩ := id (show (CT.vptr t r).Proper from hP)
      obtain rfl := hr _ _ rfl
      rcases ht with ⟨c, rfl⟩ | ⟨k, c, rfl⟩ <;> simp [validMethodParam, CT.removeVirtual, CT.virtualType, CT.element]
  · intro h1 h2 h3
    have hv : p.isVirtual = false := by
      rw [← Bool.not_eq_true, isVirtual_iff]
      rintro (h | ⟨t, r, h⟩)
      · exact h1 h
      · exact h2 t r h
    refine ⟨?_, hv⟩
    unfold validMethodParam
    split <;> simp_all [CT.isVirtual]

/-- A `const virtual_ptr&` of another registry is accepted in a method, and then no overrider is accepted; a `std::shared_ptr<T>&` is rejected although it is not virtual. -/
theorem C61_refuted (hw : E.hier.WF) {n : Nat} (hn : n ≠ E.reg) :
    (E.validMethodParam (.cref (.vptr t (.reg n))) = true ∧ (CT.cref (.vptr t (.reg n))).isVirtual = true ∧ ∀ q, ¬ E.Accepts (.cref (.vptr t (.reg n))) q) ∧
    E.validMethodParam (.vptr t (.reg n)) = false ∧
    (E.validMethodParam (.lref (.smart .shared t)) = false ∧ (CT.lref (.smart .shared t)).isVirtual = false) := by
  refine ⟨⟨rfl, rfl, fun q => not_accepts_foreign hw hn⟩, ?_, rfl, rfl⟩
  simp [validMethodParam, hn]

/-! ## C62: polymorphism is required only where a `static_cast` is not possible -/

theorem staticOk_of (hw : E.hier.WF) (h : E.hier.StaticDown d c) : E.staticOk c d = true := by
  obtain ⟨⟨σ, ⟨h1, h2⟩, h3⟩, τ, h4, h5⟩ := h
  obtain rfl := h3 τ (.inl h4) h5
  have : E.hier.only d c = some τ := (only_eq_some hw).2 ⟨⟨h1, h2⟩, h3⟩
  unfold staticOk staticCast
  split
  · rfl
  · simp [this, h4.head]

/-- Parameters that contain a `std::unique_ptr`, or are a `const std::shared_ptr&`. -/
def Forced (p : CT) : Prop :=
  (∃ c, p = .virt (.smart .unique (.cls c))) ∨ (∃ c, p = .virt (.cref (.smart .shared (.cls c)))) ∨ (∃ c r, p = .vptr (.smart .unique (.cls c)) r)

/-- Partial: for `std::unique_ptr` and `const std::shared_ptr&`, the library uses `dynamic_cast` although `static_cast` is possible. -/
theorem C62_partial (hw : E.hier.WF) (hP : p.Proper) (hQ : q.Proper) (hm : E.validMethodParam p = true) {c d : Cls} (h : CT.Virtual p q c d) (hs : E.hier.StaticDown d c)
    (he : ¬ Excepted E p q) (hf : ¬ Forced p) : E.Accepts p q := by
  have ho : E.optimalOk c d = true := by simp [optimalOk, staticOk_of hw hs]
  cases h with
  | virt h =>
    refine ⟨valid_virt (by cases h <;> simp), ?_⟩
    cases h with
    | smart =>
      rename_i k
      cases k with
      | unique => exact absurd (.inl ⟨_, rfl⟩) hf
      | _ => simp [castOk_virt, virtCastOk, smartCastOk, ho]
    | smartRef =>
      rename_i k
      cases k with
      | unique => simp [validMethodParam, CT.virtualType] at hm
      | shared => exact absurd (.inr (.inl ⟨_, rfl⟩)) hf
      | intrusive => simp [castOk_virt, virtCastOk, ho]
    | _ => simp [castOk_virt, virtCastOk, ho]
  | value h =>
    obtain ⟨-, n, rfl⟩ := id hP
    obtain rfl : n = E.reg := by simpa [validMethodParam] using hm
    refine (accepts_value hw (element_of_proper hQ)).2 ⟨rfl, c, d, h, hs.1, ?_⟩
    cases h with
    | plain => exact ho
    | smart =>
      rename_i k
      cases k with
      | unique => exact absurd (.inr (.inr ⟨_, _, rfl⟩)) hf
      | _ => exact ho
  | constRef h =>
    rename_i t u r
    obtain ⟨-, n, rfl⟩ := id (show (CT.vptr t r).Proper from hP)
    by_cases hn : n = E.reg
    · subst hn
      refine (accepts_cref hw (element_of_proper (t := u) (r := .reg E.reg) hQ)).2 ⟨rfl, ?_, ?_, c, d, h, hs.1, ?_⟩
      · rintro rfl
        exact he (.inr ⟨_, _, rfl, .inl rfl⟩)
      · cases h with
        | plain => rfl
        | smart =>
          rename_i k
          cases k with
          | unique => exact absurd (.inr ⟨_, _, rfl, .inr (.inl ⟨_, rfl⟩)⟩) he
          | _ => rfl
      · cases h with
        | plain => exact ho
        | smart =>
          rename_i k
          cases k with
          | unique => exact absurd (.inr ⟨_, _, rfl, .inr (.inl ⟨_, rfl⟩)⟩) he
          | _ => exact ho
    · exact absurd (.inr ⟨_, _, rfl, .inr (.inr fun e => hn (by cases e; rfl))⟩) he

theorem staticOk_iff (hw : E.hier.WF) : E.staticOk c d = true ↔ E.hier.Unambiguous c d ∨ E.hier.StaticDown d c := by
  constructor
  · intro h
    unfold staticOk staticCast at h
    split at h
    · next τ hτ =>
      obtain ⟨h1, h2⟩ := (only_eq_some hw).1 hτ
      exact .inl ⟨τ, h1, h2⟩
    · split at h
      · next τ hτ =>
        split at h
        · next hh =>
          obtain ⟨⟨h1, h2⟩, h3⟩ := (only_eq_some hw).1 hτ
          refine .inr ⟨⟨τ, ⟨h1, h2⟩, h3⟩, τ, ?_, h2⟩
          rcases h1 with h1 | ⟨v, _, h1⟩
          · exact h1
          · rw [h1.head] at hh
            obtain rfl := Option.some.inj hh
            exact h1
        · cases h
      · cases h
  · rintro (⟨σ, h1, h2⟩ | h)
    · unfold staticOk staticCast
      rw [(only_eq_some hw).2 ⟨h1, h2⟩]
      rfl
    · exact staticOk_of hw h

theorem dynamicOk_iff (hw : E.hier.WF) (hc : E.hier.Defined c) : E.dynamicOk c d = true ↔ E.poly c = true ∧ ¬ E.hier.Inherits c d ∨ E.hier.Unambiguous c d := by
  unfold dynamicOk
  rw [← isBaseOf_iff hw hc, ← isConvertible_iff hw]
  split
  · next h => simp [h]
  · next h =>
    have h' : E.hier.isConvertible c d ≠ true := fun h' => h (isBaseOf_of_unambiguous hw ((isConvertible_iff hw).1 h'))
    simp [h, h']

theorem optimalOk_iff (hw : E.hier.WF) (hc : E.hier.Defined c) :
    E.optimalOk c d = true ↔ E.poly c = true ∧ ¬ E.hier.Inherits c d ∨ E.hier.Unambiguous c d ∨ E.hier.StaticDown d c := by
  rw [optimalOk, Bool.or_eq_true, staticOk_iff hw, dynamicOk_iff hw hc]
  tauto

theorem when_isSome {h : Handed} {b : Bool} : (h.when b).isSome = b := by
  cases b <;> rfl

theorem stray_sameForm (h : CT.SameForm t q c d) : (E.strayCast t q).isSome = true → E.virtCastOk t q = true := by
  cases h with
  | smart =>
    rename_i k
    cases k <;> simp [strayCast, intrusiveCast, when_isSome, virtCastOk, smartCastOk]
  | smartRef =>
    rename_i k
    cases k <;> simp [strayCast, intrusiveCast, when_isSome, virtCastOk]
  | _ => simp [strayCast]

/-- Exactly which overriders are accepted, for virtual parameters of the same form. -/
theorem C62_exact (hw : E.hier.WF) (hP : p.Proper) (hQ : q.Proper) (hm : E.validMethodParam p = true) (h : CT.Virtual p q c d) (hc : E.hier.Defined c) :
    E.Accepts p q ↔ ¬ Excepted E p q ∧ ((∃ t, p = .virt t) ∨ E.hier.Unambiguous d c) ∧
      (E.poly c = true ∧ ¬ E.hier.Inherits c d ∨ E.hier.Unambiguous c d ∨ E.hier.StaticDown d c ∧ ¬ Forced p) := by
  have ho := optimalOk_iff (d := d) hw hc
  have hd := dynamicOk_iff (d := d) hw hc
  cases h with
  | virt h =>
    rename_i t
    have he : ¬ Excepted E (.virt t) q := by rintro (⟨_, h⟩ | ⟨_, _, h, _⟩) <;> cases h
    have hv : E.Accepts (.virt t) q ↔ E.virtCastOk t q = true := by
      rw [Accepts, valid_virt (by cases h <;> simp), castOk_virt]
      simpa using stray_sameForm h
    rw [hv]
    simp only [he, not_false_eq_true, true_and, CT.virt.injEq, exists_eq', true_or]
    cases h with
    | smart =>
      rename_i k
      cases k <;> simp [virtCastOk, smartCastOk, ho, hd, Forced]
    | smartRef =>
      rename_i k
      cases k with
      | unique => simp [validMethodParam, CT.virtualType] at hm
      | _ => simp [virtCastOk, ho, hd, Forced]
    | _ => simp [virtCastOk, ho, Forced]
  | value h =>
    rename_i t u r
    obtain ⟨-, n, rfl⟩ := id hP
    obtain rfl : n = E.reg := by simpa [validMethodParam] using hm
    have he : ¬ Excepted E (.vptr t (.reg E.reg)) (.vptr u (.reg E.reg)) := by rintro (⟨_, h⟩ | ⟨_, _, h, _⟩) <;> cases h
    have hv : ¬ ∃ v, CT.vptr t (.reg E.reg) = .virt v := by rintro ⟨_, h⟩; cases h
    rw [accepts_value hw (element_of_proper hQ)]
    simp only [he, not_false_eq_true, true_and, hv, false_or]
    constructor
    · rintro ⟨c', d', h', hb, hk⟩
      obtain ⟨rfl, rfl⟩ : c' = c ∧ d' = d := by cases h <;> cases h' <;> exact ⟨rfl, rfl⟩
      refine ⟨hb, ?_⟩
      cases h with
      | plain => simpa [downOk, ho, Forced] using hk
      | smart =>
        rename_i k
        cases k <;> simpa [downOk, smartCastOk, ho, hd, Forced] using hk
    · rintro ⟨hb, hk⟩
      refine ⟨c, d, h, hb, ?_⟩
      cases h with
      | plain => simpa [downOk, ho, Forced] using hk
      | smart =>
        rename_i k
        cases k <;> simpa [downOk, smartCastOk, ho, hd, Forced] using hk
  | constRef h =>
    rename_i t u r
    obtain ⟨-, n, rfl⟩ := id (show (CT.vptr t r).Proper from hP)
    have hv : ¬ ∃ v, CT.cref (CT.vptr t (.reg n)) = .virt v := by rintro ⟨_, h⟩; cases h
    have hf : ¬ Forced (.cref (.vptr t (.reg n))) := by rintro (⟨_, h⟩ | ⟨_, h⟩ | ⟨_, _, h⟩) <;> cases h
    simp only [hv, false_or, hf, not_false_eq_true, and_true]
    by_cases hn : n = E.reg
    · subst hn
      rw [accepts_cref hw (element_of_proper (t := u) (r := .reg E.reg) hQ)]
      have hex : Excepted E (.cref (.vptr t (.reg E.reg))) (.cref (.vptr u (.reg E.reg))) ↔ u = t ∨ ∃ c, t = .smart .unique (.cls c) := by
        constructor
        · rintro (⟨_, h⟩ | ⟨_, _, h, h'⟩)
          · cases h
          · cases h
            rcases h' with h' | h' | h'
            · cases h'; exact .inl rfl
            · exact .inr h'
            · exact absurd rfl h'
        · rintro (rfl | h')
          · exact .inr ⟨_, _, rfl, .inl rfl⟩
          · exact .inr ⟨_, _, rfl, .inr (.inl h')⟩
      rw [hex]
      clear hex
      constructor
      · rintro ⟨-, hne, hmv, c', d', h', hb, hk⟩
        obtain ⟨rfl, rfl⟩ : c' = c ∧ d' = d := by cases h <;> cases h' <;> exact ⟨rfl, rfl⟩
        refine ⟨?_, hb, ?_⟩
        · rintro (rfl | ⟨_, rfl⟩)
          · exact hne rfl
          · simp [movable] at hmv
        · cases h with
          | plain => simpa [downOk, ho] using hk
          | smart =>
            rename_i k
            cases k with
            | unique => simp [movable] at hmv
            | _ => simpa [downOk, smartCastOk, ho] using hk
      · rintro ⟨hx, hb, hk⟩
        refine ⟨rfl, fun e => hx (.inl (by cases e; rfl)), ?_, c, d, h, hb, ?_⟩
        · cases h with
          | plain => rfl
          | smart =>
            rename_i k
            cases k with
            | unique => exact absurd (.inr ⟨_, rfl⟩) hx
            | _ => rfl
        · cases h with
          | plain => simpa [downOk, ho] using hk
          | smart =>
            rename_i k
            cases k with
            | unique => exact absurd (.inr ⟨_, rfl⟩) hx
            | _ => simpa [downOk, smartCastOk, ho] using hk
    · constructor
      · exact fun h => absurd h (not_accepts_foreign hw hn)
      · rintro ⟨he, -⟩
        exact absurd (.inr ⟨_, _, rfl, .inr (.inr fun e => hn (by cases e; rfl))⟩) he

/-- No class is polymorphic, and `boost_openmethod_vptr` is defined for all. -/
def nonPolymorphic (H : Hier) : Cpp := { hier := H, poly := fun _ => false, vptrFn := fun _ => true, cpp20 := false, reg := 0 }

theorem zoo_static : zoo.StaticDown 1 0 :=
  ⟨zoo_derives, [1, 0], .base ⟨[(0, false)], by simp [zoo], by simp⟩ (.self ⟨[], by simp [zoo]⟩), rfl⟩

/-- Single inheritance, without virtual functions: `virtual_ptr`s that contain a `std::shared_ptr` can be cast, those that contain a `std::unique_ptr` cannot; the same for `std::shared_ptr` by
value and by reference. -/
theorem C62_refuted :
    let E := nonPolymorphic zoo
    E.hier.StaticDown 1 0 ∧
    (E.validMethodParam (vp (.smart .unique (.cls 0))) = true ∧ ¬ E.Accepts (vp (.smart .unique (.cls 0))) (vp (.smart .unique (.cls 1))) ∧ E.Accepts (vp (sp 0)) (vp (sp 1))) ∧
    (E.validMethodParam (.virt (.cref (sp 0))) = true ∧ ¬ E.Accepts (.virt (.cref (sp 0))) (.cref (sp 1)) ∧ E.Accepts (.virt (sp 0)) (sp 1)) := by
  refine ⟨zoo_static, ⟨rfl, fun h => absurd h.2 (by decide +kernel), by decide +kernel, by decide +kernel⟩, ⟨rfl, fun h => absurd h.2 (by decide +kernel), by decide +kernel, by decide +kernel⟩⟩

/-- The cases of `C62_exact`: a class that is not polymorphic is cast to a derived class, to itself, or to an unrelated class; a `std::unique_ptr` to the same class. -/
example : let E := nonPolymorphic zoo
    E.Accepts (.virt (.lref (.cls 0))) (.lref (.cls 1)) ∧ E.Accepts (.virt (.lref (.cls 1))) (.lref (.cls 0)) ∧ ¬ E.Accepts (.virt (.lref (.cls 0))) (.lref (.cls 2)) ∧
    E.Accepts (.virt (.smart .unique (.cls 0))) (.smart .unique (.cls 0)) ∧ ¬ E.Accepts (.virt (.smart .unique (.cls 0))) (.smart .unique (.cls 1)) := by
  have hn : ∀ c, (nonPolymorphic zoo).poly c ≠ true := fun _ => nofun
  have h10 : ¬ zoo.Unambiguous 0 1 := fun h => absurd ((isConvertible_iff zoo_wf).2 h) (by decide +kernel)
  refine ⟨(C62_exact (E := nonPolymorphic zoo) (p := .virt (.lref (.cls 0))) (q := .lref (.cls 1)) zoo_wf trivial trivial rfl (.virt .lref) ⟨_, by simp [nonPolymorphic, zoo]; exact rfl⟩).2 ⟨?_, .inl ⟨_, rfl⟩, .inr (.inr ⟨zoo_static, ?_⟩)⟩,
    (C62_exact (E := nonPolymorphic zoo) (p := .virt (.lref (.cls 1))) (q := .lref (.cls 0)) zoo_wf trivial trivial rfl (.virt .lref) ⟨_, by simp [nonPolymorphic, zoo]; exact rfl⟩).2 ⟨?_, .inl ⟨_, rfl⟩, .inr (.inl zoo_derives)⟩, fun h => ?_,
    (C62_exact (E := nonPolymorphic zoo) (p := .virt (.smart .unique (.cls 0))) (q := .smart .unique (.cls 0)) zoo_wf trivial trivial rfl (.virt .smart) ⟨_, by simp [nonPolymorphic, zoo]; exact rfl⟩).2 ⟨?_, .inl ⟨_, rfl⟩, .inr (.inl (unambiguous_self zoo_wf ⟨[], by simp [nonPolymorphic, zoo]⟩))⟩, fun h => ?_⟩
  · rintro (⟨_, h⟩ | ⟨_, _, h, _⟩) <;> cases h
  · rintro (⟨_, h⟩ | ⟨_, h⟩ | ⟨_, _, h⟩) <;> cases h
  · rintro (⟨_, h⟩ | ⟨_, _, h, _⟩) <;> cases h
  · obtain ⟨-, -, h | h | ⟨h, -⟩⟩ := (C62_exact (E := nonPolymorphic zoo) (p := .virt (.lref (.cls 0))) (q := .lref (.cls 2)) zoo_wf trivial trivial rfl (.virt .lref) ⟨_, by simp [nonPolymorphic, zoo]; exact rfl⟩).1 h
    · exact hn _ h.1
    · exact absurd ((isConvertible_iff zoo_wf).2 h) (by decide +kernel)
    · exact zoo_unrelated h.1
  · rintro (⟨_, h⟩ | ⟨_, _, h, _⟩) <;> cases h
  · obtain ⟨-, -, h | h | ⟨-, h⟩⟩ := (C62_exact (E := nonPolymorphic zoo) (p := .virt (.smart .unique (.cls 0))) (q := .smart .unique (.cls 1)) zoo_wf trivial trivial rfl (.virt .smart) ⟨_, by simp [nonPolymorphic, zoo]; exact rfl⟩).1 h
    · exact hn _ h.1
    · exact h10 h
    · exact h (.inl ⟨_, rfl⟩)

/-- Class 0 is an ambiguous base of class 3: there is no cast to it, even if all classes are polymorphic. -/
example : ¬ (polymorphic [(3, [(1, false), (2, false)]), (2, [(0, false)]), (1, [(0, false)]), (0, [])]).Accepts (.virt (.lref (.cls 3))) (.lref (.cls 0)) :=
  fun h => absurd h.2 (by decide +kernel)

/-- The hypotheses of `C62_partial`. -/
example : (nonPolymorphic zoo).Accepts (vp (.cls 0)) (vp (.cls 1)) :=
  C62_partial zoo_wf ⟨.inl ⟨0, rfl⟩, 0, rfl⟩ ⟨.inl ⟨1, rfl⟩, 0, rfl⟩ rfl (.value .plain) zoo_static
    (by rintro (⟨_, h⟩ | ⟨_, _, h, _⟩) <;> cases h) (by rintro (⟨_, h⟩ | ⟨_, h⟩ | ⟨_, _, h⟩) <;> cases h)

end OpenMethod.Props

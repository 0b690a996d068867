import Verif.Proof.Conversions
import Verif.Props.Params
import Verif.Model.Returns

/-!
# C69: what a virtual pointer can be made from, and what can be assigned to it
-/

set_option linter.unusedSimpArgs false

namespace OpenMethod.Props

open Cpp

variable {E : Cpp} {f : Form} {h : Held} {r : Nat} {g : Given} {c : Cat}

/-- Which arguments are accepted: those that are permitted, except pointers if the class of a plain virtual pointer is not polymorphic; and rvalues of type `const Other`. -/
theorem C69_exact_partial (hw : E.hier.WF) (hp : E.PolyInherited) (hd : E.hier.Defined h.elem.cls) :
    (E.resolved f h r g c).ok = true ↔
      (E.Permitted f h r g c ∧ ∀ t u, h = .plain t → g = .pointer u → E.poly t.cls = true) ∨
      ∃ t o, h = .plain t ∧ g = .object o ∧ c = .constRvalue ∧ E.poly o = true ∧ E.PointerConv ⟨o, true⟩ t := by
  rw [resolved_table hw hd]
  cases h with
  | plain t =>
    cases g with
    | object o =>
      have key : (E.poly t.cls = true → E.pointerFrom t ⟨o, c.isConst⟩ = true → E.poly o = true) :=
        fun h1 h2 => hp _ _ ((pointerFrom_iff hw).1 h2).1 h1
      simp only [table, plainTable]
      constructor
      · intro h0
        have h1 : c ≠ .rvalue ∧ E.pointerFrom t ⟨o, c.isConst⟩ = true ∧ E.poly o = true := by
          split at h0
          · rename_i h1
            refine ⟨h1.1, h1.2, ?_⟩
            split at h0
            · rename_i h2
              exact key h2.2 h1.2
            · split at h0
              · assumption
              · cases h0
          · cases h0
        obtain ⟨h1, h2, h3⟩ := h1
        rw [pointerFrom_iff hw] at h2
        cases c
        · exact .inl ⟨.object (.inl rfl) h3 h2, fun _ _ _ e => by cases e⟩
        · exact .inl ⟨.object (.inr rfl) h3 h2, fun _ _ _ e => by cases e⟩
        · exact absurd rfl h1
        · exact .inr ⟨_, _, rfl, rfl, rfl, h3, h2⟩
      · intro h0
        have h1 : c ≠ .rvalue ∧ E.pointerFrom t ⟨o, c.isConst⟩ = true ∧ E.poly o = true := by
          rw [pointerFrom_iff hw]
          rcases h0 with ⟨h0, _⟩ | ⟨t', o', e1, e2, rfl, h3, h4⟩
          · cases h0 with
            | object hc h3 h4 => rcases hc with rfl | rfl <;> exact ⟨by simp, h4, h3⟩
          · cases e1; cases e2
            exact ⟨by simp, h4, h3⟩
        rw [if_pos ⟨h1.1, h1.2.1⟩]
        split
        · rfl
        · rw [if_pos h1.2.2]
          split <;> rfl
    | pointer u =>
      simp only [table, plainTable]
      constructor
      · intro h0
        split at h0
        · rename_i h1
          rw [pointerFrom_iff hw] at h1
          exact .inl ⟨.pointer (hp _ _ h1.2.1 h1.1) h1.2, fun _ _ e _ => by cases e; exact h1.1⟩
        · cases h0
      · rintro (⟨h0, h1⟩ | ⟨_, _, _, e, _⟩)
        · cases h0 with
          | pointer h2 h3 => rw [if_pos ⟨h1 _ _ rfl rfl, (pointerFrom_iff hw).2 h3⟩]; rfl
        · cases e
    | vptr h s =>
      simp only [table, plainTable]
      constructor
      · intro h0
        split at h0
        · rename_i h1
          obtain ⟨rfl, h1⟩ := h1
          refine .inl ⟨.vptr ?_, fun _ _ _ e => by cases e⟩
          rcases h1 with rfl | h1
          · exact ⟨Hier.unambiguous_self hw hd, id⟩
          · exact (pointerFrom_iff hw).1 h1
        · cases h0
      · rintro (⟨h0, h1⟩ | ⟨_, _, _, e, _⟩)
        · cases h0 with
          | vptr h2 => rw [if_pos ⟨rfl, .inr ((pointerFrom_iff hw).2 h2)⟩]; rfl
        · cases e
    | null =>
      simp only [table, plainTable]
      constructor
      · intro h0
        split at h0
        · cases h0
        · exact .inl ⟨.null ‹_›, fun _ _ _ e => by cases e⟩
      · rintro (⟨h0, h1⟩ | ⟨_, _, _, e, _⟩)
        · cases h0 with
          | null hf => rw [if_neg hf]; rfl
        · cases e
    | smart l u =>
      refine ⟨nofun, ?_⟩
      rintro (⟨h0, h1⟩ | ⟨_, _, _, e, _⟩)
      · cases h0
      · cases e
    | other n =>
      refine ⟨nofun, ?_⟩
      rintro (⟨h0, h1⟩ | ⟨_, _, _, e, _⟩)
      · cases h0
      · cases e
  | smart k t =>
    have hk : ∀ {u : Elem}, E.smartFrom k t u c = true ↔ E.PointerConv u t ∧ (k = .unique → c = .rvalue) := by
      intro u
      rw [smartFrom, Bool.and_eq_true, pointerFrom_iff hw]
      refine and_congr Iff.rfl ?_
      by_cases h1 : k = .unique <;> simp [h1]
    have hx : ∀ {P : Prop}, ((P ∧ ∀ t' u, Held.smart k t = .plain t' → g = .pointer u → E.poly t'.cls = true) ∨
        ∃ t' o, Held.smart k t = .plain t' ∧ g = .object o ∧ c = .constRvalue ∧ E.poly o = true ∧ E.PointerConv ⟨o, true⟩ t') ↔ P := by
      intro P
      simp
    rw [hx]
    cases g with
    | smart l u =>
      simp only [table, smartTable]
      constructor
      · intro h0
        split at h0
        · rename_i h1
          obtain ⟨rfl, h1, h2⟩ := h1
          exact .smart h1 (hk.1 h2).1 (hk.1 h2).2
        · cases h0
      · intro h0
        cases h0 with
        | smart h1 h2 h3 => rw [if_pos ⟨rfl, h1, hk.2 ⟨h2, h3⟩⟩]; rfl
    | vptr h s =>
      simp only [table, smartTable]
      constructor
      · intro h0
        split at h0
        · rename_i h1
          obtain ⟨rfl, rfl⟩ := h1
          split at h0
          · cases h0
          · rename_i h1
            exact .smartVptr ⟨Hier.unambiguous_self hw hd, id⟩ fun e => by simpa [e] using h1
        · split at h0
          · split at h0
            · rename_i h1
              obtain ⟨rfl, rfl, h1⟩ := h1
              exact .smartVptr (hk.1 h1).1 (hk.1 h1).2
            · cases h0
          · cases h0
      · intro h0
        cases h0 with
        | smartVptr h1 h2 =>
          split
          · rw [if_neg (by rintro ⟨e, e'⟩; exact e' (h2 e))]; rfl
          · dsimp only
            rw [if_pos ⟨rfl, rfl, hk.2 ⟨h1, h2⟩⟩]; rfl
    | null =>
      simp only [table, smartTable]
      constructor
      · intro h0
        split at h0
        · cases h0
        · exact .null ‹_›
      · intro h0
        cases h0 with
        | null hf => rw [if_neg hf]; rfl
    | _ =>
      refine ⟨nofun, ?_⟩
      intro h0
      cases h0

/-- The arguments that are accepted are those that are permitted, if a pointer is only given to virtual pointers to a polymorphic class, and the argument is not an rvalue of type `const Other`. -/
theorem C69_partial (hw : E.hier.WF) (hp : E.PolyInherited) (hd : E.hier.Defined h.elem.cls) (hpt : ∀ t u, h = .plain t → g = .pointer u → E.poly t.cls = true)
    (hc : ∀ o, g = .object o → c ≠ .constRvalue) : (E.resolved f h r g c).ok = true ↔ E.Permitted f h r g c := by
  rw [C69_exact_partial hw hp hd]
  constructor
  · rintro (h0 | ⟨_, o, _, e, e', _⟩)
    · exact h0.1
    · exact absurd e' (hc o e)
  · exact fun h0 => .inl ⟨h0, hpt⟩

/-- No call of a constructor or assignment operator is ambiguous. -/
theorem C69_unambiguous (hw : E.hier.WF) (hd : E.hier.Defined h.elem.cls) : E.resolved f h r g c ≠ .ambiguous := by
  rw [resolved_table hw hd]
  cases h with
  | plain t => cases g <;> simp only [table, plainTable] <;> (try split_ifs) <;> exact Resolved.noConfusion
  | smart k t =>
    cases g <;> simp only [table, smartTable] <;> (try split_ifs) <;> (try exact Resolved.noConfusion)
    all_goals
      split
      · split_ifs <;> exact Resolved.noConfusion
      · exact Resolved.noConfusion

/-- A virtual pointer never refers to an object of another class, and `const` is not lost. -/
theorem C69_safe (hw : E.hier.WF) (hd : E.hier.Defined h.elem.cls) (ha : (E.resolved f h r g c).ok = true) : ∀ e, g.elem c = some e → E.PointerConv e h.elem := by
  intro e he
  rw [resolved_table hw hd] at ha
  have hs := Hier.unambiguous_self hw hd
  cases h with
  | plain t =>
    cases g <;> cases he <;> simp only [table, plainTable] at ha
    · split at ha
      · rename_i h1
        exact (pointerFrom_iff hw).1 h1.2
      · cases ha
    · split at ha
      · rename_i h1
        exact (pointerFrom_iff hw).1 h1.2
      · cases ha
    · cases ha
    · split at ha
      · rename_i h1
        rcases h1.2 with rfl | h1
        · exact ⟨hs, id⟩
        · exact (pointerFrom_iff hw).1 h1
      · cases ha
  | smart k t =>
    have hk : ∀ {u : Elem}, E.smartFrom k t u c = true → E.PointerConv u t := by
      intro u h0
      rw [smartFrom, Bool.and_eq_true, pointerFrom_iff hw] at h0
      exact h0.1
    cases g <;> cases he <;> simp only [table, smartTable] at ha
    · cases ha
    · cases ha
    · split at ha
      · rename_i h1
        exact hk h1.2.2
      · cases ha
    · split at ha
      · rename_i h1
        obtain ⟨rfl, rfl⟩ := h1
        exact ⟨hs, id⟩
      · split at ha
        · split at ha
          · rename_i h1
            exact hk h1.2.2
          · cases ha
        · cases ha

/-- What is done with an argument that is accepted: `nullptr` makes the pointers null; a v-table is looked up unless the argument has one; and the argument is moved from if it is a non-`const` rvalue
and the virtual pointer owns the object. -/
theorem C69_how (hw : E.hier.WF) (hd : E.hier.Defined h.elem.cls) (ha : (E.resolved f h r g c).ok = true) :
    ∃ o, E.done f h r g c = some o ∧ (o = .null ↔ g = .null) ∧ (o.acquires ↔ g ≠ .null ∧ ¬ ∃ h' s, g = .vptr h' s) ∧
      (o.moves ↔ c = .rvalue ∧ g ≠ .null ∧ ∃ k t, h = .smart k t) := by
  unfold done
  rw [resolved_table hw hd] at ha ⊢
  cases h with
  | plain t =>
    cases g with
    | object o =>
      simp only [convert_plain, table, plainTable] at ha ⊢
      split at ha
      · rename_i h1
        simp only [if_pos h1]
        split at ha
        · rename_i h2
          exact ⟨.acquireCopy, by simp [h2], by simp [How.acquires, How.moves]⟩
        · split at ha
          · rename_i h2 h3
            refine ⟨.acquireCopy, ?_, by simp [How.acquires, How.moves]⟩
            cases f <;> simp [h3] at h2 ⊢
            simp [h2]
          · cases ha
      · cases ha
    | pointer u =>
      simp only [table, plainTable] at ha ⊢
      split at ha
      · rename_i h1
        exact ⟨.acquireCopy, by rw [if_pos h1], by simp [How.acquires, How.moves]⟩
      · cases ha
    | vptr h s =>
      simp only [table, plainTable] at ha ⊢
      split at ha
      · rename_i h1
        exact ⟨.copy, by rw [if_pos h1], by simp [How.acquires, How.moves]⟩
      · cases ha
    | null =>
      simp only [table, plainTable] at ha ⊢
      split at ha
      · cases ha
      · rename_i h1
        exact ⟨.null, by rw [if_neg h1], by simp [How.acquires, How.moves]⟩
    | smart l u => cases ha
    | other n => cases ha
  | smart k t =>
    cases g with
    | smart l u =>
      simp only [table, smartTable] at ha ⊢
      split at ha
      · rename_i h1
        simp only [if_pos h1]
        by_cases hc : c = .rvalue <;> simp [hc, How.acquires, How.moves]
      · cases ha
    | vptr h s =>
      simp only [table, smartTable] at ha ⊢
      split at ha
      · rename_i h1
        simp only [if_pos h1]
        split at ha
        · cases ha
        · rename_i h2
          simp only [if_neg h2]
          by_cases hc : c = .rvalue <;> simp [hc, How.acquires, How.moves]
      · rename_i h1
        simp only [if_neg h1]
        split at ha
        · split at ha
          · rename_i h2
            simp only [if_pos h2]
            by_cases hc : c = .rvalue <;> simp [hc, How.acquires, How.moves]
          · cases ha
        · cases ha
    | null =>
      simp only [table, smartTable] at ha ⊢
      split at ha
      · cases ha
      · rename_i h1
        exact ⟨.null, by rw [if_neg h1], by simp [How.acquires, How.moves]⟩
    | _ => cases ha

/-! ## Return values -/

/-- The conversions of the results of overriders to virtual pointers, in the model of return types, are those found by overload resolution. -/
theorem C69_returned {u t : CT} {h : Held} {n : Nat} (hg : g.Returned c u) (ht : (Given.vptr h n).Is t) (hw : E.hier.WF) (hd : E.hier.Defined h.elem.cls) :
    E.toValue u t = (E.convert h n g c).ok := by
  have hs : E.hier.isConvertible h.elem.cls h.elem.cls = true := (isConvertible_iff hw).2 (Hier.unambiguous_self hw hd)
  have hu : ∀ (k : Smart) (v : CT), holdsUnique (.smart k v) = decide (k = .unique) := by intro k v; cases k <;> rfl
  cases ht with
  | plain =>
    rw [convert_plain]
    cases hg with
    | _ hg => cases hg <;> simp [toValue, fromLvalue, isRvalue, valueType, toObject, holdsUnique, convertible, CT.element, plainTable, pointerFrom, Held.elem, Cat.isConst, Resolved.ok, *] <;> split_ifs <;> simp_all
  | virtual =>
    rw [convert_smart]
    simp only [Held.elem] at hs
    cases hg with
    | _ hg => cases hg <;> simp [toValue, fromLvalue, isRvalue, valueType, toObject, convertible, CT.element, smartTable, smartFrom, pointerFrom, Held.elem, Cat.isConst, Resolved.ok, *] <;> split_ifs <;> simp_all <;> (intros; by_contra hx; simp_all)

/-! ## Where the code differs -/

/-- `Animal` (0) is not polymorphic, `Dog` (1) is. -/
def halfPolymorphic : Cpp := { polymorphic zoo with poly := fun c => c ≠ 0 }

theorem halfPolymorphic_inherited : halfPolymorphic.PolyInherited := by
  intro c b hu hb
  by_contra hc
  obtain rfl : c = 0 := by simpa [halfPolymorphic] using hc
  have hn : ∀ b v, ¬ Hier.Base zoo 0 b v := by
    rintro b v ⟨bs, h1, h2⟩
    simp [zoo] at h1
    simp [h1] at h2
  obtain ⟨σ, ⟨h1, h2⟩, _⟩ := hu
  have hσ : σ = [0] := by
    rcases h1 with h1 | ⟨v, h1, _⟩
    · cases h1 with
      | self => rfl
      | base h3 => exact absurd h3 (hn _ _)
    · cases h1 with
      | direct h3 => exact absurd h3 (hn _ _)
      | step h3 => exact absurd h3 (hn _ _)
  subst hσ
  obtain rfl : 0 = b := by simpa [Hier.OfClass] using h2
  simp [halfPolymorphic] at hb

/-- A pointer to a polymorphic `Dog` is permitted for a `virtual_ptr<Animal>`, but rejected, though a reference to the same `Dog` is accepted. -/
theorem C69_refuted_pointer : ∃ (E : Cpp) (t u : Elem), E.hier.WF ∧ E.PolyInherited ∧ E.hier.Defined t.cls ∧ (∀ f r c, E.Permitted f (.plain t) r (.pointer u) c) ∧
    (∀ f r c, E.resolved f (.plain t) r (.pointer u) c = .noMatch) ∧ ∀ f r, (E.resolved f (.plain t) r (.object u.cls) .lvalue).ok = true := by
  have hu : halfPolymorphic.PointerConv ⟨1, false⟩ ⟨0, false⟩ := ⟨zoo_derives, id⟩
  have hd : halfPolymorphic.hier.Defined 0 := ⟨[], by simp [halfPolymorphic, polymorphic, zoo]⟩
  refine ⟨halfPolymorphic, ⟨0, false⟩, ⟨1, false⟩, zoo_wf, halfPolymorphic_inherited, hd, fun f r c => .pointer rfl hu, fun f r c => ?_, fun f r => ?_⟩
  · rw [resolved_table zoo_wf hd]
    rfl
  · exact (C69_exact_partial (h := .plain ⟨0, false⟩) zoo_wf halfPolymorphic_inherited hd).2 (.inl ⟨.object (.inl rfl) rfl hu, fun _ _ _ e => by cases e⟩)

/-- An rvalue of type `const Dog` is accepted for a `virtual_ptr<const Animal>`, which refers to it when it no longer exists; an rvalue of type `Dog` is rejected. -/
theorem C69_refuted_rvalue : ∃ (E : Cpp) (t : Elem) (o : Cls), E.hier.WF ∧ E.PolyInherited ∧ E.hier.Defined t.cls ∧
    (∀ f r, (E.resolved f (.plain t) r (.object o) .constRvalue).ok = true ∧ ¬ E.Permitted f (.plain t) r (.object o) .constRvalue) ∧
    ∀ f r, E.resolved f (.plain t) r (.object o) .rvalue = .noMatch := by
  have hd : (polymorphic zoo).hier.Defined 0 := ⟨[], by simp [polymorphic, zoo]⟩
  have hp : (polymorphic zoo).PolyInherited := fun _ _ _ _ => rfl
  refine ⟨polymorphic zoo, ⟨0, true⟩, 1, zoo_wf, hp, hd, fun f r => ⟨?_, ?_⟩, fun f r => ?_⟩
  · exact (C69_exact_partial (h := .plain ⟨0, true⟩) zoo_wf hp hd).2 (.inr ⟨_, _, rfl, rfl, rfl, rfl, zoo_derives, fun _ => rfl⟩)
  · rintro (_ | ⟨hc, _, _⟩)
    simp at hc
  · rw [resolved_table zoo_wf hd]
    rfl

/-! ## Cases

The hypotheses hold for `polymorphic zoo` and `halfPolymorphic`. Overload resolution gives what the tests expect: test_virtual_ptr_value_semantics.cpp 143, 255-256, 334-345,
test_shared_virtual_ptr_value_semantics.cpp 48-54, 370-387, test_unique_virtual_ptr_value_semantics.cpp 42-94, 282-293, test_virtual_ptr_doc.cpp 233-251. There, `construct_assign_ok` means
`construct` or `assign`. -/

namespace Cases

/-- `Animal`, `Dog`. -/
def animal : Elem := ⟨0, false⟩
def dog : Elem := ⟨1, false⟩
def constDog : Elem := ⟨1, true⟩

def P : Cpp := polymorphic zoo
def N : Cpp := { polymorphic zoo with poly := fun _ => false }

/-- `construct_assign_ok`. -/
def ok (E : Cpp) (h : Held) (g : Given) (c : Cat) : Bool := (E.construct h 0 g c).ok || (E.assign h 0 g c).ok

/-- Plain virtual pointers. -/
example : [ok P (.plain dog) (.object 1) .rvalue, ok P (.plain dog) (.object 1) .constLvalue, ok P (.plain dog) (.pointer constDog) .rvalue,
    ok N (.plain dog) (.object 1) .constLvalue, ok N (.plain dog) (.object 1) .lvalue, ok N (.plain dog) (.object 1) .rvalue,
    ok N (.plain dog) (.pointer constDog) .rvalue, ok N (.plain dog) (.pointer dog) .rvalue] = [false, false, false, false, false, false, false, false] := by decide +kernel

example : (ok N (.plain dog) (.vptr (.plain dog) 0) .constLvalue, ok P (.plain animal) (.vptr (.smart .shared animal) 0) .lvalue,
    ok P (.plain animal) (.object 1) .lvalue, ok P (.plain animal) (.pointer dog) .rvalue, ok P (.plain constDog) (.object 1) .lvalue) = (true, true, true, true, true) := by decide +kernel

/-- `shared_virtual_ptr`. -/
example : (ok P (.smart .shared dog) (.object 1) .rvalue, ok P (.smart .shared dog) (.object 1) .constLvalue, ok P (.smart .shared dog) (.pointer constDog) .rvalue,
    ok N (.smart .shared dog) (.smart .shared dog) .constLvalue, ok N (.smart .shared dog) (.smart .shared dog) .lvalue, ok N (.smart .shared dog) (.smart .shared dog) .rvalue,
    ok P (.smart .shared animal) (.vptr (.plain dog) 0) .rvalue) = (false, false, false, false, false, false, false) := by decide +kernel

example : ((N.assign (.smart .shared dog) 0 (.vptr (.smart .shared dog) 0) .constLvalue).ok, ok N (.smart .shared dog) (.vptr (.smart .shared dog) 0) .lvalue,
    ok N (.smart .shared dog) (.vptr (.smart .shared dog) 0) .rvalue) = (true, true, true) := by decide +kernel

/-- `unique_virtual_ptr`. -/
example : (ok P (.smart .unique dog) (.object 1) .rvalue, ok P (.smart .unique dog) (.object 1) .lvalue, ok P (.smart .unique dog) (.pointer dog) .lvalue,
    ok P (.smart .unique dog) (.smart .unique dog) .lvalue, ok P (.smart .unique dog) (.smart .unique dog) .constLvalue,
    ok P (.smart .unique dog) (.vptr (.smart .unique dog) 0) .constLvalue, ok P (.smart .unique animal) (.vptr (.smart .unique dog) 0) .lvalue) =
    (false, false, false, false, false, false, false) := by decide +kernel

example : (P.convert (.smart .unique animal) 0 (.smart .unique dog) .rvalue, P.assign (.smart .unique animal) 0 (.vptr (.smart .unique dog) 0) .rvalue,
    N.assign (.smart .unique dog) 0 (.vptr (.smart .unique dog) 0) .rvalue, P.construct (.smart .unique dog) 0 (.vptr (.smart .unique dog) 0) .lvalue) =
    (.found .acquireMove .direct, .found .move .direct, .found .move .direct, .deleted) := by decide +kernel

/-- `nullptr`; another registry; another kind of smart pointer; assignment through a temporary. -/
example : (P.convert (.plain dog) 0 .null .rvalue, P.construct (.plain dog) 0 .null .rvalue, P.assign (.smart .shared dog) 0 .null .rvalue,
    P.convert (.plain animal) 0 (.vptr (.plain dog) 1) .lvalue, P.construct (.smart .shared animal) 0 (.smart .unique dog) .rvalue,
    halfPolymorphic.assign (.plain animal) 0 (.object 1) .lvalue) =
    (.noMatch, .found .null .direct, .found .null .direct, .noMatch, .noMatch, .found .copy .converted) := by decide +kernel

/-- A permitted argument. -/
example : P.Permitted .assign (.smart .shared animal) 0 (.smart .shared dog) .lvalue := .smart rfl ⟨zoo_derives, id⟩ nofun

end Cases

end OpenMethod.Props

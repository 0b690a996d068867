import Verif.SpecDeduction
import Verif.Props.Conversions

/-!
# C70: virtual pointers whose type is deduced
-/

namespace OpenMethod.Props

open Cpp

variable {E : Cpp} {d r : Nat} {g : Given} {c : Cat} {h : Held}

/-- C70 in full: `final_virtual_ptr` accepts references to objects and smart pointers, and gives a virtual pointer of the corresponding type with the v-table of the class; `virtual_ptr(e)` is
accepted if the corresponding type can be constructed from `e`, and has that type. -/
def C70 : Prop :=
  (∀ r g c h, g.Offered c → g.held c = some h → ∃ t, finalPtr r g c = some (t, .cls h.elem.cls) ∧ t.held = some h) ∧
  ∀ (E : Cpp) d g c h, g.held c = some h → (E.construct h d g c).ok = true → ∃ x, E.deduced d g c = some (h, d, x) ∧ x.ok = true

/-- `final_virtual_ptr` accepts objects that are lvalues, and smart pointers that are rvalues. -/
theorem C70_final_partial (ho : g.Offered c) (hh : g.held c = some h) (hs : ∀ k e, g = .smart k e → c = .rvalue) :
    ∃ t, finalPtr r g c = some (t, .cls h.elem.cls) ∧ t.held = some h := by
  rcases ho with ⟨o, rfl, hc⟩ | ⟨k, e, rfl, hk⟩
  · obtain rfl := Option.some.inj hh
    refine ⟨.cls ⟨o, c.isConst⟩, ?_, ?_⟩
    · rcases hc with rfl | rfl <;> rfl
    · rcases hc with rfl | rfl <;> rfl
  · obtain rfl := Option.some.inj hh
    obtain rfl := hs k e rfl
    exact ⟨.smart k e false, by cases k <;> rfl, rfl⟩

/-- `make_shared_virtual` and the like give virtual pointers of the documented types, with the v-table of the class. -/
theorem C70_make (k : Smart) (e : Elem) : ∃ t, makeVirtual k r e = some (t, .cls e.cls) ∧ t.held = some (.smart k e) :=
  C70_final_partial (h := .smart k e) (.inr ⟨k, e, rfl, fun _ => rfl⟩) rfl fun _ _ _ => rfl

/-- The virtual pointers to classes, and those that contain smart pointers, that `final_virtual_ptr` returns are of the right type, and have the v-table of the right class. They are not made from
objects or smart pointers that the documentation excludes. -/
theorem C70_final_sound {t : TArg} {v : VClass} (hf : finalPtr r g c = some (t, v)) (ht : t.held = some h) :
    g.Offered c ∧ g.held c = some h ∧ v = .cls h.elem.cls := by
  unfold finalPtr at hf
  cases g with
  | object o =>
    cases c <;> simp [Given.targ, Cat.isConst, Cat.isLvalue, virtualType, VClass.asserted, TArg.privateConstructor, TArg.held, TArg.isConst] at hf
    all_goals
      obtain ⟨rfl, rfl⟩ := hf
      obtain rfl := Option.some.inj ht
    · exact ⟨.inl ⟨o, rfl, .inl rfl⟩, by simp [Given.held], rfl⟩
    · exact ⟨.inl ⟨o, rfl, .inr rfl⟩, by simp [Given.held], rfl⟩
  | smart k e =>
    cases c <;> cases k <;> simp [Given.targ, Cat.isConst, Cat.isLvalue, virtualType, VClass.asserted, TArg.privateConstructor, TArg.held, TArg.isConst] at hf
    all_goals
      obtain ⟨rfl, rfl⟩ := hf
      cases ht
      try exact ⟨.inr ⟨_, e, rfl, fun _ => rfl⟩, rfl, rfl⟩
  | pointer e =>
    cases c <;> simp [Given.targ, Cat.isConst, Cat.isLvalue, virtualType, VClass.asserted, TArg.privateConstructor, TArg.held, TArg.isConst] at hf
  | vptr w s =>
    unfold Given.targ at hf
    dsimp only at hf
    split at hf
    · cases hf
    · split at hf
      · obtain rfl := (Prod.mk.inj (Option.some.inj hf)).1
        cases ht
      · cases hf
  | null => cases hf
  | other n => cases hf

/-- Deduction: an argument that is not `const`, or is an object, is accepted if the virtual pointer of its type can be constructed from it. -/
theorem C70_deduced_partial (hh : g.held c = some h) (hc : ∀ k e, g = .smart k e → c = .lvalue ∨ c = .rvalue) : E.deduced d g c = some (h, d, E.construct h d g c) := by
  cases g with
  | object o =>
    obtain rfl := Option.some.inj hh
    cases c <;> rfl
  | smart k e =>
    obtain rfl := Option.some.inj hh
    rcases hc k e rfl with rfl | rfl <;> rfl
  | pointer e => cases hh
  | vptr w s => cases hh
  | null => cases hh
  | other n => cases hh

/-- Deduction from a virtual pointer gives the same type, with the same registry. -/
theorem C70_deduced_copy {s : Nat} : E.deduced d (.vptr h s) c = some (h, s, E.construct h s (.vptr h s) c) := rfl

/-- What deduction gives: the type of the argument, with the default registry unless it has one; and the v-table of the object, or that of the argument. -/
theorem C70_deduced_sound (hw : E.hier.WF) (hd : E.hier.Defined h.elem.cls) {x : Resolved} (hx : E.deduced d g c = some (h, r, x)) (ha : x.ok = true) :
    (g = .vptr h r ∨ g.held c = some h ∧ r = d) ∧ ∃ o, E.done .construct h r g c = some o ∧ (o.acquires ↔ g ≠ .vptr h r) ∧ (o.moves ↔ c = .rvalue ∧ ∃ k t, h = .smart k t) := by
  have key : (g = .vptr h r ∨ g.held c = some h ∧ r = d) ∧ x = E.construct h r g c ∧ g ≠ .null := by
    unfold deduced at hx
    cases g with
    | object o =>
      simp only [Given.targ, Option.bind_some, TArg.held, Option.some.injEq, Prod.mk.injEq] at hx
      obtain ⟨rfl, rfl, rfl⟩ := hx
      exact ⟨.inr ⟨by cases c <;> rfl, rfl⟩, rfl, nofun⟩
    | smart k e =>
      cases c <;> simp [Given.targ, TArg.held, Cat.isConst] at hx
      all_goals
        obtain ⟨rfl, rfl, rfl⟩ := hx
        exact ⟨.inr ⟨rfl, rfl⟩, rfl, nofun⟩
    | pointer e => cases hx
    | vptr w s =>
      simp only [Option.some.injEq, Prod.mk.injEq] at hx
      obtain ⟨rfl, rfl, rfl⟩ := hx
      exact ⟨.inl rfl, rfl, nofun⟩
    | null => cases hx
    | other n => cases hx
  obtain ⟨hk, rfl, hn⟩ := key
  refine ⟨hk, ?_⟩
  obtain ⟨o, h1, _, h3, h4⟩ := C69_how (f := .construct) hw hd ha
  refine ⟨o, h1, h3.trans ⟨fun h e => h.2 ⟨_, _, e⟩, fun h => ⟨hn, ?_⟩⟩, h4.trans ⟨fun h => ⟨h.1, h.2.2⟩, fun h => ⟨h.1, hn, h.2⟩⟩⟩
  rintro ⟨h', s, e⟩
  rcases hk with hk | ⟨hk, _⟩
  · exact h hk
  · rw [e] at hk; cases hk

/-! ## Where the code differs -/

/-- No smart pointer that is an lvalue is accepted by `final_virtual_ptr`. -/
theorem C70_refuted_lvalue (k : Smart) (e : Elem) : finalPtr r (.smart k e) .lvalue = none := by cases k <;> rfl

/-- One that is `const` is: the result is a virtual pointer to the smart pointer itself. It has the v-table of the class, or, for `std::unique_ptr`, that of the class `std::unique_ptr`, which
is not registered. -/
theorem C70_refuted_const (k : Smart) (e : Elem) :
    ∃ v, finalPtr r (.smart k e) .constLvalue = some (.smart k e true, v) ∧ (TArg.smart k e true).held = none ∧ (k = .unique → v = .targ (.smart k e false)) := by
  cases k
  · exact ⟨_, rfl, rfl, nofun⟩
  · exact ⟨_, rfl, rfl, nofun⟩
  · exact ⟨_, rfl, rfl, fun _ => rfl⟩

/-- No `virtual_ptr` is deduced for a smart pointer that is `const`. -/
theorem C70_refuted_deduced (k : Smart) (e : Elem) : E.deduced d (.smart k e) .constLvalue = none ∧ E.deduced d (.smart k e) .constRvalue = none := ⟨rfl, rfl⟩

theorem C70_refuted : ¬ C70 := by
  rintro ⟨h, _⟩
  obtain ⟨t, h, _⟩ := h 0 (.smart .shared ⟨0, false⟩) .lvalue _ (.inr ⟨_, _, rfl, nofun⟩) rfl
  cases h

/-- The second half of C70 does not hold either. -/
theorem C70_refuted_second : ¬ ∀ (E : Cpp) d g c h, g.held c = some h → (E.construct h d g c).ok = true → ∃ x, E.deduced d g c = some (h, d, x) ∧ x.ok = true := by
  intro h
  have hd : (polymorphic zoo).hier.Defined 0 := ⟨[], by simp [polymorphic, zoo]⟩
  have ha : ((polymorphic zoo).construct (.smart .shared ⟨0, false⟩) 0 (.smart .shared ⟨0, false⟩) .constLvalue).ok = true :=
    (C69_exact_partial (f := .construct) (h := .smart .shared ⟨0, false⟩) zoo_wf (fun _ _ _ _ => rfl) hd).2
      (.inl ⟨.smart rfl ⟨Hier.unambiguous_self zoo_wf hd, id⟩ nofun, fun _ _ e _ => by cases e⟩)
  obtain ⟨x, h, _⟩ := h (polymorphic zoo) 0 (.smart .shared ⟨0, false⟩) .constLvalue _ rfl ha
  cases h

/-! ## Cases -/

namespace Cases

/-- test_virtual_ptr_value_semantics.cpp 137, test_virtual_ptr_dispatch.cpp 62, 164. -/
example : finalPtr 0 (.object 1) .lvalue = some (.cls dog, .cls 1) := rfl
example : P.deduced 0 (.object 1) .lvalue = some (.plain dog, 0, .found .acquireCopy .direct) := by decide +kernel
example : finalPtr 0 (.smart .unique dog) .rvalue = some (.smart .unique dog false, .cls 1) := rfl
/-- A shared pointer, copied and moved; a `const` object; a temporary object. -/
example : P.deduced 0 (.smart .shared dog) .lvalue = some (.smart .shared dog, 0, .found .acquireCopy .direct) := by decide +kernel
example : P.deduced 0 (.smart .shared dog) .rvalue = some (.smart .shared dog, 0, .found .acquireMove .direct) := by decide +kernel
example : finalPtr 0 (.object 1) .constLvalue = some (.cls constDog, .cls 1) := rfl
example : finalPtr 0 (.object 1) .rvalue = none := rfl
example : P.deduced 0 (.object 1) .rvalue = some (.plain dog, 0, .noMatch) := by decide +kernel
/-- `std::unique_ptr` must be moved. -/
example : (P.deduced 0 (.smart .unique dog) .lvalue).map (·.2.2.ok) = some false := by decide +kernel
/-- A virtual pointer, with another registry than the default one. -/
example : P.deduced 0 (.vptr (.plain dog) 1) .lvalue = some (.plain dog, 1, .found .copy .direct) := by decide +kernel

end Cases

end OpenMethod.Props

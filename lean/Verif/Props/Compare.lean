import Verif.Proof.Compare
import Verif.Props.Forms

/-!
# C76: comparison of virtual pointers
-/

namespace OpenMethod.Props

open Hier

variable {H : Hier} {cls : Nat → Cls} {l r m : Comparand}

theorem composite_isSome (hw : H.WF) (c d : Cls) : (∃ τ υ, H.composite c d = some (τ, υ)) ↔ H.Unambiguous c d ∨ H.Unambiguous d c := by
  rw [← isConvertible_iff hw, ← isConvertible_iff hw]
  unfold composite Hier.isConvertible
  cases h1 : H.only d c with
  | some τ => simp
  | none =>
    cases h2 : H.only c d with
    | some τ => simp
    | none => simp

theorem comparable_kinds (h h' : Held) : pointersComparable h h' = true ↔ (∃ e f, h = .plain e ∧ h' = .plain f) ∨ (∃ k e f, h = .smart k e ∧ h' = .smart k f) ∨
    (∃ e f, h = .plain e ∧ h' = .smart .intrusive f) ∨ (∃ e f, h = .smart .intrusive e ∧ h' = .plain f) := by
  rcases h with e | ⟨k, e⟩ <;> rcases h' with f | ⟨l, f⟩
  · simp [pointersComparable]
  · cases l <;> simp [pointersComparable]
  · cases k <;> simp [pointersComparable]
  · cases k <;> cases l <;> simp [pointersComparable]

/-- The compiler accepts a comparison if and only if the operands are comparable. -/
theorem C76_accepted (hw : H.WF) : (H.equal l r).isSome ↔ l.Comparable H r := by
  unfold equal
  constructor
  · intro h
    split at h
    · rename_i hk
      split at h
      · rename_i τ υ he
        exact ⟨hk.1, (comparable_kinds _ _).1 hk.2, (composite_isSome hw _ _).1 ⟨τ, υ, he⟩⟩
      · cases h
    · cases h
  · rintro ⟨h1, h2, h3⟩
    obtain ⟨τ, υ, he⟩ := (composite_isSome hw _ _).2 h3
    rw [if_pos ⟨h1, (comparable_kinds _ _).2 h2⟩, he]
    rfl

theorem equal_of_comparable (hw : H.WF) (h : l.Comparable H r) :
    ∃ τ υ, H.composite l.held.elem.cls r.held.elem.cls = some (τ, υ) ∧ H.equal l r = some (samePointer τ υ l.value r.value) := by
  obtain ⟨τ, υ, he⟩ := (composite_isSome hw _ _).2 h.classes
  refine ⟨τ, υ, he, ?_⟩
  unfold equal
  rw [if_pos ⟨h.reg, (comparable_kinds _ _).2 h.kinds⟩, he]

theorem converted_iff (hw : H.WF) {c d x : Cls} {τ υ σ ρ : Path} (he : H.composite c d = some (τ, υ)) (h1 : H.Subobject x σ) (h2 : OfClass σ c) (h3 : H.Subobject x ρ) (h4 : OfClass ρ d) :
    Hier.sub σ τ = Hier.sub ρ υ ↔ H.Contains ρ σ ∨ H.Contains σ ρ := by
  unfold composite at he
  split at he
  · rename_i π hπ
    obtain ⟨rfl, rfl⟩ := Prod.mk.inj (Option.some.inj he)
    rw [sub_self h2]
    exact sub_eq_iff hw h1 h2 h4 hπ
  · split at he
    · rename_i π hπ
      obtain ⟨rfl, rfl⟩ := Prod.mk.inj (Option.some.inj he)
      rw [sub_self h4, eq_comm, sub_eq_iff hw h3 h4 h2 hπ, or_comm]
    · cases he

theorem same_part_to {p q : Part} : Comparand.SamePart H (.part p) (.part q) ↔ p.obj = q.obj ∧ (H.Contains q.path p.path ∨ H.Contains p.path q.path) := by
  obtain ⟨o, σ⟩ := p
  obtain ⟨o', ρ⟩ := q
  constructor
  · intro h
    cases h with
    | left h => exact ⟨rfl, .inl h⟩
    | right h => exact ⟨rfl, .inr h⟩
  · rintro ⟨h, h' | h'⟩
    · obtain rfl : o = o' := h
      exact .left h'
    · obtain rfl : o = o' := h
      exact .right h'

/-- When two virtual pointers are comparable and have been given values, `==` is true if and only if both are null, or they point to the same part of the same object (if one has the class of
a base of the other, to the part for that base), and `!=` is its negation. -/
theorem C76_exact (hw : H.WF) (h : l.Comparable H r) (hl : l.Valid H cls) (hr : r.Valid H cls) :
    ∃ b, H.equal l r = some (.ok b) ∧ H.notEqual l r = some (.ok !b) ∧ (b = true ↔ Comparand.SamePart H l.value r.value) := by
  obtain ⟨τ, υ, he, heq⟩ := equal_of_comparable hw h
  have key : ∃ b, samePointer τ υ l.value r.value = .ok b ∧ (b = true ↔ Comparand.SamePart H l.value r.value) := by
    obtain ⟨hl0, hl1⟩ := hl
    obtain ⟨hr0, hr1⟩ := hr
    cases hv : l.value with
    | indeterminate => exact absurd hv hl0
    | null =>
      cases hv' : r.value with
      | indeterminate => exact absurd hv' hr0
      | null => exact ⟨true, rfl, by simpa using Comparand.SamePart.null⟩
      | part q => exact ⟨false, rfl, by simpa using fun h => by cases h⟩
    | part p =>
      cases hv' : r.value with
      | indeterminate => exact absurd hv' hr0
      | null => exact ⟨false, rfl, by simpa using fun h => by cases h⟩
      | part q =>
        refine ⟨_, rfl, ?_⟩
        rw [same_part_to]
        simp only [Bool.and_eq_true, decide_eq_true_eq]
        refine and_congr_right fun ho => ?_
        obtain ⟨h1, h2⟩ := hl1 p hv
        obtain ⟨h3, h4⟩ := hr1 q hv'
        rw [← ho] at h3
        exact converted_iff hw he h1 h2 h3 h4
  obtain ⟨b, hb, hs⟩ := key
  rw [hb] at heq
  exact ⟨b, heq, by unfold notEqual; rw [heq]; rfl, hs⟩

/-- In particular, virtual pointers that are equal are null, or point to the same object. -/
theorem C76_sound (hw : H.WF) (hl : l.Valid H cls) (hr : r.Valid H cls) (h : H.equal l r = some (.ok true)) : Comparand.SameObject l.value r.value := by
  have hc : l.Comparable H r := (C76_accepted hw).1 (by rw [h]; rfl)
  obtain ⟨b, hb, _, hs⟩ := C76_exact hw hc hl hr
  rw [h] at hb
  obtain rfl : true = b := by simpa using hb
  have := hs.1 rfl
  cases hv : l.value <;> cases hv' : r.value <;> rw [hv, hv'] at this
  · cases this
  · cases this
  · cases this
  · cases this
  · exact .null
  · cases this
  · cases this
  · cases this
  · exact .parts (same_part_to.1 this).1

/-- **C76.** Without repeated inheritance in the object, they are equal if and only if they are both null, or point to the same object. -/
theorem C76_partial (hw : H.WF) (h : l.Comparable H r) (hl : l.Valid H cls) (hr : r.Valid H cls) (hn : ∀ p, l.value = .part p → H.NoRepeat (cls p.obj)) :
    ∃ b, H.equal l r = some (.ok b) ∧ H.notEqual l r = some (.ok !b) ∧ (b = true ↔ Comparand.SameObject l.value r.value) := by
  obtain ⟨b, hb, hne, hs⟩ := C76_exact hw h hl hr
  refine ⟨b, hb, hne, fun ht => C76_sound hw hl hr (ht ▸ hb), fun ho => ?_⟩
  obtain ⟨τ, υ, he, heq⟩ := equal_of_comparable hw h
  cases hv : l.value with
  | indeterminate => exact absurd hv hl.1
  | null =>
    rw [hv] at ho
    cases hv' : r.value with
    | null => rw [hs, hv, hv']; exact .null
    | indeterminate => exact absurd hv' hr.1
    | part q => rw [hv'] at ho; cases ho
  | part p =>
    rw [hv] at ho
    cases hv' : r.value with
    | null => rw [hv'] at ho; cases ho
    | indeterminate => exact absurd hv' hr.1
    | part q =>
      rw [hv'] at ho
      obtain ho : p.obj = q.obj := by cases ho; assumption
      obtain ⟨h1, h2⟩ := hl.2 p hv
      obtain ⟨h3, h4⟩ := hr.2 q hv'
      rw [← ho] at h3
      rw [hs, hv, hv', same_part_to]
      refine ⟨ho, ?_⟩
      rcases h.classes with ⟨σ, ⟨h5, h6⟩, _⟩ | ⟨σ, ⟨h5, h6⟩, _⟩
      · refine .inr ?_
        rw [hn p hv _ _ _ h3 (h1.sub h2 h5) h4 (sub_ofClass h2 h6)]
        exact contains_sub h2 h5
      · refine .inl ?_
        rw [hn p hv _ _ _ h1 (h3.sub h4 h5) h2 (sub_ofClass h4 h6)]
        exact contains_sub h4 h5

/-- Comparing is undefined behaviour if and only if one of the virtual pointers has not been given a value. -/
theorem C76_ub (hw : H.WF) (h : l.Comparable H r) : H.equal l r = some .ub ↔ l.value = .indeterminate ∨ r.value = .indeterminate := by
  obtain ⟨τ, υ, he, heq⟩ := equal_of_comparable hw h
  rw [heq]
  cases l.value <;> cases r.value <;> simp [samePointer]

/-- A virtual pointer is equal to itself. -/
theorem C76_refl (hw : H.WF) (hd : H.Defined l.held.elem.cls) (hl : l.Valid H cls) : H.equal l l = some (.ok true) := by
  have hc : l.Comparable H l := by
    refine ⟨rfl, ?_, .inl (unambiguous_self hw hd)⟩
    cases h : l.held with
    | plain e => exact .inl ⟨e, e, rfl, rfl⟩
    | smart k e => exact .inr (.inl ⟨k, e, e, rfl, rfl⟩)
  obtain ⟨b, hb, _, hs⟩ := C76_exact hw hc hl hl
  rw [hb, hs.2]
  cases hv : l.value with
  | indeterminate => exact absurd hv hl.1
  | null => exact .null
  | part p => exact .left .self

/-- The order of the operands does not matter. -/
theorem C76_symm (hw : H.WF) (hl : l.Valid H cls) (hr : r.Valid H cls) : H.equal l r = H.equal r l := by
  have hcomp : l.Comparable H r → r.Comparable H l := by
    rintro ⟨h1, h2, h3⟩
    refine ⟨h1.symm, ?_, h3.symm⟩
    rcases h2 with ⟨e, f, h, h'⟩ | ⟨k, e, f, h, h'⟩ | ⟨e, f, h, h'⟩ | ⟨e, f, h, h'⟩
    · exact .inl ⟨f, e, h', h⟩
    · exact .inr (.inl ⟨k, f, e, h', h⟩)
    · exact .inr (.inr (.inr ⟨f, e, h', h⟩))
    · exact .inr (.inr (.inl ⟨f, e, h', h⟩))
  have hsym : ∀ {a b : Pointer}, Comparand.SamePart H a b → Comparand.SamePart H b a := by
    intro a b h
    cases h with
    | null => exact .null
    | left h => exact .right h
    | right h => exact .left h
  by_cases hc : l.Comparable H r
  · obtain ⟨b, hb, _, hs⟩ := C76_exact hw hc hl hr
    obtain ⟨b', hb', _, hs'⟩ := C76_exact hw (hcomp hc) hr hl
    rw [hb, hb', show b = b' from Bool.eq_iff_iff.2 (hs.trans (⟨hsym, hsym⟩ : _ ↔ _) |>.trans hs'.symm)]
  · have h1 : H.equal l r = none := by
      cases h : H.equal l r with
      | none => rfl
      | some _ => exact absurd ((C76_accepted hw).1 (by rw [h]; rfl)) hc
    have h2 : H.equal r l = none := by
      cases h : H.equal r l with
      | none => rfl
      | some _ =>
        refine absurd ((C76_accepted hw).1 (by rw [h]; rfl)) fun hc' => hc ?_
        obtain ⟨h1, h2, h3⟩ := hc'
        refine ⟨h1.symm, ?_, h3.symm⟩
        rcases h2 with ⟨e, f, h, h'⟩ | ⟨k, e, f, h, h'⟩ | ⟨e, f, h, h'⟩ | ⟨e, f, h, h'⟩
        · exact .inl ⟨f, e, h', h⟩
        · exact .inr (.inl ⟨k, f, e, h', h⟩)
        · exact .inr (.inr (.inr ⟨f, e, h', h⟩))
        · exact .inr (.inr (.inl ⟨f, e, h', h⟩))
    rw [h1, h2]

/-- Without repeated inheritance, two virtual pointers that are equal to the same one are equal, if they can be compared. -/
theorem C76_trans (hw : H.WF) (hn : ∀ o, H.NoRepeat (cls o)) (hl : l.Valid H cls) (hm : m.Valid H cls) (hr : r.Valid H cls) (h1 : H.equal l m = some (.ok true)) (h2 : H.equal m r = some (.ok true))
    (hc : l.Comparable H r) : H.equal l r = some (.ok true) := by
  have a := C76_sound hw hl hm h1
  have b := C76_sound hw hm hr h2
  obtain ⟨x, hx, _, hs⟩ := C76_partial hw hc hl hr fun p _ => hn p.obj
  rw [hx, hs.2]
  generalize l.value = u at a ⊢
  generalize r.value = v at b ⊢
  generalize m.value = w at a b
  cases a with
  | null => exact b
  | parts ho =>
    cases b with
    | parts ho' => exact .parts (ho.trans ho')

/-! ## Repeated inheritance -/

/-- Class 5 has bases 3 and 4, each of which has a base 2, which has a virtual base 1. -/
def ancestors : Hier := [(5, [(3, false), (4, false)]), (4, [(2, false)]), (3, [(2, false)]), (2, [(1, true)]), (1, [])]

theorem ancestors_wf : ancestors.WF := by
  refine ⟨⟨⟨⟨⟨trivial, ?_, ?_⟩, ?_, ?_⟩, ?_, ?_⟩, ?_, ?_⟩, ?_, ?_⟩ <;> simp [Hier.Defined]

/-- A plain virtual pointer to a part of object 0, of the class that comes last in the path. -/
def toPart (path : Path) (c : Cls) : Comparand := ⟨.plain ⟨c, false⟩, 0, .part ⟨0, path⟩⟩

theorem toPart_valid {H : Hier} (hw : H.WF) {x c : Cls} {σ : Path} (h : H.occ x c = [σ] ∨ σ ∈ H.occ x c) : (toPart σ c).Valid H fun _ => x := by
  refine ⟨by simp [toPart], fun p hp => ?_⟩
  obtain rfl := Pointer.part.inj hp
  rcases h with h | h
  · exact (mem_occ hw).1 (h ▸ List.mem_singleton_self _)
  · exact (mem_occ hw).1 h

/-- With repeated inheritance, comparisons are not transitive: a pointer to the 2 in 4, and a pointer to the 3, are both equal to a pointer to the 1, but they are not equal. All point to the same
object, contrary to the documentation of `==`. -/
theorem C76_not_transitive : ¬ ∀ (H : Hier) (x : Cls) (l m r : Comparand), H.WF → H.Defined x → l.Valid H (fun _ => x) → m.Valid H (fun _ => x) → r.Valid H (fun _ => x) →
    H.equal l m = some (.ok true) → H.equal m r = some (.ok true) → l.Comparable H r → H.equal l r = some (.ok true) := by
  intro h
  have := h ancestors 5 (toPart [5, 4, 2] 2) (toPart [1] 1) (toPart [5, 3] 3) ancestors_wf ⟨_, .head _⟩ (toPart_valid ancestors_wf (.inr (by decide +kernel)))
    (toPart_valid ancestors_wf (.inr (by decide +kernel))) (toPart_valid ancestors_wf (.inr (by decide +kernel))) (by decide +kernel) (by decide +kernel)
    ((C76_accepted ancestors_wf).1 (by decide +kernel))
  exact absurd this (by decide +kernel)

/-- "`true` if both point to the same object" (core.hpp 1820-1821) is not so: pointers to two bases of the same class in one object. -/
theorem C76_refuted : ¬ ∀ (H : Hier) (x : Cls) (l r : Comparand), H.WF → H.Defined x → l.Valid H (fun _ => x) → r.Valid H (fun _ => x) → l.Comparable H r →
    Comparand.SameObject l.value r.value → H.equal l r = some (.ok true) := by
  intro h
  have := h ancestors 5 (toPart [5, 4, 2] 2) (toPart [5, 3, 2] 2) ancestors_wf ⟨_, .head _⟩ (toPart_valid ancestors_wf (.inr (by decide +kernel)))
    (toPart_valid ancestors_wf (.inr (by decide +kernel))) ((C76_accepted ancestors_wf).1 (by decide +kernel)) (.parts rfl)
  exact absurd this (by decide +kernel)

/-! ## Concrete cases -/

/-- A pointer to the 1 in an object of class 1, and to the 0 in it. -/
example : zoo.equal (toPart [1] 1) (toPart [1, 0] 0) = some (.ok true) ∧ zoo.notEqual (toPart [1, 0] 0) (toPart [1] 1) = some (.ok false) := by decide +kernel

example : ∃ b, zoo.equal (toPart [1] 1) (toPart [1, 0] 0) = some (.ok b) ∧ zoo.notEqual (toPart [1] 1) (toPart [1, 0] 0) = some (.ok !b) ∧
    (b = true ↔ Comparand.SamePart zoo (.part ⟨0, [1]⟩) (.part ⟨0, [1, 0]⟩)) :=
  C76_exact (l := toPart [1] 1) (r := toPart [1, 0] 0) zoo_wf ((C76_accepted zoo_wf).1 (by decide +kernel)) (toPart_valid (x := 1) zoo_wf (.inr (by decide +kernel)))
    (toPart_valid zoo_wf (.inr (by decide +kernel)))

/-- A different object, and null. -/
example : zoo.equal (toPart [1] 1) ⟨.smart .intrusive ⟨0, true⟩, 0, .part ⟨1, [1, 0]⟩⟩ = some (.ok false) ∧ zoo.equal (toPart [1] 1) ⟨.plain ⟨0, false⟩, 0, .null⟩ = some (.ok false) ∧
    zoo.equal ⟨.smart .shared ⟨1, false⟩, 0, .null⟩ ⟨.smart .shared ⟨0, true⟩, 0, .null⟩ = some (.ok true) := by decide +kernel

/-- Not accepted: unrelated classes; a plain virtual pointer with one that holds a `std::shared_ptr`; different registries; an ambiguous base. -/
example : zoo.equal (toPart [1] 1) (toPart [2] 2) = none ∧ zoo.equal (toPart [1] 1) ⟨.smart .shared ⟨1, false⟩, 0, .null⟩ = none ∧ zoo.equal (toPart [1] 1) ⟨.plain ⟨1, false⟩, 1, .null⟩ = none ∧
    ancestors.equal (toPart [5] 5) (toPart [5, 3, 2] 2) = none := by decide +kernel

end OpenMethod.Props

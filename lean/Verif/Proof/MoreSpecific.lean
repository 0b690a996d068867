import Verif.Spec
import Verif.Proof.Classes
import Verif.Proof.Methods
import Verif.Model.Dispatch

/-! # `is_more_specific` computes the documented relation -/

namespace OpenMethod

open Spec Relation

/-- Componentwise reading of the loop of `is_more_specific`, for a relation that is never symmetric. -/
theorem moreSpecificLoop_eq_true (td : Cls → List Cls) (xs ys : List Cls) (hl : xs.length = ys.length)
    (has : ∀ x ∈ xs, ∀ y ∈ ys, x ≠ y → x ∈ td y → y ∉ td x) (res : Bool) :
    moreSpecificLoop td res xs ys = true ↔
      (res = true ∨ ∃ (i : Nat) (x y : Cls), xs[i]? = some x ∧ ys[i]? = some y ∧ x ≠ y ∧ x ∈ td y) ∧
      ∀ (i : Nat) (x y : Cls), xs[i]? = some x → ys[i]? = some y → ¬ (x ≠ y ∧ y ∈ td x) := by
  induction xs generalizing ys res with
  | nil => simp [moreSpecificLoop]
  | cons x xs ih =>
    cases ys with
    | nil => simp at hl
    | cons y ys =>
      have ih' := fun r => ih ys (by simpa using hl) (fun a ha b hb => has a (by simp [ha]) b (by simp [hb])) r
      have hsplit : ∀ (P : Nat → Prop), (∃ i, P i) ↔ P 0 ∨ ∃ i, P (i + 1) := by
        intro P
        constructor
        · rintro ⟨_ | i, h⟩
          · exact .inl h
          · exact .inr ⟨i, h⟩
        · rintro (h | ⟨i, h⟩) <;> exact ⟨_, h⟩
      have hsplit' : ∀ (P : Nat → Prop), (∀ i, P i) ↔ P 0 ∧ ∀ i, P (i + 1) := by
        intro P
        constructor
        · exact fun h => ⟨h 0, fun i => h (i + 1)⟩
        · rintro ⟨h0, h1⟩ (_ | i)
          · exact h0
          · exact h1 i
      rw [hsplit, hsplit']
      simp only [List.getElem?_cons_zero, List.getElem?_cons_succ, Option.some.injEq]
      have e1 : (∃ x_1 y_1, x = x_1 ∧ y = y_1 ∧ x_1 ≠ y_1 ∧ x_1 ∈ td y_1) ↔ x ≠ y ∧ x ∈ td y := by
        constructor
        · rintro ⟨_, _, rfl, rfl, h⟩; exact h
        · exact fun h => ⟨x, y, rfl, rfl, h⟩
      have e2 : (∀ x_1 y_1, x = x_1 → y = y_1 → ¬ (x_1 ≠ y_1 ∧ y_1 ∈ td x_1)) ↔ ¬ (x ≠ y ∧ y ∈ td x) := by
        constructor
        · exact fun h => h x y rfl rfl
        · rintro h _ _ rfl rfl; exact h
      rw [e1, e2]
      unfold moreSpecificLoop
      split
      · rename_i hne
        have hne' : x ≠ y := hne
        split
        · rename_i hin
          have hnot := has x (by simp) y (by simp) hne' hin
          rw [ih' true]
          simp only [true_or, true_and, ne_eq, hne', not_false_eq_true, hin, or_true, hnot, and_false]
        · rename_i hnin
          split
          · rename_i hin
            simp [hne', hin]
          · rename_i hnin'
            rw [ih' res]
            simp only [ne_eq, hne', not_false_eq_true, hnin, and_false, false_or, hnin', true_and]
      · rename_i he
        rw [ih' res]
        simp only [ne_eq, he, false_and, false_or, not_false_eq_true, true_and]

/-- What is needed of the lattice to compare overriders. -/
theorem isMoreSpecific_iff {p : Program} {L : Lattice} (hL : LatticeOk p L) (hac : Acyclic p) (a b : OverriderInfo)
    (hl : a.vp.length = b.vp.length) (ha : ∀ t ∈ a.vp, p.rtti.ti t ∈ L.order) (hb : ∀ t ∈ b.vp, p.rtti.ti t ∈ L.order) :
    isMoreSpecific L.td (classesOf p a.vp) (classesOf p b.vp) = true ↔ MoreSpecific p a b := by
  have ha' : ∀ x ∈ classesOf p a.vp, x ∈ L.order := by
    intro x hx
    obtain ⟨t, ht, rfl⟩ := List.mem_map.1 hx
    exact ha t ht
  have hb' : ∀ x ∈ classesOf p b.vp, x ∈ L.order := by
    intro x hx
    obtain ⟨t, ht, rfl⟩ := List.mem_map.1 hx
    exact hb t ht
  unfold isMoreSpecific
  rw [moreSpecificLoop_eq_true]
  · unfold MoreSpecific ProperlyDerives
    simp only [Bool.false_eq_true, false_or]
    constructor
    · rintro ⟨⟨i, x, y, hx, hy, hne, hin⟩, h⟩
      refine ⟨⟨i, x, y, hx, hy, ?_, hne⟩, ?_⟩
      · exact (hL.mem_td y (hb' y (List.mem_of_getElem? hy)) x).1 hin
      · rintro i x y hx hy ⟨hd, hne⟩
        exact h i x y hx hy ⟨Ne.symm hne, (hL.mem_td x (ha' x (List.mem_of_getElem? hx)) y).2 hd⟩
    · rintro ⟨⟨i, x, y, hx, hy, hin, hne⟩, h⟩
      refine ⟨⟨i, x, y, hx, hy, hne, ?_⟩, ?_⟩
      · exact (hL.mem_td y (hb' y (List.mem_of_getElem? hy)) x).2 hin
      · rintro i x y hx hy ⟨hne, hd⟩
        exact h i x y hx hy ⟨(hL.mem_td x (ha' x (List.mem_of_getElem? hx)) y).1 hd, Ne.symm hne⟩
  · simpa [classesOf] using hl
  · intro x hx y hy hne hin hin'
    have h1 := (hL.mem_td y (hb' y hy) x).1 hin
    have h2 := (hL.mem_td x (ha' x hx) y).1 hin'
    exact hne (hac x y h1 h2)

/-- The method `m` is well formed, and all it mentions is registered: what `augment` has checked. -/
structure MethOk (p : Program) (L : Lattice) (m : MethodInfo) : Prop where
  wf : m.WF
  vp : ∀ t ∈ m.vp, p.rtti.ti t ∈ L.order
  ovp : ∀ o ∈ m.overriders, ∀ t ∈ o.vp, p.rtti.ti t ∈ L.order
  conf : ∀ o ∈ m.overriders, List.Forall₂ (fun t v => Derives p (p.rtti.ti t) (p.rtti.ti v)) o.vp m.vp
  oret : ∀ o ∈ m.overriders, (methodRet p.rtti L m.ret).isSome → p.rtti.ti o.ret ∈ L.order

theorem methOk_of_augment {p : Program} {L : Lattice} (hL : LatticeOk p L) {ms : List MethodInfo} {ms' : List Meth}
    (h : augment p.rtti L ms = .ok ms') (hwf : ∀ m ∈ ms, m.WF) : ∀ m ∈ ms, MethOk p L m := by
  obtain ⟨_, h1, h2⟩ := augment_ok.1 h
  intro m hm
  refine ⟨hwf m hm, fun t ht => h1 m hm t (.inl ht), fun o ho t ht => h1 m hm t (.inr ⟨o, ho, .inl ht⟩), ?_,
    fun o ho hs => h1 m hm _ (.inr ⟨o, ho, .inr ⟨rfl, hs⟩⟩)⟩
  intro o ho
  rw [List.forall₂_iff_get]
  have hlen := (hwf m hm).overriders o ho
  refine ⟨hlen, ?_⟩
  intro i hi hi'
  have hv : m.vp[i]? = some m.vp[i] := List.getElem?_eq_getElem hi'
  obtain ⟨t, ht, hd⟩ := h2 m hm i _ hv o ho
  have ht' : o.vp[i] = t := by rw [List.getElem?_eq_getElem hi] at ht; exact Option.some.inj ht
  simp only [List.get_eq_getElem]
  rw [ht']
  rcases hd with hd | hd
  · rw [hd]; exact .refl
  · exact (hL.mem_td _ (h1 m hm _ (.inl (List.mem_of_getElem? hv))) _).1 hd

theorem toMeth_overrider {r : Rtti} {L : Lattice} {m : MethodInfo} {i : Nat} {o : OverriderInfo}
    (h : m.overriders[i]? = some o) :
    (toMeth r L m).overriders[i]? =
      some { info := o, vp := o.vp.map r.ti, ret := (methodRet r L m.ret).map fun _ => r.ti o.ret } := by
  simp [toMeth, h]

theorem toMeth_overrider_none {r : Rtti} {L : Lattice} {m : MethodInfo} {i : Nat} (h : m.overriders[i]? = none) :
    (toMeth r L m).overriders[i]? = none := by
  simp only [toMeth, List.getElem?_map, h, Option.map_none]

theorem moreAt_iff {p : Program} {L : Lattice} (hL : LatticeOk p L) (hac : Acyclic p) {m : MethodInfo} (hm : MethOk p L m)
    (i j : Nat) : moreAt L (toMeth p.rtti L m).overriders i j = true ↔ Dominates p m i j := by
  unfold moreAt Dominates
  cases hi : m.overriders[i]? with
  | none => simp [toMeth_overrider_none hi]
  | some a =>
    rw [toMeth_overrider hi]
    cases hj : m.overriders[j]? with
    | none => simp [toMeth_overrider_none hj]
    | some b =>
      rw [toMeth_overrider hj]
      have hia := List.mem_of_getElem? hi
      have hjb := List.mem_of_getElem? hj
      simp only [Option.some.injEq, exists_and_left, exists_eq_left']
      exact isMoreSpecific_iff hL hac a b (by rw [hm.wf.overriders a hia, hm.wf.overriders b hjb]) (hm.ovp a hia) (hm.ovp b hjb)

theorem moreSpecific_irrefl {p : Program} (a : OverriderInfo) : ¬ MoreSpecific p a a := by
  rintro ⟨⟨i, x, y, hx, hy, hd, hne⟩, _⟩
  exact hne (Option.some.inj (hx.symm.trans hy))

theorem moreSpecific_asymm {p : Program} {a b : OverriderInfo} (h : MoreSpecific p a b) : ¬ MoreSpecific p b a := by
  rintro ⟨⟨i, x, y, hx, hy, hd⟩, _⟩
  exact h.2 i y x hy hx hd

theorem dominates_irrefl {p : Program} (m : MethodInfo) (i : Nat) : ¬ Dominates p m i i := by
  rintro ⟨a, b, ha, hb, h⟩
  obtain rfl := Option.some.inj (ha.symm.trans hb)
  exact moreSpecific_irrefl a h

theorem dominates_asymm {p : Program} {m : MethodInfo} {i j : Nat} (h : Dominates p m i j) : ¬ Dominates p m j i := by
  obtain ⟨a, b, ha, hb, h⟩ := h
  rintro ⟨b', a', hb', ha', h'⟩
  obtain rfl := Option.some.inj (ha.symm.trans ha')
  obtain rfl := Option.some.inj (hb.symm.trans hb')
  exact moreSpecific_asymm h h'

theorem moreAt_irrefl (L : Lattice) (os : List Ovr) (i : Nat) : moreAt L os i i = false := by
  unfold moreAt
  cases os[i]? with
  | none => rfl
  | some a =>
    dsimp only [isMoreSpecific]
    have : ∀ l, moreSpecificLoop L.td false l l = false := by
      intro l
      induction l with
      | nil => rfl
      | cons x l ih => unfold moreSpecificLoop; simpa using ih
    exact this _

end OpenMethod

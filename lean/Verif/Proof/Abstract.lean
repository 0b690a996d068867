import Verif.Model.Call
import Verif.Proof.RetElim
import Mathlib.Data.List.Forall2

/-! # `is_abstract` is not used -/

namespace OpenMethod

/-- The same lattice with other abstract classes. -/
def Lattice.withAbs (L : Lattice) (f : Cls → Bool) : Lattice := { L with isAbstract := f }

theorem findClasses_abs (r : Rtti) (L : Lattice) (f : Cls → Bool) (ts : List TypeId) :
    findClasses r (L.withAbs f) ts = findClasses r L ts := by
  induction ts with
  | nil => rfl
  | cons t ts ih => rw [findClasses, findClasses, ih]; rfl

theorem augmentOverriders_abs (r : Rtti) (L : Lattice) (f : Cls → Bool) (mret : Option Cls) (os : List OverriderInfo) :
    augmentOverriders r (L.withAbs f) mret os = augmentOverriders r L mret os := by
  induction os with
  | nil => rfl
  | cons o os ih =>
    rw [augmentOverriders, augmentOverriders, ih, augmentOverrider, augmentOverrider, findClasses_abs]
    rfl

theorem augmentMethods_abs (r : Rtti) (L : Lattice) (f : Cls → Bool) (ms : List MethodInfo) :
    augmentMethods r (L.withAbs f) ms = augmentMethods r L ms := by
  induction ms with
  | nil => rfl
  | cons m ms ih =>
    rw [augmentMethods, augmentMethods, ih, augmentMethod, augmentMethod, findClasses_abs]
    simp only [augmentOverriders_abs]
    rfl

theorem augment_abs (r : Rtti) (L : Lattice) (f : Cls → Bool) (ms : List MethodInfo) : augment r (L.withAbs f) ms = augment r L ms := by
  unfold augment
  rw [augmentMethods_abs]
  rfl

theorem assignTree_abs (L : Lattice) (f : Cls → Bool) (u : Cls → List (Nat × Nat)) (fuel : Nat) :
    assignTree (L.withAbs f) u fuel = assignTree L u fuel := by
  induction fuel with
  | zero => rfl
  | succ n ih =>
    funext s c base
    rw [assignTree, assignTree, ih]
    rfl

theorem assignLattice_abs (pl : Platform) (L : Lattice) (f : Cls → Bool) (u : Cls → List (Nat × Nat)) (fuel : Nat) :
    assignLattice pl (L.withAbs f) u fuel = assignLattice pl L u fuel := by
  induction fuel with
  | zero => rfl
  | succ n ih =>
    funext s c
    rw [assignLattice, assignLattice, ih]
    rfl

theorem assignSlots_abs (pl : Platform) (L : Lattice) (f : Cls → Bool) (u : Cls → List (Nat × Nat)) :
    assignSlots pl (L.withAbs f) u = assignSlots pl L u := by
  have : assignRoot pl (L.withAbs f) u = assignRoot pl L u := by
    funext s c
    unfold assignRoot
    rw [assignTree_abs, assignLattice_abs]
    rfl
  unfold assignSlots
  rw [this]
  rfl

theorem buildMethods_abs (pl : Platform) (n : Bool) (L : Lattice) (f : Cls → Bool) (ms : List Meth) :
    buildMethods pl n (L.withAbs f) ms = buildMethods pl n L ms := by
  induction ms with
  | nil => rfl
  | cons m ms ih => rw [buildMethods, buildMethods, ih]; rfl

/-- Records that differ only by `is_abstract`. -/
def SameButAbstract (a b : ClassInfo) : Prop := b.type = a.type ∧ b.bases = a.bases ∧ b.staticVptr = a.staticVptr

theorem addClass_abs (r : Rtti) (s : Lattice) (f : Cls → Bool) {a b : ClassInfo} (h : SameButAbstract a b) :
    ∃ g, addClass r (s.withAbs f) b = (addClass r s a).withAbs g := by
  obtain ⟨h1, h2, h3⟩ := h
  unfold addClass
  dsimp only
  rw [h1, h3]
  by_cases hc : r.ti a.type ∈ s.order
  · rw [if_pos hc, if_pos (show r.ti a.type ∈ (s.withAbs f).order from hc)]
    by_cases ht : a.type ∈ s.typeIds (r.ti a.type)
    · rw [if_pos ht, if_pos (show a.type ∈ (s.withAbs f).typeIds (r.ti a.type) from ht)]
      exact ⟨f, rfl⟩
    · rw [if_neg ht, if_neg (show a.type ∉ (s.withAbs f).typeIds (r.ti a.type) from ht)]
      exact ⟨f, rfl⟩
  · rw [if_neg hc, if_neg (show r.ti a.type ∉ (s.withAbs f).order from hc)]
    by_cases ht : a.type ∈ s.typeIds (r.ti a.type)
    · rw [if_pos ht, if_pos (show a.type ∈ (s.withAbs f).typeIds (r.ti a.type) from ht)]
      exact ⟨_, rfl⟩
    · rw [if_neg ht, if_neg (show a.type ∉ (s.withAbs f).typeIds (r.ti a.type) from ht)]
      exact ⟨_, rfl⟩

theorem addClasses_abs (r : Rtti) {as bs : List ClassInfo} (h : List.Forall₂ SameButAbstract as bs) (s : Lattice) (f : Cls → Bool) :
    ∃ g, bs.foldl (addClass r) (s.withAbs f) = (as.foldl (addClass r) s).withAbs g := by
  induction h generalizing s f with
  | nil => exact ⟨f, rfl⟩
  | cons hab _ ih =>
    obtain ⟨g, hg⟩ := addClass_abs r s f hab
    rw [List.foldl_cons, List.foldl_cons, hg]
    exact ih _ g

theorem addBase_abs (r : Rtti) (c : Cls) (s : Lattice) (f : Cls → Bool) (t : TypeId) :
    addBase r c (s.withAbs f) t = Res.map (fun s => s.withAbs f) (addBase r c s t) := by
  unfold addBase
  dsimp only
  by_cases h : r.ti t ∈ s.order
  · rw [if_neg (not_not.2 h), if_neg (not_not.2 (show r.ti t ∈ (s.withAbs f).order from h))]
    split <;> rfl
  · rw [if_pos h, if_pos (show r.ti t ∉ (s.withAbs f).order from h)]
    rfl

theorem foldlM_abs {α : Type} (g : Lattice → α → Res Lattice) (f : Cls → Bool)
    (hg : ∀ s a, g (s.withAbs f) a = Res.map (fun s => s.withAbs f) (g s a)) (l : List α) (s : Lattice) :
    l.foldlM g (s.withAbs f) = Res.map (fun s => s.withAbs f) (l.foldlM g s) := by
  induction l generalizing s with
  | nil => rfl
  | cons a l ih =>
    rw [List.foldlM_cons, List.foldlM_cons, hg]
    cases g s a with
    | ok s' => simp only [Res.map_ok, Res.ok_bind]; exact ih s'
    | err e => rfl
    | ub => rfl

theorem addBases_list (r : Rtti) {as bs : List ClassInfo} (h : List.Forall₂ SameButAbstract as bs) (s : Lattice) :
    bs.foldlM (addBases r) s = as.foldlM (addBases r) s := by
  induction h generalizing s with
  | nil => rfl
  | cons hab _ ih =>
    rw [List.foldlM_cons, List.foldlM_cons]
    have : addBases r s = addBases r s := rfl
    unfold addBases at *
    rw [hab.1, hab.2.1]
    congr 1
    funext s'
    exact ih s'

theorem augmentClasses_abs (pl : Platform) (r : Rtti) {as bs : List ClassInfo} (h : List.Forall₂ SameButAbstract as bs) :
    ∃ g, augmentClasses pl r bs = Res.map (fun L => L.withAbs g) (augmentClasses pl r as) := by
  obtain ⟨g, hg⟩ := addClasses_abs r h Lattice.empty (fun _ => false)
  refine ⟨g, ?_⟩
  have hg' : bs.foldl (addClass r) Lattice.empty = (as.foldl (addClass r) Lattice.empty).withAbs g := hg
  unfold augmentClasses
  dsimp only
  rw [hg', addBases_list r h, foldlM_abs (addBases r) g (fun s a => foldlM_abs _ g (fun s t => addBase_abs r _ s g t) _ s)]
  cases as.foldlM (addBases r) (as.foldl (addClass r) Lattice.empty) <;> rfl

/-- `initialize` does the same whatever classes are abstract. -/
theorem install_abs (pl : Platform) (n : Bool) (p : Program) {bs : List ClassInfo} (h : List.Forall₂ SameButAbstract p.classes bs) (gen : Nat) :
    install pl n { p with classes := bs } gen = install pl n p gen := by
  obtain ⟨g, hg⟩ := augmentClasses_abs pl p.rtti h
  unfold install compile
  dsimp only
  rw [hg]
  cases augmentClasses pl p.rtti p.classes with
  | err e => rfl
  | ub => rfl
  | ok L =>
    simp only [Res.map_ok, Res.ok_bind, augment_abs]
    cases augment p.rtti L p.methods with
    | err e => rfl
    | ub => rfl
    | ok ms =>
      simp only [Res.ok_bind, assignSlots_abs, buildMethods_abs]
      rw [show allWrites pl (L.withAbs g) (assignSlots pl L (usedByVp ms)).slots ms = allWrites pl L (assignSlots pl L (usedByVp ms)).slots ms from rfl]
      cases List.foldlM (writeEntry (assignSlots pl L (usedByVp ms)).first)
        (fun c => List.replicate ((assignSlots pl L (usedByVp ms)).size c) ({ method := 0, vp := 0, group := 0 } : Entry))
        (allWrites pl L (assignSlots pl L (usedByVp ms)).slots ms) with
      | err e => rfl
      | ub => rfl
      | ok vt =>
        simp only [Res.ok_bind]
        cases buildMethods pl n L ms with
        | err e => rfl
        | ub => rfl
        | ok ts => rfl

end OpenMethod

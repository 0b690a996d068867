import Verif.Model.N2216All
import Verif.Proof.N2216
import Verif.Proof.Corrected

/-! # Option `n2216` with all corrections -/

namespace OpenMethod

open Spec

/-! ## Without corrections -/

theorem selectBy_library : selectBy false false = selectDominant true := rfl

theorem nextOfBy_library : nextOfBy false false = nextOf true := by
  funext more ret td os ds
  simp [nextOfBy, nextOf, selectBy_library]

theorem evalCellBy_library : evalCellBy false false = evalCell true := by
  funext more ret td mask
  simp [evalCellBy, evalCell, selectBy_library, nextOfBy_library]

theorem evalCellsBy_library (more : Nat → Nat → Bool) (ret : Nat → Option Cls) (td : Cls → List Cls) (masks : List Mask) :
    evalCellsBy false false more ret td masks = evalCells true more ret td masks := by
  induction masks with
  | nil => rfl
  | cons m ms ih => rw [evalCellsBy, evalCells, ih, evalCellBy_library]

theorem buildMethodsBy_library (pl : Platform) (L : Lattice) (ms : List Meth) : buildMethodsBy false false pl L ms = buildMethods pl true L ms := by
  induction ms with
  | nil => rfl
  | cons m ms ih =>
    rw [buildMethodsBy, buildMethods, ih]
    unfold buildMethodBy buildMethod
    simp only [evalCellsBy_library]

/-! ## With corrections -/

theorem alive_filter (g : Nat → Bool) (l : List (Option Nat)) :
    alive (l.map fun o => o.bind fun j => if (!g j) = true then none else some j) = (alive l).filter g := by
  induction l with
  | nil => rfl
  | cons o l ih =>
    cases o with
    | none => simpa using ih
    | some a =>
      rw [List.map_cons, alive_some, List.filter_cons, ← ih]
      cases hg : g a <;> simp [hg]

theorem alive_keepUndominated (more : Nat → Nat → Bool) (l : List (Option Nat)) : alive (keepUndominated more l) = keepBest more (alive l) := by
  have hany : ∀ j, (l.any fun o => o.any fun i => more i j) = !((alive l).all fun i => !more i j) := by
    intro j
    rw [Bool.eq_iff_iff]
    simp only [List.any_eq_true, Option.any_eq_true, Bool.not_eq_true', ← Bool.not_eq_true, List.all_eq_true, mem_alive]
    constructor
    · rintro ⟨o, ho, i, rfl, h⟩ hall
      exact hall i ho h
    · intro h
      by_contra hne
      exact h fun i hi him => hne ⟨some i, hi, i, rfl, him⟩
  unfold keepUndominated keepBest
  simp only [hany]
  exact alive_filter _ l

theorem keepUndominated_elim (more : Nat → Nat → Bool) (l : List (Option Nat)) : Elim l (keepUndominated more l) := by
  unfold keepUndominated Elim
  have : ∀ g : Nat → Bool, List.Forall₂ (fun o o' => o' = o ∨ o' = none) l (l.map fun o => o.bind fun j => if g j = true then none else some j) := by
    intro g
    rw [List.forall₂_map_right_iff, List.forall₂_same]
    intro o _
    cases o with
    | none => exact .inl rfl
    | some a => by_cases h : g a = true <;> simp [h]
  exact this _

theorem selectBy_ok (more : Nat → Nat → Bool) (ret : Nat → Option Cls) (td : Cls → List Cls) (l : List (Option Nat)) (hu : Uniform ret (alive l))
    (hnd : (alive l).Nodup) :
    ∃ s left, selectBy true true more ret td l = .ok s ∧ SelOk l left s ∧ left.Sublist (keepBest more (alive l)) ∧
      ∀ x ∈ keepBest more (alive l), (∀ y ∈ keepBest more (alive l), (ret y).isSome) → (∀ y ∈ keepBest more (alive l), y ≠ x → Beats ret td x y) → left = [x] := by
  have hE := keepUndominated_elim more l
  have hal := alive_keepUndominated more l
  unfold selectBy
  simp only [if_true]
  rw [remainingOf_eq, ← hal]
  generalize keepUndominated more l = l1 at *
  have hsub := hE.alive_sublist
  have hnd1 := hsub.nodup hnd
  by_cases h1 : (alive l1).length ≤ 1
  · rw [if_pos h1]
    refine ⟨_, _, rfl, ⟨hE, rfl, rfl, fun h => pickOf_last _ h⟩, .refl _, fun x hx _ _ => ?_⟩
    match hl : alive l1, h1 with
    | [], _ => rw [hl] at hx; simp at hx
    | [a], _ => rw [hl] at hx; simp at hx; rw [hx]
  · rw [if_neg h1]
    have hne : alive l1 ≠ [] := by intro h0; rw [h0] at h1; simp at h1
    rw [pickOf_last l1 hne]
    obtain ⟨p, hp⟩ : ∃ p, (alive l1).getLast? = some p := ⟨_, List.getLast?_eq_some_getLast hne⟩
    have hpm := List.mem_of_getLast? hp
    rw [hp]
    simp only [Res.ofOption_some, Res.ok_bind]
    rcases hu.mono (fun x hx => hsub.subset hx) with hu | hu
    · rw [if_neg (by have := hu p hpm; simp only [Option.isNone_iff_eq_none]; intro h; rw [h] at this; simp at this)]
      obtain ⟨l', h2, h3, h4, h5⟩ := eliminateRetB_ok ret td l1.length l1 le_rfl hu hnd1
      rw [h2]
      have hne2 := h4 hne
      refine ⟨_, alive l', rfl, ⟨hE.trans h3, rfl, remainingOf_eq _, fun h => ?_⟩, h3.alive_sublist, fun x hx _ hb => h5 x hx hb⟩
      dsimp only
      rw [if_neg (by rw [remainingOf_eq]; intro h0; exact hne2 (List.eq_nil_of_length_eq_zero h0))]
      exact pickOf_last _ h
    · rw [if_pos (by rw [hu p hpm]; rfl)]
      refine ⟨_, _, rfl, ⟨hE, rfl, rfl, fun h => pickOf_last _ h⟩, .refl _, fun x hx hs _ => ?_⟩
      have := hs x hx
      rw [hu x hx] at this
      simp at this

theorem nextOfBy_ok (more : Nat → Nat → Bool) (ret : Nat → Option Cls) (td : Cls → List Cls) (xs : List Nat) (hn : xs.Nodup) (hu : Uniform ret xs)
    (d : List (Option Nat)) (he : Elim (xs.map some) d) : ∃ c, nextOfBy true true more ret td (xs.map some) d = .ok c := by
  have hal' := alive_withoutDominants xs hn d he
  unfold nextOfBy
  dsimp only
  rw [remainingOf_eq]
  split
  · exact ⟨_, rfl⟩
  · obtain ⟨s, left, h1, S, _, _⟩ := selectBy_ok more ret td (withoutDominants (xs.map some) d)
      (by rw [hal']; exact hu.mono (fun x hx => (List.mem_filter.1 hx).1)) (by rw [hal']; exact hn.filter _)
    rw [h1, Res.ok_bind, S.remaining, Bool.true_and]
    by_cases h0 : left.length = 0
    · rw [if_pos (by simpa using h0)]
      exact ⟨_, rfl⟩
    · rw [if_neg (by simpa using h0)]
      have hne : left ≠ [] := by rintro rfl; exact h0 rfl
      obtain ⟨o, ho⟩ : ∃ x, left.getLast? = some x := ⟨_, List.getLast?_eq_some_getLast hne⟩
      rw [S.pick hne, ho]
      exact ⟨_, rfl⟩

/-- What a cell holds. -/
structure CellBy (more : Nat → Nat → Bool) (ret : Nat → Option Cls) (td : Cls → List Cls) (cands : List Nat) (c : Cell) : Prop where
  amb : c ≠ .ambiguous
  ovr : ∀ o, c = .ovr o → o ∈ keepBest more cands
  best : ∀ x ∈ keepBest more cands, (∀ y ∈ keepBest more cands, (ret y).isSome) → (∀ y ∈ keepBest more cands, y ≠ x → Beats ret td x y) → c = .ovr x

theorem evalCellBy_ok (more : Nat → Nat → Bool) (ret : Nat → Option Cls) (td : Cls → List Cls) (mask : Mask) (hu : Uniform ret (setBits mask)) :
    ∃ r, evalCellBy true true more ret td mask = .ok r ∧ CellBy more ret td (setBits mask) r.cell := by
  have hal : alive (candidatesOf mask) = setBits mask := by rw [candidatesOf_eq, alive_map_some]
  obtain ⟨s, left, h1, S, h2, h4⟩ := selectBy_ok more ret td (candidatesOf mask) (by rw [hal]; exact hu) (by rw [hal]; exact setBits_nodup mask)
  rw [hal] at h2 h4
  unfold evalCellBy
  dsimp only
  rw [h1, Res.ok_bind, S.remaining]
  by_cases h0 : left.length = 0
  · rw [if_pos h0]
    obtain rfl := List.eq_nil_of_length_eq_zero h0
    exact ⟨_, rfl, by simp, by simp, fun x hx hs hb => absurd (h4 x hx hs hb) (by simp)⟩
  · rw [if_neg h0]
    have hne : left ≠ [] := by rintro rfl; exact h0 rfl
    obtain ⟨o, ho⟩ : ∃ x, left.getLast? = some x := ⟨_, List.getLast?_eq_some_getLast hne⟩
    obtain ⟨c, hc⟩ := nextOfBy_ok more ret td (setBits mask) (setBits_nodup mask) hu s.cands (by rw [← candidatesOf_eq]; exact S.elim)
    rw [S.pick hne, ho, Res.ofOption_some, Res.ok_bind, candidatesOf_eq, hc]
    have hom := List.mem_of_getLast? ho
    refine ⟨_, rfl, by simp, fun o' h => ?_, fun x hx hs hb => ?_⟩
    · obtain rfl := Cell.ovr.inj h
      exact h2.subset hom
    · rw [h4 x hx hs hb] at ho
      simp at ho
      rw [ho]

theorem evalCellsBy_ok (more : Nat → Nat → Bool) (ret : Nat → Option Cls) (td : Cls → List Cls) (masks : List Mask)
    (hu : ∀ mask ∈ masks, Uniform ret (setBits mask)) :
    ∃ rs, evalCellsBy true true more ret td masks = .ok rs ∧ List.Forall₂ (fun mask r => CellBy more ret td (setBits mask) r.cell) masks rs := by
  induction masks with
  | nil => exact ⟨[], rfl, .nil⟩
  | cons m ms ih =>
    obtain ⟨r, h1, h2⟩ := evalCellBy_ok more ret td m (hu m (by simp))
    obtain ⟨rs, h3, h4⟩ := ih (fun mask hm => hu mask (by simp [hm]))
    exact ⟨r :: rs, by simp [evalCellsBy, h1, h3], .cons h2 h4⟩

/-- What the table of a method holds. -/
structure TableBy (pl : Platform) (L : Lattice) (m : Meth) (t : MethTable) : Prop extends TableBase pl L m t where
  cell : ∀ args, ArgsOk L m args → ∃ c, t.table[argOffset pl L m args]? = some c ∧
    CellBy (moreAt L m.overriders) (retAt m.overriders) L.td (setBits (argMask L m.overriders args)) c

theorem buildMethodBy_ok (pl : Platform) (r : Rtti) (L : Lattice) (m : MethodInfo) :
    ∃ t, buildMethodBy true true pl L (toMeth r L m) = .ok t ∧ TableBy pl L (toMeth r L m) t := by
  obtain ⟨rs, h1, h2⟩ := evalCellsBy_ok (moreAt L (toMeth r L m).overriders) (retAt (toMeth r L m).overriders) L.td (methMasks pl L (toMeth r L m)) (by
    intro mask hm
    obtain ⟨args, _, rfl⟩ := methMasks_mem hm
    exact uniform_at r L m args)
  have h1' := h1
  unfold methMasks at h1'
  unfold buildMethodBy
  dsimp only
  rw [h1', Res.ok_bind]
  refine ⟨_, rfl, ⟨rfl, by simp [h2.length_eq], fun o ho => ?_⟩, fun args ha => ?_⟩
  · simp only [List.mem_map] at ho
    obtain ⟨x, hx, hc⟩ := ho
    obtain ⟨i, hi⟩ := List.getElem?_of_mem hx
    obtain ⟨mask, hm, hC⟩ := forall₂_get_left (List.Forall₂.flip h2) hi
    obtain ⟨args, _, rfl⟩ := methMasks_mem (List.mem_of_getElem? hm)
    exact setBits_lt (mem_keepBest.1 (hC.ovr o hc)).1
  · have hm := methMasks_get pl L (toMeth r L m) args ha
    obtain ⟨x, hx, hC⟩ := forall₂_get h2 hm
    exact ⟨x.cell, by simp [hx], hC⟩

theorem buildMethodsBy_ok (pl : Platform) (r : Rtti) (L : Lattice) (ms : List MethodInfo) :
    ∃ ts, buildMethodsBy true true pl L (ms.map (toMeth r L)) = .ok ts ∧ List.Forall₂ (TableBy pl L) (ms.map (toMeth r L)) ts := by
  induction ms with
  | nil => exact ⟨[], rfl, .nil⟩
  | cons m ms ih =>
    obtain ⟨t, h1, h2⟩ := buildMethodBy_ok pl r L m
    obtain ⟨ts, h3, h4⟩ := ih
    exact ⟨t :: ts, by simp [buildMethodsBy, h1, h3], .cons h2 h4⟩

end OpenMethod

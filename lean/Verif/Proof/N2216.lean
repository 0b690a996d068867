import Verif.Model.N2216
import Verif.Proof.Covariant

/-! # Option `n2216` with the correction: always defined, and as the library wherever that is defined -/

namespace OpenMethod

open Spec

/-! ## Where the library is defined -/

/-- Undefined, or the same. -/
def Res.Le {α : Type} (x y : Res α) : Prop := x = .ub ∨ x = y

theorem Res.Le.refl {α : Type} (x : Res α) : Res.Le x x := .inr rfl

theorem Res.Le.bind {α β : Type} {x y : Res α} {f g : α → Res β} (h : Res.Le x y) (hf : ∀ a, Res.Le (f a) (g a)) : Res.Le (x >>= f) (y >>= g) := by
  rcases h with rfl | rfl
  · exact .inl rfl
  · cases x with
    | ok a => exact hf a
    | err e => exact .inr rfl
    | ub => exact .inl rfl

theorem Res.Le.ite {α : Type} {c : Prop} {_ : Decidable c} {x y x' y' : Res α} (h : Res.Le x y) (h' : Res.Le x' y') :
    Res.Le (if c then x else x') (if c then y else y') := by
  split <;> assumption

theorem sweepRet_none (ret : Nat → Option Cls) (td : Cls → List Cls) (r : List (Option Nat)) :
    sweepRet ret td none r = .ub ∨ sweepRet ret td none r = .ok (none, r) := by
  induction r with
  | nil => exact .inr rfl
  | cons o r ih =>
    cases o with
    | none =>
      rcases ih with h | h
      · left; simp [sweepRet, h]
      · right; simp [sweepRet, h]
    | some b => exact .inl rfl

theorem sweepRetB_le (ret : Nat → Option Cls) (td : Cls → List Cls) (a : Nat) (r : List (Option Nat)) :
    Res.Le (sweepRet ret td (some a) r) (sweepRetB ret td a r) := by
  induction r with
  | nil => exact .refl _
  | cons o r ih =>
    cases o with
    | none => exact ih.bind fun _ => .refl _
    | some b =>
      unfold sweepRet sweepRetB
      rw [Res.ofOption_some, Res.ok_bind]
      refine (Res.Le.refl _).bind fun ri => (Res.Le.refl _).bind fun rj => ?_
      refine Res.Le.ite ?_ ?_
      swap
      · exact Res.Le.ite (ih.bind fun _ => .refl _) (ih.bind fun _ => .refl _)
      rcases sweepRet_none ret td r with h | h
      · left; rw [h]; rfl
      · right; rw [h]; rfl

theorem eliminateRetB_le (ret : Nat → Option Cls) (td : Cls → List Cls) (n : Nat) (l : List (Option Nat)) :
    Res.Le (eliminateRet ret td n l) (eliminateRetB ret td n l) := by
  induction n generalizing l with
  | zero => exact .refl _
  | succ n ih =>
    match l with
    | [] => exact .refl _
    | none :: r => exact (ih r).bind fun _ => .refl _
    | some a :: r => exact (sweepRetB_le ret td a r).bind fun s => (ih s.2).bind fun _ => .refl _

theorem selectDominantB_le (more : Nat → Nat → Bool) (ret : Nat → Option Cls) (td : Cls → List Cls) (l : List (Option Nat)) :
    Res.Le (selectDominant true more ret td l) (selectDominantB more ret td l) := by
  unfold selectDominant selectDominantB
  dsimp only
  refine Res.Le.ite (.refl _) ?_
  rw [if_pos rfl]
  exact (Res.Le.refl _).bind fun p => Res.Le.ite (.refl _) ((eliminateRetB_le ret td _ _).bind fun _ => .refl _)

theorem nextOfB_le (more : Nat → Nat → Bool) (ret : Nat → Option Cls) (td : Cls → List Cls) (os ds : List (Option Nat)) :
    Res.Le (nextOf true more ret td os ds) (nextOfB more ret td os ds) := by
  unfold nextOf nextOfB
  exact Res.Le.ite (.refl _) ((selectDominantB_le more ret td _).bind fun s => .refl _)

theorem evalCellB_le (more : Nat → Nat → Bool) (ret : Nat → Option Cls) (td : Cls → List Cls) (mask : Mask) :
    Res.Le (evalCell true more ret td mask) (evalCellB more ret td mask) := by
  unfold evalCell evalCellB
  refine (selectDominantB_le more ret td _).bind fun s => Res.Le.ite (.refl _) ?_
  exact (Res.Le.refl _).bind fun o => (nextOfB_le more ret td _ _).bind fun _ => .refl _

theorem evalCellsB_le (more : Nat → Nat → Bool) (ret : Nat → Option Cls) (td : Cls → List Cls) (masks : List Mask) :
    Res.Le (evalCells true more ret td masks) (evalCellsB more ret td masks) := by
  induction masks with
  | nil => exact .refl _
  | cons mask masks ih => exact (evalCellB_le more ret td mask).bind fun _ => ih.bind fun _ => .refl _

theorem buildMethodsB_le (pl : Platform) (L : Lattice) (ms : List Meth) : Res.Le (buildMethods pl true L ms) (buildMethodsB pl L ms) := by
  induction ms with
  | nil => exact .refl _
  | cons m ms ih => exact ((evalCellsB_le _ _ _ _).bind fun _ => .refl _).bind fun _ => ih.bind fun _ => .refl _

theorem installB_le (pl : Platform) (p : Program) (gen : Nat) : Res.Le (install pl true p gen) (installB pl p gen) := by
  unfold install installB compile compileB
  refine Res.Le.bind ?_ fun _ => .refl _
  refine (Res.Le.refl _).bind fun L => (Res.Le.refl _).bind fun ms => (Res.Le.refl _).bind fun _ => ?_
  exact (buildMethodsB_le pl L ms).bind fun _ => .refl _

/-! ## The elimination is defined -/

/-- Candidate `x` returns a class that properly derives from what `y` returns. -/
def Beats (ret : Nat → Option Cls) (td : Cls → List Cls) (x y : Nat) : Prop :=
  ∀ rx ry, ret x = some rx → ret y = some ry → rx ∈ td ry ∧ ry ∉ td rx

/-- What one turn does. -/
structure SweepB (ret : Nat → Option Cls) (td : Cls → List Cls) (a : Nat) (r : List (Option Nat)) (s : Option Nat × List (Option Nat)) : Prop where
  first : s.1 = some a ∨ s.1 = none
  elim : Elim r s.2
  left : s.1 = none → alive s.2 ≠ []
  wins : (∀ y ∈ alive r, Beats ret td a y) → s.1 = some a ∧ alive s.2 = []
  loses : ∀ x ∈ alive r, Beats ret td x a → (∀ y ∈ alive r, y ≠ x → Beats ret td x y) → s.1 = none ∧ x ∈ alive s.2

theorem sweepRetB_ok (ret : Nat → Option Cls) (td : Cls → List Cls) {a : Nat} (ha : (ret a).isSome) (r : List (Option Nat))
    (hr : ∀ b ∈ alive r, (ret b).isSome) : ∃ s, sweepRetB ret td a r = .ok s ∧ SweepB ret td a r s := by
  induction r with
  | nil => exact ⟨_, rfl, .inl rfl, .refl _, by simp, by simp, by simp⟩
  | cons o r ih =>
    cases o with
    | none =>
      obtain ⟨s, hs, S⟩ := ih hr
      refine ⟨(s.1, none :: s.2), by simp [sweepRetB, hs], S.first, .cons (.inl rfl) S.elim, ?_, ?_, ?_⟩
      · simpa using S.left
      · simpa using S.wins
      · simpa using S.loses
    | some b =>
      obtain ⟨s, hs, S⟩ := ih (fun b hb => hr b (by simp [hb]))
      obtain ⟨ra, hra⟩ := Option.isSome_iff_exists.1 ha
      obtain ⟨rb, hrb⟩ := Option.isSome_iff_exists.1 (hr b (by simp))
      have hB : ∀ {x y rx ry}, Beats ret td x y → ret x = some rx → ret y = some ry → rx ∈ td ry ∧ ry ∉ td rx := fun h h1 h2 => h _ _ h1 h2
      simp only [sweepRetB, hra, hrb, Res.ofOption_some, Res.ok_bind, hs]
      by_cases h1 : rb ∈ td ra
      · rw [if_pos h1]
        refine ⟨_, rfl, .inr rfl, .refl _, by simp, ?_, ?_⟩
        · intro h
          exact absurd h1 (hB (h b (by simp)) hra hrb).2
        · exact fun x hx _ _ => ⟨rfl, hx⟩
      · rw [if_neg h1]
        have hloses : ∀ x, x ∈ alive (some b :: r) → Beats ret td x a → x ∈ alive r := by
          intro x hx hxa
          rcases List.mem_cons.1 hx with rfl | hx
          · exact absurd (hB hxa hrb hra).1 h1
          · exact hx
        by_cases h2 : ra ∈ td rb
        · rw [if_pos h2]
          refine ⟨_, rfl, S.first, .cons (.inr rfl) S.elim, by simpa using S.left, ?_, ?_⟩
          · intro h
            simpa using S.wins (fun y hy => h y (by simp [hy]))
          · intro x hx hxa h
            simpa using S.loses x (hloses x hx hxa) hxa (fun y hy => h y (by simp [hy]))
        · rw [if_neg h2]
          refine ⟨_, rfl, S.first, .cons (.inl rfl) S.elim, by simp, ?_, ?_⟩
          · intro h
            exact absurd (hB (h b (by simp)) hra hrb).1 h2
          · intro x hx hxa h
            obtain ⟨h3, h4⟩ := S.loses x (hloses x hx hxa) hxa (fun y hy => h y (by simp [hy]))
            exact ⟨h3, by simp [h4]⟩

theorem eliminateRetB_ok (ret : Nat → Option Cls) (td : Cls → List Cls) (n : Nat) (l : List (Option Nat)) (hn : l.length ≤ n)
    (hl : ∀ b ∈ alive l, (ret b).isSome) (hnd : (alive l).Nodup) : ∃ l', eliminateRetB ret td n l = .ok l' ∧ Elim l l' ∧ (alive l ≠ [] → alive l' ≠ []) ∧
      ∀ x ∈ alive l, (∀ y ∈ alive l, y ≠ x → Beats ret td x y) → alive l' = [x] := by
  induction n generalizing l with
  | zero =>
    obtain rfl : l = [] := List.eq_nil_of_length_eq_zero (by omega)
    exact ⟨[], rfl, .refl _, by simp, by simp⟩
  | succ n ih =>
    match l with
    | [] => exact ⟨[], rfl, .refl _, by simp, by simp⟩
    | none :: r =>
      obtain ⟨l', h1, h2, h3, h4⟩ := ih r (by simpa using hn) hl hnd
      exact ⟨none :: l', by simp [eliminateRetB, h1], .cons (.inl rfl) h2, by simpa using h3, by simpa using h4⟩
    | some a :: r =>
      obtain ⟨s, hs, S⟩ := sweepRetB_ok ret td (hl a (by simp)) r (fun b hb => hl b (by simp [hb]))
      have hsub := S.elim.alive_sublist
      rw [alive_some, List.nodup_cons] at hnd
      obtain ⟨l', h1, h2, h3, h4⟩ := ih s.2 (by rw [S.elim.length]; simpa using hn) (fun b hb => hl b (by simp [hsub.subset hb])) (hsub.nodup hnd.2)
      refine ⟨s.1 :: l', by simp [eliminateRetB, hs, h1], .cons ?_ (S.elim.trans h2), fun _ => ?_, ?_⟩
      · exact S.first
      · rcases S.first with h | h
        · rw [h]; simp
        · rw [h]
          exact h3 (S.left h)
      · intro x hx hbest
        rcases List.mem_cons.1 hx with rfl | hx
        · obtain ⟨h5, h6⟩ := S.wins (fun y hy => hbest y (by simp [hy]) (by rintro rfl; exact hnd.1 hy))
          rw [h5, alive_some]
          have := h2.alive_sublist
          rw [h6] at this
          rw [List.sublist_nil.1 this]
        · have hne : a ≠ x := by rintro rfl; exact hnd.1 hx
          obtain ⟨h5, h6⟩ := S.loses x hx (hbest a (by simp) hne) (fun y hy => hbest y (by simp [hy]))
          rw [h5, alive_none]
          exact h4 x h6 (fun y hy => hbest y (by simp [hsub.subset hy]))

/-- All the return types are known, or none. -/
def Uniform (ret : Nat → Option Cls) (l : List Nat) : Prop := (∀ i ∈ l, (ret i).isSome) ∨ ∀ i ∈ l, ret i = none

theorem Uniform.mono {ret : Nat → Option Cls} {l l' : List Nat} (h : Uniform ret l) (hl : ∀ x ∈ l', x ∈ l) : Uniform ret l' :=
  h.imp (fun h i hi => h i (hl i hi)) (fun h i hi => h i (hl i hi))

theorem selectDominantB_ok (more : Nat → Nat → Bool) (ret : Nat → Option Cls) (td : Cls → List Cls) (l : List (Option Nat)) (hu : Uniform ret (alive l))
    (hnd : (alive l).Nodup) :
    ∃ s left, selectDominantB more ret td l = .ok s ∧ SelOk l left s ∧ left.Sublist (survivors more (alive l)) ∧
      (alive l ≠ [] → left ≠ []) ∧
      ∀ x ∈ survivors more (alive l), (∀ y ∈ survivors more (alive l), (ret y).isSome) → (∀ y ∈ survivors more (alive l), y ≠ x → Beats ret td x y) → left = [x] := by
  have E := eliminate_ok more l.length l le_rfl
  have hal := alive_eliminate more l.length l le_rfl
  unfold selectDominantB
  dsimp only
  rw [remainingOf_eq, ← hal]
  generalize eliminate more l.length l = l1 at *
  have hsub := E.elim.alive_sublist
  have hnd1 := hsub.nodup hnd
  by_cases h1 : (alive l1).length ≤ 1
  · rw [if_pos h1]
    refine ⟨_, _, rfl, ⟨E.elim, rfl, rfl, fun h => pickOf_last _ h⟩, .refl _, E.nonempty, fun x hx _ _ => ?_⟩
    match hl : alive l1, h1 with
    | [], _ => rw [hl] at hx; simp at hx
    | [a], _ => rw [hl] at hx; simp at hx; rw [hx]
  · rw [if_neg h1]
    have hne : alive l1 ≠ [] := by intro h0; rw [h0] at h1; simp at h1
    rw [pickOf_last l1 hne]
    obtain ⟨p, hp⟩ : ∃ p, (alive l1).getLast? = some p := ⟨_, List.getLast?_eq_some_getLast hne⟩
    have hpm := List.mem_of_getLast? hp
    rw [hp]
    simp only [Res.ofOption_some, Res.ok_bind]
    rcases hu.mono (fun x hx => hsub.subset hx) with hu | hu
    · rw [if_neg (by have := hu p hpm; simp only [Option.isNone_iff_eq_none]; intro h; rw [h] at this; simp at this)]
      obtain ⟨l', h2, h3, h4, h5⟩ := eliminateRetB_ok ret td l1.length l1 le_rfl hu hnd1
      rw [h2]
      have hne2 := h4 hne
      refine ⟨_, alive l', rfl, ⟨E.elim.trans h3, rfl, remainingOf_eq _, fun h => ?_⟩, h3.alive_sublist, fun _ => hne2, fun x hx _ hb => h5 x hx hb⟩
      dsimp only
      rw [if_neg (by rw [remainingOf_eq]; intro h0; exact hne2 (List.eq_nil_of_length_eq_zero h0))]
      exact pickOf_last _ h
    · rw [if_pos (by rw [hu p hpm]; rfl)]
      refine ⟨_, _, rfl, ⟨E.elim, rfl, rfl, fun h => pickOf_last _ h⟩, .refl _, E.nonempty, fun x hx hs _ => ?_⟩
      have := hs x hx
      rw [hu x hx] at this
      simp at this

theorem nextOfB_ok (more : Nat → Nat → Bool) (ret : Nat → Option Cls) (td : Cls → List Cls) (xs : List Nat) (hn : xs.Nodup) (hu : Uniform ret xs)
    (d : List (Option Nat)) (he : Elim (xs.map some) d) : ∃ c, nextOfB more ret td (xs.map some) d = .ok c := by
  have hal' := alive_withoutDominants xs hn d he
  unfold nextOfB
  dsimp only
  rw [remainingOf_eq]
  split
  · exact ⟨_, rfl⟩
  · rename_i h0
    obtain ⟨s, left, h1, S, _, h3, _⟩ := selectDominantB_ok more ret td (withoutDominants (xs.map some) d)
      (by rw [hal']; exact hu.mono (fun x hx => (List.mem_filter.1 hx).1)) (by rw [hal']; exact hn.filter _)
    have hne := h3 (fun h => h0 (by rw [h]; rfl))
    obtain ⟨o, ho⟩ : ∃ x, left.getLast? = some x := ⟨_, List.getLast?_eq_some_getLast hne⟩
    rw [h1, Res.ok_bind, S.pick hne, ho]
    exact ⟨_, rfl⟩

/-- What a cell holds. -/
structure CellB (more : Nat → Nat → Bool) (ret : Nat → Option Cls) (td : Cls → List Cls) (cands : List Nat) (c : Cell) : Prop where
  none : cands = [] → c = .notImplemented
  some : cands ≠ [] → ∃ o ∈ survivors more cands, c = .ovr o
  best : ∀ x ∈ survivors more cands, (∀ y ∈ survivors more cands, (ret y).isSome) → (∀ y ∈ survivors more cands, y ≠ x → Beats ret td x y) → c = .ovr x

theorem evalCellB_ok (more : Nat → Nat → Bool) (ret : Nat → Option Cls) (td : Cls → List Cls) (mask : Mask) (hu : Uniform ret (setBits mask)) :
    ∃ r, evalCellB more ret td mask = .ok r ∧ CellB more ret td (setBits mask) r.cell := by
  have hal : alive (candidatesOf mask) = setBits mask := by rw [candidatesOf_eq, alive_map_some]
  obtain ⟨s, left, h1, S, h2, h3, h4⟩ := selectDominantB_ok more ret td (candidatesOf mask) (by rw [hal]; exact hu) (by rw [hal]; exact setBits_nodup mask)
  rw [hal] at h2 h3 h4
  have hsub := (surv_survivors more (setBits mask)).sub
  unfold evalCellB
  dsimp only
  rw [h1, Res.ok_bind, S.remaining]
  by_cases h0 : left.length = 0
  · rw [if_pos h0]
    obtain rfl := List.eq_nil_of_length_eq_zero h0
    refine ⟨_, rfl, fun _ => rfl, fun h => absurd rfl (h3 h), fun x hx _ _ => absurd rfl (h3 (List.ne_nil_of_mem (hsub.subset hx)))⟩
  · rw [if_neg h0]
    have hne : left ≠ [] := by rintro rfl; exact h0 rfl
    obtain ⟨o, ho⟩ : ∃ x, left.getLast? = some x := ⟨_, List.getLast?_eq_some_getLast hne⟩
    obtain ⟨c, hc⟩ := nextOfB_ok more ret td (setBits mask) (setBits_nodup mask) hu s.cands (by rw [← candidatesOf_eq]; exact S.elim)
    rw [S.pick hne, ho, Res.ofOption_some, Res.ok_bind, candidatesOf_eq, hc]
    have hom := List.mem_of_getLast? ho
    refine ⟨_, rfl, fun h => ?_, fun _ => ⟨o, h2.subset hom, rfl⟩, fun x hx hs hb => ?_⟩
    · have := hsub.subset (h2.subset hom)
      rw [h] at this
      simp at this
    · rw [h4 x hx hs hb] at ho
      simp at ho
      rw [ho]

theorem evalCellsB_ok (more : Nat → Nat → Bool) (ret : Nat → Option Cls) (td : Cls → List Cls) (masks : List Mask)
    (hu : ∀ mask ∈ masks, Uniform ret (setBits mask)) :
    ∃ rs, evalCellsB more ret td masks = .ok rs ∧ List.Forall₂ (fun mask r => CellB more ret td (setBits mask) r.cell) masks rs := by
  induction masks with
  | nil => exact ⟨[], rfl, .nil⟩
  | cons m ms ih =>
    obtain ⟨r, h1, h2⟩ := evalCellB_ok more ret td m (hu m (by simp))
    obtain ⟨rs, h3, h4⟩ := ih (fun mask hm => hu mask (by simp [hm]))
    exact ⟨r :: rs, by simp [evalCellsB, h1, h3], .cons h2 h4⟩

/-! ## In a program -/

theorem uniform_at (r : Rtti) (L : Lattice) (m : MethodInfo) (args : List Cls) :
    Uniform (retAt (toMeth r L m).overriders) (setBits (argMask L (toMeth r L m).overriders args)) := by
  have key : ∀ i, i < (toMeth r L m).overriders.length → ∃ o, m.overriders[i]? = some o ∧
      retAt (toMeth r L m).overriders i = (methodRet r L m.ret).map fun _ => r.ti o.ret := by
    intro i hi
    have hi' : i < m.overriders.length := by simpa [toMeth] using hi
    refine ⟨m.overriders[i], List.getElem?_eq_getElem hi', ?_⟩
    simp [retAt, toMeth, hi']
  cases hr : methodRet r L m.ret with
  | none =>
    right
    intro i hi
    obtain ⟨o, _, h⟩ := key i (setBits_lt hi)
    rw [h, hr]; rfl
  | some c =>
    left
    intro i hi
    obtain ⟨o, _, h⟩ := key i (setBits_lt hi)
    rw [h, hr]; rfl

/-- What the table of a method holds. -/
structure TableB (pl : Platform) (L : Lattice) (m : Meth) (t : MethTable) : Prop extends TableBase pl L m t where
  cell : ∀ args, ArgsOk L m args → ∃ c, t.table[argOffset pl L m args]? = some c ∧
    CellB (moreAt L m.overriders) (retAt m.overriders) L.td (setBits (argMask L m.overriders args)) c

theorem buildMethodB_ok (pl : Platform) (r : Rtti) (L : Lattice) (m : MethodInfo) :
    ∃ t, buildMethodB pl L (toMeth r L m) = .ok t ∧ TableB pl L (toMeth r L m) t := by
  obtain ⟨rs, h1, h2⟩ := evalCellsB_ok (moreAt L (toMeth r L m).overriders) (retAt (toMeth r L m).overriders) L.td (methMasks pl L (toMeth r L m)) (by
    intro mask hm
    obtain ⟨args, _, rfl⟩ := methMasks_mem hm
    exact uniform_at r L m args)
  have h1' := h1
  unfold methMasks at h1'
  unfold buildMethodB
  dsimp only
  rw [h1', Res.ok_bind]
  refine ⟨_, rfl, ⟨rfl, by simp [h2.length_eq], fun o ho => ?_⟩, fun args ha => ?_⟩
  · simp only [List.mem_map] at ho
    obtain ⟨x, hx, hc⟩ := ho
    obtain ⟨i, hi⟩ := List.getElem?_of_mem hx
    obtain ⟨mask, hm, hC⟩ := forall₂_get_left (List.Forall₂.flip h2) hi
    obtain ⟨args, _, rfl⟩ := methMasks_mem (List.mem_of_getElem? hm)
    by_cases h0 : setBits (argMask L (toMeth r L m).overriders args) = []
    · rw [hC.none h0] at hc
      simp at hc
    · obtain ⟨o', ho', hc'⟩ := hC.some h0
      rw [hc'] at hc
      obtain rfl := Cell.ovr.inj hc
      exact setBits_lt ((surv_survivors _ _).sub.subset ho')
  · have hm := methMasks_get pl L (toMeth r L m) args ha
    obtain ⟨x, hx, hC⟩ := forall₂_get h2 hm
    exact ⟨x.cell, by simp [hx], hC⟩

theorem buildMethodsB_ok (pl : Platform) (r : Rtti) (L : Lattice) (ms : List MethodInfo) :
    ∃ ts, buildMethodsB pl L (ms.map (toMeth r L)) = .ok ts ∧ List.Forall₂ (TableB pl L) (ms.map (toMeth r L)) ts := by
  induction ms with
  | nil => exact ⟨[], rfl, .nil⟩
  | cons m ms ih =>
    obtain ⟨t, h1, h2⟩ := buildMethodB_ok pl r L m
    obtain ⟨ts, h3, h4⟩ := ih
    exact ⟨t :: ts, by simp [buildMethodsB, h1, h3], .cons h2 h4⟩

variable {pl : Platform} {p : Program}

theorem compileB_ok (hv : p.Valid) {L : Lattice} {ms : List Meth} (hL : augmentClasses pl p.rtti p.classes = .ok L) (hM : augment p.rtti L p.methods = .ok ms) :
    ∃ c, compileB pl p = .ok c ∧ c.lattice = L ∧ CompiledBase pl p c ∧ List.Forall₂ (TableB pl c.lattice) c.meths c.tables := by
  obtain ⟨vtbl, h1, h2⟩ := compile_base hv.acyclic hv.wf hL hM
  obtain ⟨hms, _, _⟩ := augment_ok.1 hM
  obtain ⟨ts, h3, h4⟩ := buildMethodsB_ok pl p.rtti L p.methods
  rw [← hms] at h3 h4
  unfold compileB
  simp only [hL, hM, Res.ok_bind, h1, h3, Res.pure_eq]
  exact ⟨_, rfl, rfl, h2 _ (h4.imp fun _ _ h => h.toTableBase), h4⟩

/-- What `installB` does. -/
theorem installB_cases (hv : p.Valid) (pl : Platform) (gen : Nat) :
    (∃ e, installB pl p gen = .err e ∧ ∀ n, install pl n p gen = .err e) ∨
    ∃ c bases img, augmentClasses pl p.rtti p.classes = .ok c.lattice ∧ CompiledBase pl p c ∧ List.Forall₂ (TableB pl c.lattice) c.meths c.tables ∧
      ImageOk c gen bases img ∧ installB pl p gen = .ok (c.report, img) := by
  cases hL : augmentClasses pl p.rtti p.classes with
  | ub => exact absurd hL augmentClasses_ub
  | err e => exact .inl ⟨e, by simp [installB, compileB, hL], fun n => by simp [install, compile, hL]⟩
  | ok L =>
    cases hM : augment p.rtti L p.methods with
    | ub =>
      have hlat := augmentClasses_ok hv.acyclic hL
      rcases augment_cases hlat hv.wf (augmentClasses_known hL) with ⟨t, h3, _⟩ | ⟨_, ⟨_, _, _, _, _, _, _, h3, _⟩ | ⟨_, h3, _⟩⟩ <;>
      · rw [hM] at h3; simp at h3
    | err e => exact .inl ⟨e, by simp [installB, compileB, hL, hM], fun n => by simp [install, compile, hL, hM]⟩
    | ok ms =>
      obtain ⟨c, hc, rfl, C, hT⟩ := compileB_ok hv hL hM
      obtain ⟨bases, img, hi, I⟩ := writeGlobal_base C gen
      exact .inr ⟨c, bases, img, rfl, C, hT, I, by simp [installB, hc, hi]⟩

end OpenMethod

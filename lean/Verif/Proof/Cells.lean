import Verif.Proof.RetElim
import Verif.Proof.Groups
import Mathlib.Data.List.Sublists

/-! # Evaluation of one cell of a dispatch table -/

namespace OpenMethod

/-- What is known of the survivors of the elimination, whatever the relation. -/
structure Surv (more : Nat → Nat → Bool) (cands surv : List Nat) : Prop where
  sub : surv.Sublist cands
  apart : surv.Pairwise (fun x y => more x y = false ∧ more y x = false)
  beaten : ∀ x ∈ cands, x ∈ surv ∨ ∃ y ∈ cands, more y x = true
  nonempty : cands ≠ [] → surv ≠ []
  eq : surv = survivors more cands

theorem SelectOk.surv {more : Nat → Nat → Bool} {l : List (Option Nat)} {s : Selection} (h : SelectOk more l s) :
    Surv more (alive l) (alive s.cands) :=
  ⟨h.elim.alive_sublist, h.apart, h.beaten, h.nonempty, h.eq⟩

/-- When the relation is transitive and irreflexive on the candidates, the survivors are the undominated ones. -/
theorem Surv.mem_iff {more : Nat → Nat → Bool} {cands surv : List Nat} (h : Surv more cands surv)
    (hirr : ∀ x, more x x = false)
    (htr : ∀ x ∈ cands, ∀ y ∈ cands, ∀ z ∈ cands, more x y = true → more y z = true → more x z = true) (x : Nat) :
    x ∈ surv ↔ x ∈ cands ∧ ∀ y ∈ cands, more y x = false := by
  constructor
  · intro hx
    refine ⟨h.sub.subset hx, fun y hy => ?_⟩
    by_contra hc
    have hyx : more y x = true := by simpa using hc
    have hxl := h.sub.subset hx
    obtain ⟨z, hz, hzy, hmax⟩ := exists_undominated cands hirr htr y hy
    have hzs : z ∈ surv := by
      rcases h.beaten z hz with h' | ⟨w, hw, hwz⟩
      · exact h'
      · rw [hmax w hw] at hwz; simp at hwz
    have hzx : more z x = true := by
      rcases hzy with rfl | hzy
      · exact hyx
      · exact htr z hz y hy x hxl hzy hyx
    by_cases he : z = x
    · subst he; rw [hirr] at hzx; simp at hzx
    · have := (pairwise_symm_mem h.apart (fun _ _ h => ⟨h.2, h.1⟩) hzs hx he).1
      rw [hzx] at this; simp at this
  · rintro ⟨hx, hu⟩
    rcases h.beaten x hx with h' | ⟨y, hy, hm⟩
    · exact h'
    · rw [hu y hy] at hm; simp at hm

/-- Every candidate survives or is dominated by a survivor. -/
theorem Surv.dominated {more : Nat → Nat → Bool} {cands surv : List Nat} (h : Surv more cands surv)
    (hirr : ∀ x, more x x = false)
    (htr : ∀ x ∈ cands, ∀ y ∈ cands, ∀ z ∈ cands, more x y = true → more y z = true → more x z = true) (x : Nat) (hx : x ∈ cands) :
    x ∈ surv ∨ ∃ y ∈ surv, more y x = true := by
  obtain ⟨z, hz, hzx, hmax⟩ := exists_undominated cands hirr htr x hx
  have hzs : z ∈ surv := (h.mem_iff hirr htr z).2 ⟨hz, hmax⟩
  rcases hzx with rfl | hzx
  · exact .inl hzs
  · exact .inr ⟨z, hzs, hzx⟩

/-- A candidate that dominates all others is the only survivor. -/
theorem Surv.best {more : Nat → Nat → Bool} {cands surv : List Nat} (h : Surv more cands surv) (hn : cands.Nodup)
    (has : ∀ x y, more x y = true → more y x = false) {o : Nat} (ho : o ∈ cands)
    (hb : ∀ x ∈ cands, x ≠ o → more o x = true) (hirr : more o o = false) : surv = [o] := by
  have hos : o ∈ surv := by
    rcases h.beaten o ho with h' | ⟨y, hy, hm⟩
    · exact h'
    · by_cases he : y = o
      · subst he; rw [hirr] at hm; simp at hm
      · rw [has o y (hb y hy he)] at hm; simp at hm
  have hall : ∀ x ∈ surv, x = o := by
    intro x hx
    by_contra he
    have h1 := hb x (h.sub.subset hx) he
    have := (pairwise_symm_mem h.apart (fun _ _ h => ⟨h.2, h.1⟩) hos hx (Ne.symm he)).1
    rw [h1] at this; simp at this
  have hns := h.sub.nodup hn
  cases surv with
  | nil => simp at hos
  | cons a l =>
    obtain rfl := hall a (by simp)
    cases l with
    | nil => rfl
    | cons b l =>
      obtain rfl := hall b (by simp)
      simp at hns

/-- The cell for a list of survivors. -/
def cellOf : List Nat → Cell
  | [] => .notImplemented
  | [o] => .ovr o
  | _ => .ambiguous

theorem cellOf_ovr {l : List Nat} {o : Nat} : cellOf l = .ovr o ↔ l = [o] := by
  match l with
  | [] => simp [cellOf]
  | [a] => simp [cellOf]
  | a :: b :: l => simp [cellOf]

theorem cellOf_notImplemented {l : List Nat} : cellOf l = .notImplemented ↔ l = [] := by
  match l with
  | [] => simp [cellOf]
  | [a] => simp [cellOf]
  | a :: b :: l => simp [cellOf]

theorem cellOf_ambiguous {l : List Nat} : cellOf l = .ambiguous ↔ 1 < l.length := by
  match l with
  | [] => simp [cellOf]
  | [a] => simp [cellOf]
  | a :: b :: l => simp [cellOf]

/-- Indices set in a mask. -/
def setBits (mask : Mask) : List Nat := (mask.zipIdx.filter (·.1)).map (·.2)

theorem candidatesOf_eq (mask : Mask) : candidatesOf mask = (setBits mask).map some := by
  simp [candidatesOf, setBits, List.map_map, Function.comp_def]

theorem alive_map_some (l : List Nat) : alive (l.map some) = l := by
  induction l with
  | nil => rfl
  | cons a l ih => simp [ih]

theorem mem_setBits {mask : Mask} {i : Nat} : i ∈ setBits mask ↔ mask[i]? = some true := by
  simp only [setBits, List.mem_map, List.mem_filter, Prod.exists, exists_eq_right, List.mem_zipIdx_iff_getElem?]

theorem setBits_nodup (mask : Mask) : (setBits mask).Nodup := by
  unfold setBits
  have h : (mask.zipIdx.map (·.2)).Nodup := by
    rw [List.zipIdx_map_snd]
    exact List.nodup_range'
  exact (List.Sublist.map _ List.filter_sublist).nodup h

theorem alive_withoutDominants (xs : List Nat) (hn : xs.Nodup) (d : List (Option Nat)) (he : Elim (xs.map some) d) :
    alive (withoutDominants (xs.map some) d) = xs.filter (fun x => x ∉ alive d) := by
  induction xs generalizing d with
  | nil =>
    cases he
    rfl
  | cons x xs ih =>
    rw [List.nodup_cons] at hn
    cases he with
    | @cons _ y _ d hxy he =>
      have hsub : ∀ z ∈ alive d, z ∈ xs := by
        intro z hz
        have := (Elim.alive_sublist he).subset hz
        rwa [alive_map_some] at this
      have ih' := ih hn.2 d he
      unfold withoutDominants at ih' ⊢
      rw [List.map_cons, List.zipWith_cons_cons]
      rcases hxy with rfl | rfl
      · rw [if_pos rfl, alive_none, ih', alive_some]
        rw [List.filter_cons_of_neg (by simp)]
        apply List.filter_congr
        intro z hz
        have : z ≠ x := by rintro rfl; exact hn.1 hz
        simp [this]
      · rw [if_neg (by simp), alive_some, ih', alive_none]
        rw [List.filter_cons_of_pos]
        simpa using fun h => hn.1 (hsub x h)

theorem surv_survivors (more : Nat → Nat → Bool) (xs : List Nat) : Surv more xs (survivors more xs) := by
  obtain ⟨s, _, S⟩ := selectDominant_ok more (fun _ => none) (fun _ => []) (xs.map some)
  have h := S.surv
  rw [alive_map_some] at h
  rw [← h.eq]
  exact h

/-- The cell for the overriders that remain. -/
def cellFor (n2216 : Bool) (l : List Nat) : Cell :=
  if n2216 then
    match l.getLast? with
    | none => .notImplemented
    | some o => .ovr o
  else cellOf l

@[simp] theorem cellFor_false (l : List Nat) : cellFor false l = cellOf l := rfl

theorem cellFor_ovr {n2216 : Bool} {l : List Nat} {o : Nat} (h : cellFor n2216 l = .ovr o) : l.getLast? = some o := by
  cases n2216 with
  | false => rw [cellFor_false, cellOf_ovr] at h; rw [h]; rfl
  | true =>
    simp only [cellFor, if_true] at h
    split at h
    · simp at h
    · rename_i h'; rw [h', Cell.ovr.inj h]

theorem cellFor_notImplemented {n2216 : Bool} {l : List Nat} : cellFor n2216 l = .notImplemented ↔ l = [] := by
  cases n2216 with
  | false => exact cellOf_notImplemented
  | true =>
    simp only [cellFor, if_true]
    cases l with
    | nil => simp
    | cons a l =>
      obtain ⟨x, hx⟩ : ∃ x, (a :: l).getLast? = some x := ⟨_, List.getLast?_eq_some_getLast (by simp)⟩
      rw [hx]
      simp

/-- What the code computes for a cell. -/
structure CellOk (n2216 : Bool) (more : Nat → Nat → Bool) (ret : Nat → Option Cls) (td : Cls → List Cls) (cands : List Nat)
    (r : CellResult) (surv left : List Nat) : Prop where
  isSurv : Surv more cands surv
  isLeft : remainL n2216 ret (derOf td) surv = .ok left
  cell : r.cell = cellFor n2216 left
  amb : r.amb = decide (1 < left.length)
  next : ∀ o, r.cell = .ovr o → ∃ surv' left', Surv more (cands.filter (· ∉ left)) surv' ∧
    remainL n2216 ret (derOf td) surv' = .ok left' ∧ r.next = some (cellFor n2216 left')
  nonext : (∀ o, r.cell ≠ .ovr o) → r.next = none

/-- The choice in a non-empty selection. -/
theorem choice_ok (n2216 : Bool) {l : List (Option Nat)} {left : List Nat} {s : Selection} (h : SelOk l left s) (hne : left ≠ []) :
    (!n2216 && decide (left.length > 1)) = true ∧ cellFor n2216 left = .ambiguous ∨
    (!n2216 && decide (left.length > 1)) = false ∧ ∃ o, s.cands[s.pick]?.join = some o ∧ cellFor n2216 left = .ovr o := by
  have hp := h.pick hne
  obtain ⟨o, ho⟩ : ∃ x, left.getLast? = some x := ⟨_, List.getLast?_eq_some_getLast hne⟩
  rw [ho] at hp
  cases n2216 with
  | true => exact .inr ⟨rfl, o, hp, by simp [cellFor, ho]⟩
  | false =>
    match left, hne with
    | [a], _ =>
      simp at ho
      subst ho
      exact .inr ⟨by simp, a, hp, rfl⟩
    | a :: b :: l, _ => exact .inl ⟨by simp, rfl⟩

theorem nextOf_ok (n2216 : Bool) (more : Nat → Nat → Bool) (ret : Nat → Option Cls) (td : Cls → List Cls) (xs : List Nat) (hn : xs.Nodup)
    (d : List (Option Nat)) (he : Elim (xs.map some) d) :
    (nextOf n2216 more ret td (xs.map some) d = .ub ∧
      remainL n2216 ret (derOf td) (survivors more (xs.filter (· ∉ alive d))) = .ub) ∨
    ∃ surv' left', Surv more (xs.filter (· ∉ alive d)) surv' ∧ remainL n2216 ret (derOf td) surv' = .ok left' ∧
      nextOf n2216 more ret td (xs.map some) d = .ok (cellFor n2216 left') := by
  have hal' := alive_withoutDominants xs hn d he
  unfold nextOf
  dsimp only
  rw [remainingOf_eq, hal']
  split
  · rename_i h0
    have h0' : xs.filter (· ∉ alive d) = [] := List.eq_nil_of_length_eq_zero h0
    rw [h0']
    exact .inr ⟨[], [], ⟨.slnil, .nil, by simp, by simp, rfl⟩, rfl, by rw [cellFor_notImplemented.2 rfl]; rfl⟩
  · rename_i h0
    have hS := surv_survivors more (xs.filter (· ∉ alive d))
    rcases selectDominant_spec n2216 more ret td (withoutDominants (xs.map some) d) with ⟨h1, h2⟩ | ⟨s, left, h1, h2, S⟩
    · rw [h1]
      rw [hal'] at h2
      exact .inl ⟨rfl, h2⟩
    · rw [h1]
      rw [hal'] at h2
      have hne : left ≠ [] := remainL_nonempty h2 (hS.nonempty (fun h => h0 (by rw [h]; rfl)))
      refine .inr ⟨_, left, hS, h2, ?_⟩
      simp only [Res.ok_bind]
      rw [S.remaining]
      rcases choice_ok n2216 S hne with ⟨h3, h4⟩ | ⟨h3, o, h4, h5⟩
      · rw [if_pos h3, h4]; rfl
      · rw [if_neg (by rw [h3]; simp), h4, h5]; rfl

/-- Why the evaluation of a cell with these candidates is undefined: the elimination by return types, among the candidates
or among those that are left for `next`, reads a candidate that it has removed. -/
def CellUb (n2216 : Bool) (more : Nat → Nat → Bool) (ret : Nat → Option Cls) (td : Cls → List Cls) (cands : List Nat) : Prop :=
  remainL n2216 ret (derOf td) (survivors more cands) = .ub ∨
  ∃ left, remainL n2216 ret (derOf td) (survivors more cands) = .ok left ∧
    remainL n2216 ret (derOf td) (survivors more (cands.filter (· ∉ left))) = .ub

theorem cellUb_false (more : Nat → Nat → Bool) (ret : Nat → Option Cls) (td : Cls → List Cls) (cands : List Nat) :
    ¬ CellUb false more ret td cands := by
  simp [CellUb, remainL_false]

theorem evalCell_ok (n2216 : Bool) (more : Nat → Nat → Bool) (ret : Nat → Option Cls) (td : Cls → List Cls) (mask : Mask) :
    (evalCell n2216 more ret td mask = .ub ∧ CellUb n2216 more ret td (setBits mask)) ∨
    ∃ r surv left, evalCell n2216 more ret td mask = .ok r ∧ CellOk n2216 more ret td (setBits mask) r surv left := by
  unfold evalCell
  dsimp only
  have hal : alive (candidatesOf mask) = setBits mask := by rw [candidatesOf_eq, alive_map_some]
  have hS := surv_survivors more (setBits mask)
  rcases selectDominant_spec n2216 more ret td (candidatesOf mask) with ⟨h1, h2⟩ | ⟨s, left, h1, h2, S⟩
  · rw [h1]
    rw [hal] at h2
    exact .inl ⟨rfl, .inl h2⟩
  · rw [h1]
    rw [hal] at h2
    simp only [Res.ok_bind]
    rw [S.remaining]
    by_cases h0 : left.length = 0
    · rw [if_pos h0]
      obtain rfl := List.eq_nil_of_length_eq_zero h0
      exact .inr ⟨_, _, [], rfl, hS, h2, (cellFor_notImplemented.2 rfl).symm, by simp, by simp, fun _ => rfl⟩
    · rw [if_neg h0]
      have hne : left ≠ [] := by rintro rfl; exact h0 rfl
      rcases choice_ok n2216 S hne with ⟨h3, h4⟩ | ⟨h3, o, h4, h5⟩
      · rw [if_pos h3]
        have h6 : 1 < left.length := by simp at h3; exact h3.2
        exact .inr ⟨_, _, left, rfl, hS, h2, h4.symm, by simp [h6], by simp, fun _ => rfl⟩
      · rw [if_neg (by rw [h3]; simp), h4]
        have he : Elim ((setBits mask).map some) s.cands := by rw [← candidatesOf_eq]; exact S.elim
        rw [candidatesOf_eq]
        simp only [Res.ofOption_some, Res.ok_bind]
        have hN := nextOf_ok n2216 more ret td (setBits mask) (setBits_nodup mask) s.cands he
        rw [S.alive] at hN
        rcases hN with ⟨h6, h7⟩ | ⟨surv', left', h6, h7, h8⟩
        · rw [h6]
          exact .inl ⟨rfl, .inr ⟨left, h2, h7⟩⟩
        · rw [h8]
          exact .inr ⟨_, _, left, rfl, hS, h2, h5.symm, rfl, fun o' _ => ⟨surv', left', h6, h7, rfl⟩, fun h => absurd rfl (h o)⟩

theorem evalCells_ok (n2216 : Bool) (more : Nat → Nat → Bool) (ret : Nat → Option Cls) (td : Cls → List Cls) (masks : List Mask) :
    (evalCells n2216 more ret td masks = .ub ∧ ∃ mask ∈ masks, CellUb n2216 more ret td (setBits mask)) ∨
    ∃ rs, evalCells n2216 more ret td masks = .ok rs ∧
      List.Forall₂ (fun mask r => ∃ surv left, CellOk n2216 more ret td (setBits mask) r surv left) masks rs := by
  induction masks with
  | nil => exact .inr ⟨[], rfl, .nil⟩
  | cons m ms ih =>
    rcases evalCell_ok n2216 more ret td m with ⟨h3, h4⟩ | ⟨r, surv, left, h3, h4⟩
    · exact .inl ⟨by simp [evalCells, h3], m, by simp, h4⟩
    · rcases ih with ⟨h1, mask, hm, h2⟩ | ⟨rs, h1, h2⟩
      · exact .inl ⟨by simp [evalCells, h1, h3], mask, by simp [hm], h2⟩
      · exact .inr ⟨r :: rs, by simp [evalCells, h1, h3], .cons ⟨surv, left, h4⟩ h2⟩

end OpenMethod

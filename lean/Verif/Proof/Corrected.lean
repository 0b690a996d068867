import Verif.Model.Corrected
import Verif.Proof.Outcome
import Verif.SpecNext

/-! # The corrected choice of overriders obeys the documented rule -/

namespace OpenMethod

open Spec

theorem mem_keepBest {more : Nat → Nat → Bool} {l : List Nat} {j : Nat} : j ∈ keepBest more l ↔ j ∈ l ∧ ∀ i ∈ l, more i j = false := by
  simp [keepBest]

theorem cellFixed_ovr {more : Nat → Nat → Bool} {l : List Nat} {o : Nat} : cellFixed more l = .ovr o ↔ keepBest more l = [o] := by
  unfold cellFixed
  split
  · simp [keepBest]
  · rename_i h; rw [h]; simp
  · rename_i h1 h2
    constructor
    · intro h; simp at h
    · intro h; exact absurd h (h2 o)

theorem cellFixed_notImplemented {more : Nat → Nat → Bool} {l : List Nat} : cellFixed more l = .notImplemented ↔ l = [] := by
  unfold cellFixed
  split
  · simp
  · rename_i h _; simpa using h
  · rename_i h _; simpa using h

theorem cellFixed_ambiguous {more : Nat → Nat → Bool} {l : List Nat} : cellFixed more l = .ambiguous ↔ l ≠ [] ∧ ∀ o, keepBest more l ≠ [o] := by
  constructor
  · intro h
    exact ⟨fun h' => by rw [cellFixed_notImplemented.2 h'] at h; simp at h, fun o h' => by rw [cellFixed_ovr.2 h'] at h; simp at h⟩
  · rintro ⟨h1, h2⟩
    cases h : cellFixed more l with
    | ambiguous => rfl
    | notImplemented => exact absurd (cellFixed_notImplemented.1 h) h1
    | ovr o => exact absurd (cellFixed_ovr.1 h) (h2 o)

@[simp] theorem evalCellFixed_cell (more : Nat → Nat → Bool) (mask : Mask) : (evalCellFixed more mask).cell = cellFixed more (setBits mask) := by
  unfold evalCellFixed
  split <;> (rename_i h; exact h.symm)

theorem evalCellFixed_amb (more : Nat → Nat → Bool) (mask : Mask) : (evalCellFixed more mask).amb = decide (cellFixed more (setBits mask) = .ambiguous) := by
  unfold evalCellFixed
  split <;> (rename_i h; rw [show cellFixed more (setBits mask) = _ from h]; simp)

theorem fixed_base (pl : Platform) (L : Lattice) (m : Meth) : TableBase pl L m (buildMethodFixed pl L m) := by
  refine ⟨rfl, by simp [buildMethodFixed, methMasks], fun o ho => ?_⟩
  simp only [buildMethodFixed, List.map_map, List.mem_map, Function.comp_apply, evalCellFixed_cell] at ho
  obtain ⟨mask, hm, ho⟩ := ho
  obtain ⟨args, _, rfl⟩ := methMasks_mem hm
  have : o ∈ keepBest (moreAt L m.overriders) (setBits (argMask L m.overriders args)) := by rw [cellFixed_ovr.1 ho]; simp
  exact setBits_lt (mem_keepBest.1 this).1

theorem fixed_at (pl : Platform) (L : Lattice) (m : Meth) {args : List Cls} (ha : ArgsOk L m args) :
    (buildMethodFixed pl L m).table[argOffset pl L m args]? = some (cellFixed (moreAt L m.overriders) (setBits (argMask L m.overriders args))) := by
  have := methMasks_get pl L m args ha
  unfold methMasks at this
  simp only [buildMethodFixed, List.map_map]
  rw [List.getElem?_map, this]
  simp

/-- The documented outcome for each cell. -/
theorem cellFixed_expected {p : Program} (hac : Acyclic p) {L : Lattice} (hL : LatticeOk p L) {m : MethodInfo} (hm : MethOk p L m) {xs : List Cls}
    (hlen : xs.length = m.vp.length) :
    Expected p m xs (match cellFixed (moreAt L (toMeth p.rtti L m).overriders) (setBits (argMask L (toMeth p.rtti L m).overriders xs)) with
      | .ovr i => .run i
      | .notImplemented => .noOverrider
      | .ambiguous => .ambiguous) := by
  rw [argMask_eq hL hm hlen]
  change Expected p m xs (match cellFixed (moreAt L (toMeth p.rtti L m).overriders) (appIdx p m xs) with
      | .ovr i => .run i
      | .notImplemented => .noOverrider
      | .ambiguous => .ambiguous)
  have key : ∀ j, j ∈ keepBest (moreAt L (toMeth p.rtti L m).overriders) (appIdx p m xs) ↔ Undominated p m xs j := by
    intro j
    rw [mem_keepBest, mem_appIdx]
    unfold Undominated
    simp only [mem_appIdx, ← moreAt_iff hL hac hm, Bool.not_eq_true]
  have hnd : (keepBest (moreAt L (toMeth p.rtti L m).overriders) (appIdx p m xs)).Nodup := (appIdx_nodup p m xs).filter _
  cases hc : cellFixed (moreAt L (toMeth p.rtti L m).overriders) (appIdx p m xs) with
  | ovr i =>
    rw [cellFixed_ovr] at hc
    simp only [hc, List.mem_singleton] at key
    exact ⟨(key i).1 rfl, fun j hj => (key j).2 hj⟩
  | notImplemented =>
    rw [cellFixed_notImplemented] at hc
    exact fun i hi => by simpa [hc] using mem_appIdx.2 hi
  | ambiguous =>
    rw [cellFixed_ambiguous] at hc
    obtain ⟨i, hi⟩ := List.exists_mem_of_ne_nil _ hc.1
    refine ⟨⟨i, mem_appIdx.1 hi⟩, ?_⟩
    rintro ⟨j, hj, hu⟩
    refine hc.2 j ?_
    have h1 := (key j).2 hj
    generalize keepBest (moreAt L (toMeth p.rtti L m).overriders) (appIdx p m xs) = l at *
    match l, hnd, h1 with
    | [a], _, h1 => simp at h1; rw [h1]
    | a :: b :: l, hnd, _ =>
      exfalso
      have ha := hu a ((key a).1 (by simp))
      have hb := hu b ((key b).1 (by simp))
      rw [List.nodup_cons] at hnd
      exact hnd.1 (by rw [ha, ← hb]; simp)

/-- What a cell stands for. -/
def Cell.outcome : Cell → Outcome
  | .ovr i => .run i
  | .notImplemented => .noOverrider
  | .ambiguous => .ambiguous

/-- The documented choice among any candidates. -/
theorem cellFixed_best {more : Nat → Nat → Bool} {l : List Nat} (hnd : l.Nodup) : Best (· ∈ l) (fun i j => more i j = true) (cellFixed more l).outcome := by
  have key : ∀ j, j ∈ keepBest more l ↔ j ∈ l ∧ ∀ i, i ∈ l → ¬ more i j = true := by
    intro j
    rw [mem_keepBest]
    simp only [Bool.not_eq_true]
  have hnd' : (keepBest more l).Nodup := hnd.filter _
  cases hc : cellFixed more l with
  | ovr i =>
    rw [cellFixed_ovr] at hc
    simp only [hc, List.mem_singleton] at key
    exact ⟨(key i).1 rfl, fun j hj hj' => (key j).2 ⟨hj, hj'⟩⟩
  | notImplemented =>
    rw [cellFixed_notImplemented] at hc
    exact fun i hi => by simp [hc] at hi
  | ambiguous =>
    rw [cellFixed_ambiguous] at hc
    refine ⟨List.exists_mem_of_ne_nil _ hc.1, ?_⟩
    rintro ⟨j, hj, hu⟩
    refine hc.2 j ?_
    have h1 := (key j).2 hj
    have h2 : ∀ k ∈ keepBest more l, k = j := fun k hk => hu k ((key k).1 hk).1 ((key k).1 hk).2
    generalize keepBest more l = bs at h1 h2 hnd'
    match bs with
    | [] => simp at h1
    | [a] => rw [h2 a (by simp)]
    | a :: b :: l => rw [h2 a (by simp), h2 b (by simp)] at hnd'; simp at hnd'

/-- `next` of an overrider: nothing if no cell holds it, otherwise what is chosen for the arguments of one of its cells, when it is left out. -/
theorem fixed_next (pl : Platform) (L : Lattice) (m : Meth) (o : Nat) :
    ((buildMethodFixed pl L m).next o = none ∧ ∀ args, ArgsOk L m args → cellFixed (moreAt L m.overriders) (setBits (argMask L m.overriders args)) ≠ .ovr o) ∨
    ∃ args, ArgsOk L m args ∧ cellFixed (moreAt L m.overriders) (setBits (argMask L m.overriders args)) = .ovr o ∧
      (buildMethodFixed pl L m).next o = some (cellFixed (moreAt L m.overriders) ((setBits (argMask L m.overriders args)).filter (· ≠ o))) := by
  have hnext : ∀ mask, cellFixed (moreAt L m.overriders) (setBits mask) = .ovr o →
      (evalCellFixed (moreAt L m.overriders) mask).next = some (cellFixed (moreAt L m.overriders) ((setBits mask).filter (· ≠ o))) := by
    intro mask h
    have h' : cellFixed (moreAt L m.overriders) (candidateList mask) = .ovr o := h
    unfold evalCellFixed
    rw [h']
    rfl
  have hrs : buildMethodFixed pl L m = { buildMethodFixed pl L m with next := ((methMasks pl L m).map (evalCellFixed (moreAt L m.overriders))).foldl storeNext (fun _ => none) } := rfl
  rw [hrs]
  dsimp only
  rcases foldl_storeNext ((methMasks pl L m).map (evalCellFixed (moreAt L m.overriders))) (fun _ => none) o with ⟨h1, h2⟩ | ⟨r, hr, hc, c, hn, he⟩
  · refine .inl ⟨h1, fun args ha hc => ?_⟩
    have hm := List.mem_of_getElem? (methMasks_get pl L m args ha)
    have := h2 _ (List.mem_map.2 ⟨_, hm, rfl⟩) (by rw [evalCellFixed_cell]; exact hc)
    rw [hnext _ hc] at this
    simp at this
  · obtain ⟨mask, hm, rfl⟩ := List.mem_map.1 hr
    obtain ⟨args, ha, rfl⟩ := methMasks_mem hm
    rw [evalCellFixed_cell] at hc
    refine .inr ⟨args, ha, hc, ?_⟩
    rw [he, ← hn, hnext _ hc]

end OpenMethod

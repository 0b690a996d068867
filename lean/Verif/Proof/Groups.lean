import Verif.Model.Dispatch
import Verif.Proof.ListLemmas
import Mathlib.Data.List.Nodup
import Mathlib.Tactic.Linarith
import Mathlib.Algebra.BigOperators.Group.List.Basic

/-! # Lemmas about groups, strides and cell positions -/

namespace OpenMethod

/-! ## Groups -/

structure GroupsOk (mask : Cls → Mask) (cs : List Cls) (gs : List Group) : Prop where
  nodup : (gs.map Prod.fst).Nodup
  sorted : gs.Pairwise (fun a b => maskVal a.1 ≤ maskVal b.1)
  mem : ∀ g ∈ gs, ∀ c ∈ g.2, c ∈ cs ∧ mask c = g.1
  cover : ∀ c ∈ cs, ∃ g ∈ gs, g.1 = mask c ∧ c ∈ g.2
  nonempty : ∀ g ∈ gs, g.2 ≠ []

theorem insertGroup_keys (mask : Mask) (c : Cls) (gs : List Group) (k : Mask) :
    k ∈ (insertGroup mask c gs).map Prod.fst ↔ k = mask ∨ k ∈ gs.map Prod.fst := by
  induction gs with
  | nil => simp [insertGroup]
  | cons g gs ih =>
    unfold insertGroup
    split
    · rename_i h; subst h; simp
    · split
      · simp
      · simp only [List.map_cons, List.mem_cons, ih]
        tauto

theorem insertGroup_mem (mask : Mask) (c : Cls) (gs : List Group) (g : Group) (hg : g ∈ insertGroup mask c gs) :
    g ∈ gs ∨ (g.1 = mask ∧ (g.2 = [c] ∨ ∃ g' ∈ gs, g'.1 = mask ∧ g.2 = g'.2 ++ [c])) := by
  induction gs with
  | nil => simp [insertGroup] at hg; subst hg; exact .inr ⟨rfl, .inl rfl⟩
  | cons a gs ih =>
    unfold insertGroup at hg
    split at hg
    · rename_i h
      rcases List.mem_cons.1 hg with rfl | hg
      · exact .inr ⟨h, .inr ⟨a, by simp, h, rfl⟩⟩
      · exact .inl (by simp [hg])
    · split at hg
      · rcases List.mem_cons.1 hg with rfl | hg
        · exact .inr ⟨rfl, .inl rfl⟩
        · exact .inl hg
      · rcases List.mem_cons.1 hg with rfl | hg
        · exact .inl (by simp)
        · rcases ih hg with h | ⟨h1, h2 | ⟨g', hg', h2, h3⟩⟩
          · exact .inl (by simp [h])
          · exact .inr ⟨h1, .inl h2⟩
          · exact .inr ⟨h1, .inr ⟨g', by simp [hg'], h2, h3⟩⟩

theorem insertGroup_keep (mask : Mask) (c : Cls) (gs : List Group) (g : Group) (hg : g ∈ gs) :
    ∃ g' ∈ insertGroup mask c gs, g'.1 = g.1 ∧ ∀ x ∈ g.2, x ∈ g'.2 := by
  induction gs with
  | nil => simp at hg
  | cons a gs ih =>
    unfold insertGroup
    split
    · rcases List.mem_cons.1 hg with rfl | hg
      · exact ⟨(g.1, g.2 ++ [c]), by simp, rfl, by simp +contextual⟩
      · exact ⟨g, by simp [hg], rfl, fun _ h => h⟩
    · split
      · exact ⟨g, List.mem_cons_of_mem _ hg, rfl, fun _ h => h⟩
      · rcases List.mem_cons.1 hg with rfl | hg
        · exact ⟨g, by simp, rfl, fun _ h => h⟩
        · obtain ⟨g', hg', h1, h2⟩ := ih hg
          exact ⟨g', by simp [hg'], h1, h2⟩

theorem insertGroup_new (mask : Mask) (c : Cls) (gs : List Group) : ∃ g ∈ insertGroup mask c gs, g.1 = mask ∧ c ∈ g.2 := by
  induction gs with
  | nil => exact ⟨(mask, [c]), by simp [insertGroup], rfl, by simp⟩
  | cons a gs ih =>
    unfold insertGroup
    split
    · rename_i h
      exact ⟨(a.1, a.2 ++ [c]), by simp, h, by simp⟩
    · split
      · exact ⟨(mask, [c]), by simp, rfl, by simp⟩
      · obtain ⟨g, hg, h1, h2⟩ := ih
        exact ⟨g, by simp [hg], h1, h2⟩

theorem insertGroup_sorted (mask : Mask) (c : Cls) (gs : List Group)
    (hs : gs.Pairwise (fun a b => maskVal a.1 ≤ maskVal b.1)) (hn : (gs.map Prod.fst).Nodup) :
    (insertGroup mask c gs).Pairwise (fun a b => maskVal a.1 ≤ maskVal b.1) ∧
    ((insertGroup mask c gs).map Prod.fst).Nodup := by
  induction gs with
  | nil => simp [insertGroup]
  | cons a gs ih =>
    rw [List.pairwise_cons] at hs
    rw [List.map_cons, List.nodup_cons] at hn
    unfold insertGroup
    split
    · exact ⟨List.pairwise_cons.2 ⟨hs.1, hs.2⟩, by rw [List.map_cons, List.nodup_cons]; exact hn⟩
    · rename_i hne
      split
      · rename_i hlt
        refine ⟨List.pairwise_cons.2 ⟨?_, List.pairwise_cons.2 hs⟩, ?_⟩
        · intro b hb
          rcases List.mem_cons.1 hb with rfl | hb
          · exact Nat.le_of_lt hlt
          · exact Nat.le_trans (Nat.le_of_lt hlt) (hs.1 b hb)
        · rw [List.map_cons, List.nodup_cons, List.map_cons]
          refine ⟨?_, List.nodup_cons.2 hn⟩
          intro hm
          rcases List.mem_cons.1 hm with h | h
          · exact hne h.symm
          · obtain ⟨b, hb, hbm⟩ := List.mem_map.1 h
            have := hs.1 b hb
            rw [hbm] at this
            dsimp only at this
            omega
      · rename_i hge
        obtain ⟨h1, h2⟩ := ih hs.2 hn.2
        refine ⟨List.pairwise_cons.2 ⟨?_, h1⟩, ?_⟩
        · intro b hb
          have hk : b.1 ∈ (insertGroup mask c gs).map Prod.fst := List.mem_map_of_mem hb
          rw [insertGroup_keys] at hk
          rcases hk with h | h
          · rw [h]; omega
          · obtain ⟨b', hb', he⟩ := List.mem_map.1 h
            rw [← he]; exact hs.1 b' hb'
        · rw [List.map_cons, List.nodup_cons]
          refine ⟨?_, h2⟩
          rw [insertGroup_keys]
          rintro (h | h)
          · exact hne h
          · exact hn.1 h

theorem groups_ok (mask : Cls → Mask) (cs : List Cls) :
    GroupsOk mask cs (cs.foldl (fun gs c => insertGroup (mask c) c gs) []) := by
  refine foldl_inv_prefix (GroupsOk mask) _ cs [] ⟨by simp, by simp, by simp, by simp, by simp⟩ ?_
  intro pre c post gs _ h
  obtain ⟨h1, h2⟩ := insertGroup_sorted (mask c) c gs h.sorted h.nodup
  refine ⟨h2, h1, ?_, ?_, ?_⟩
  · intro g hg x hx
    rcases insertGroup_mem _ _ _ _ hg with h' | ⟨h3, h4 | ⟨g', hg', h4, h5⟩⟩
    · exact ⟨List.mem_append_left _ (h.mem g h' x hx).1, (h.mem g h' x hx).2⟩
    · rw [h4] at hx; simp at hx; subst hx; exact ⟨by simp, h3.symm⟩
    · rw [h5] at hx
      rcases List.mem_append.1 hx with hx | hx
      · exact ⟨List.mem_append_left _ (h.mem g' hg' x hx).1, by rw [(h.mem g' hg' x hx).2, h4, h3]⟩
      · simp at hx; subst hx; exact ⟨by simp, h3.symm⟩
  · intro x hx
    rcases List.mem_append.1 hx with hx | hx
    · obtain ⟨g, hg, h3, h4⟩ := h.cover x hx
      obtain ⟨g', hg', h5, h6⟩ := insertGroup_keep (mask c) c gs g hg
      exact ⟨g', hg', by rw [h5, h3], h6 x h4⟩
    · simp at hx; subst hx
      exact insertGroup_new _ _ _
  · intro g hg
    rcases insertGroup_mem _ _ _ _ hg with h' | ⟨h3, h4 | ⟨g', hg', h4, h5⟩⟩
    · exact h.nonempty g h'
    · rw [h4]; simp
    · rw [h5]; simp

/-- The position of a class's group is determined by its mask. -/
theorem GroupsOk.index {mask : Cls → Mask} {cs : List Cls} {gs : List Group} (h : GroupsOk mask cs gs) {c : Cls}
    (hc : c ∈ cs) : ∃ (n : Nat) (g : Group), gs[n]? = some g ∧ g.1 = mask c ∧ c ∈ g.2 := by
  obtain ⟨g, hg, h1, h2⟩ := h.cover c hc
  obtain ⟨n, hn⟩ := List.getElem?_of_mem hg
  exact ⟨n, g, hn, h1, h2⟩

theorem GroupsOk.index_unique {mask : Cls → Mask} {cs : List Cls} {gs : List Group} (h : GroupsOk mask cs gs) {n n' : Nat}
    {g g' : Group} (hn : gs[n]? = some g) (hn' : gs[n']? = some g') (he : g.1 = g'.1) : n = n' := by
  have h1 : (gs.map Prod.fst)[n]? = some g.1 := by simp [hn]
  have h2 : (gs.map Prod.fst)[n']? = some g.1 := by simp [hn', he]
  have hl := (List.getElem?_eq_some_iff.1 h1).1
  exact (List.getElem?_inj hl h.nodup).1 (h1.trans h2.symm)

/-! ## Masks -/

theorem maskAnd_get (a b : Mask) (i : Nat) :
    (maskAnd a b)[i]? = some true ↔ a[i]? = some true ∧ b[i]? = some true := by
  unfold maskAnd
  rw [List.getElem?_zipWith]
  cases a[i]? <;> cases b[i]? <;> simp

theorem maskAnd_length (a b : Mask) (n : Nat) (ha : a.length = n) (hb : b.length = n) : (maskAnd a b).length = n := by
  simp [maskAnd, ha, hb]

theorem mask_ext {a b : Mask} (hl : a.length = b.length) (h : ∀ i : Nat, a[i]? = some true ↔ b[i]? = some true) : a = b := by
  apply List.ext_getElem hl
  intro i h1 h2
  have := h i
  rw [List.getElem?_eq_getElem h1, List.getElem?_eq_getElem h2] at this
  simp only [Option.some.injEq] at this
  cases ha : a[i] <;> cases hb : b[i] <;> simp_all

/-! ## Positions of cells -/

/-- Number of cells of some dimensions. -/
def cellCount (dims : List (List Mask)) : Nat := (dims.map List.length).prod

theorem cellMasks_length (dims : List (List Mask)) (cand : Mask) : (cellMasks dims cand).length = cellCount dims := by
  induction dims generalizing cand with
  | nil => rfl
  | cons d dims ih =>
    unfold cellMasks cellCount
    rw [List.length_flatMap]
    simp only [ih, List.map_cons, List.prod_cons]
    simp [cellCount]

theorem getElem?_flatMap_uniform {α β : Type} (f : α → List β) (k : Nat) (l : List α) (hf : ∀ a ∈ l, (f a).length = k)
    (i j : Nat) (hj : j < k) : (l.flatMap f)[i * k + j]? = (l[i]?).bind fun a => (f a)[j]? := by
  induction l generalizing i with
  | nil => simp
  | cons a l ih =>
    rw [List.flatMap_cons]
    cases i with
    | zero =>
      have := hf a (by simp)
      simp only [Nat.zero_mul, Nat.zero_add, List.getElem?_cons_zero, Option.bind_some]
      rw [List.getElem?_append_left (by omega)]
    | succ i =>
      have hfa := hf a (by simp)
      rw [List.getElem?_append_right (by rw [hfa]; nlinarith)]
      rw [hfa, show (i + 1) * k + j - k = i * k + j by rw [Nat.succ_mul]; omega]
      rw [ih (fun b hb => hf b (by simp [hb]))]
      simp

/-- Position of the cell designated by one group index per dimension (last dimension first). -/
def cellIndex : List (List Mask) → List Nat → Nat
  | _ :: dims, g :: gs => g * cellCount dims + cellIndex dims gs
  | _, _ => 0

theorem cellIndex_lt (dims : List (List Mask)) (gs : List Nat) (h : List.Forall₂ (fun d g => g < d.length) dims gs) :
    cellIndex dims gs < cellCount dims := by
  induction h with
  | nil => simp [cellIndex, cellCount]
  | @cons d g dims gs hd _ ih =>
    have : cellCount (d :: dims) = d.length * cellCount dims := by simp [cellCount]
    rw [cellIndex, this]
    nlinarith

/-- The cell designated by group indices has the conjunction of the masks of these groups. -/
theorem cellMasks_get (dims : List (List Mask)) (gs : List Nat) (ms : List Mask) (cand : Mask)
    (h : List.Forall₂ (fun d g => g < d.length) dims gs)
    (hm : List.Forall₂ (fun (dg : List Mask × Nat) m => dg.1[dg.2]? = some m) (dims.zip gs) ms) :
    (cellMasks dims cand)[cellIndex dims gs]? = some (ms.foldl maskAnd cand) := by
  induction h generalizing ms cand with
  | nil =>
    simp at hm
    subst hm
    simp [cellMasks, cellIndex]
  | @cons d g dims gs hd hrest ih =>
    rw [List.zip_cons_cons] at hm
    cases hm with
    | @cons _ m _ ms hdm hm =>
      unfold cellMasks
      rw [cellIndex, getElem?_flatMap_uniform _ (cellCount dims) d (fun a _ => cellMasks_length dims _) g _
        (cellIndex_lt dims gs hrest)]
      dsimp only at hdm
      rw [hdm]
      simp only [Option.bind_some, List.foldl_cons]
      exact ih ms (maskAnd cand m) hm

/-- Every mask of a cell is the conjunction of one mask per dimension. -/
theorem mem_cellMasks (dims : List (List Mask)) (cand m : Mask) (h : m ∈ cellMasks dims cand) :
    ∃ ms, List.Forall₂ (fun d x => x ∈ d) dims ms ∧ m = ms.foldl maskAnd cand := by
  induction dims generalizing cand with
  | nil =>
    simp [cellMasks] at h
    exact ⟨[], .nil, by simp [h]⟩
  | cons d dims ih =>
    unfold cellMasks at h
    obtain ⟨g, hg, h⟩ := List.mem_flatMap.1 h
    obtain ⟨ms, h1, h2⟩ := ih (maskAnd cand g) h
    exact ⟨g :: ms, .cons hg h1, by simpa using h2⟩

theorem foldl_maskAnd_get (ms : List Mask) (cand : Mask) (i : Nat) :
    (ms.foldl maskAnd cand)[i]? = some true ↔ cand[i]? = some true ∧ ∀ m ∈ ms, m[i]? = some true := by
  induction ms generalizing cand with
  | nil => simp
  | cons m ms ih =>
    rw [List.foldl_cons, ih, maskAnd_get]
    simp [and_assoc]

theorem foldl_maskAnd_length (ms : List Mask) (cand : Mask) (n : Nat) (hc : cand.length = n) (h : ∀ m ∈ ms, m.length = n) :
    (ms.foldl maskAnd cand).length = n := by
  induction ms generalizing cand with
  | nil => exact hc
  | cons m ms ih =>
    rw [List.foldl_cons]
    exact ih _ (maskAnd_length _ _ n hc (h m (by simp))) fun x hx => h x (by simp [hx])

end OpenMethod

import Verif.Proof.Compile

/-! # Bounds of the numbers computed by `initialize` -/

namespace OpenMethod

open Spec

variable {L : Lattice} {usedBy : Cls → List (Nat × Nat)} {rk : Cls → Nat} {pl : Platform}

/-- Number of virtual parameters of the classes of a list. -/
def paramsOf (usedBy : Cls → List (Nat × Nat)) (l : List Cls) : Nat := (l.map fun c => (usedBy c).length).sum

theorem sublist_sum {l l' : List Nat} (h : l.Sublist l') : l.sum ≤ l'.sum := by
  induction h with
  | slnil => exact le_rfl
  | cons a _ ih => rw [List.sum_cons]; omega
  | cons_cons a _ ih => rw [List.sum_cons, List.sum_cons]; omega

theorem paramsOf_le {l l' : List Cls} (hn : l.Nodup) (h : l ⊆ l') : paramsOf usedBy l ≤ paramsOf usedBy l' := by
  obtain ⟨k, hk, hs⟩ := List.subperm_of_subset hn h
  unfold paramsOf
  rw [← (hk.map fun c => (usedBy c).length).sum_eq]
  exact sublist_sum (hs.map _)

/-- Nothing computed so far exceeds the number of virtual parameters. -/
structure SlotBound (L : Lattice) (usedBy : Cls → List (Nat × Nat)) (s : SlotState) : Prop where
  slots : ∀ mp, s.slots mp = 0 ∨ s.slots mp < paramsOf usedBy L.order
  sizes : ∀ x, s.first x + s.size x ≤ paramsOf usedBy L.order
  nodup : s.marked.Nodup
  marked : s.marked ⊆ L.order
  used : ∀ x, (s.used x).length ≤ paramsOf usedBy s.marked
  reserved : ∀ x, (s.reserved x).length ≤ paramsOf usedBy s.marked

theorem numberSlots_bound (slots : Nat × Nat → Nat) (next : Nat) (l : List (Nat × Nat)) (mp : Nat × Nat) :
    numberSlots slots next l mp = slots mp ∨ numberSlots slots next l mp < next + l.length := by
  induction l generalizing slots next with
  | nil => exact .inl rfl
  | cons a l ih =>
    rw [numberSlots]
    rcases ih (Function.update slots a next) (next + 1) with h | h
    · by_cases hm : mp = a
      · subst hm
        right
        rw [h, Function.update_self, List.length_cons]
        omega
      · left
        rw [h, Function.update_of_ne hm]
    · right
      rw [List.length_cons]
      omega

theorem assignTree_bound (H : SlotCtx L usedBy rk) (fuel : Nat) : ∀ (s : SlotState) (c : Cls) (base : Nat) (path : List Cls), SlotBound L usedBy s →
    c ∈ L.order → path.Nodup → path ⊆ L.order → (∀ x ∈ path, rk x < rk c) → base ≤ paramsOf usedBy path →
    SlotBound L usedBy (assignTree L usedBy fuel s c base) := by
  induction fuel with
  | zero => intro s c base path h _ _ _ _ _; exact h
  | succ fuel ih =>
    intro s c base path h hc hn hp hr hb
    rw [assignTree]
    have hn' : (c :: path).Nodup := List.nodup_cons.2 ⟨fun hm => (hr c hm).ne rfl, hn⟩
    have hp' : c :: path ⊆ L.order := List.cons_subset.2 ⟨hc, hp⟩
    have hb' : base + (usedBy c).length ≤ paramsOf usedBy (c :: path) := by
      simp only [paramsOf, List.map_cons, List.sum_cons] at hb ⊢
      omega
    have hV := paramsOf_le (usedBy := usedBy) hn' hp'
    have h0 : SlotBound L usedBy { s with
        slots := numberSlots s.slots base (usedBy c)
        first := Function.update s.first c 0
        size := Function.update s.size c (base + (usedBy c).length) } := by
      refine ⟨fun mp => ?_, fun x => ?_, h.nodup, h.marked, h.used, h.reserved⟩
      · dsimp only
        rcases numberSlots_bound s.slots base (usedBy c) mp with e | e
        · rw [e]; exact h.slots mp
        · right; omega
      · dsimp only
        by_cases hx : x = c
        · subst hx
          rw [Function.update_self, Function.update_self]
          omega
        · rw [Function.update_of_ne hx, Function.update_of_ne hx]
          exact h.sizes x
    generalize ({ s with
        slots := numberSlots s.slots base (usedBy c)
        first := Function.update s.first c 0
        size := Function.update s.size c (base + (usedBy c).length) } : SlotState) = s0 at h0
    have hd : ∀ d ∈ L.dd c, d ∈ L.order ∧ rk c < rk d := fun d hd => ⟨((H.mem_dd c d).1 hd).1, H.rk_lt d c ((H.mem_dd c d).1 hd).2⟩
    generalize L.dd c = ds at hd
    induction ds generalizing s0 with
    | nil => exact h0
    | cons d ds ihd =>
      rw [List.foldl_cons]
      obtain ⟨h1, h2⟩ := hd d List.mem_cons_self
      refine ihd _ ?_ fun d hd' => hd d (List.mem_cons_of_mem _ hd')
      refine ih s0 d _ (c :: path) h0 h1 hn' hp' (fun x hx => ?_) hb'
      rcases List.mem_cons.1 hx with rfl | hx
      · exact h2
      · exact (hr x hx).trans h2

theorem mergeInto_len (a b : Bits) : (mergeInto a b).length = max a.length b.length := by simp [mergeInto]

theorem setBit_len (a : Bits) (i : Nat) : (setBit a i).length = max a.length (i + 1) := by simp [setBit]

theorem firstClear_le (b : Bits) : firstClear b ≤ b.length := by
  induction b with
  | nil => exact le_rfl
  | cons a b ih => cases a <;> simp [firstClear, ih]

theorem firstSet_le (b : Bits) : firstSet b ≤ b.length := by
  induction b with
  | nil => exact le_rfl
  | cons a b ih =>
    cases a
    · rw [firstSet]
      split
      · simpa using ih
      · exact Nat.zero_le _
    · simp [firstSet]

/-- The masks are not longer than `n`. -/
structure LenBound (n : Nat) (s : SlotState) : Prop where
  used : ∀ x, (s.used x).length ≤ n
  reserved : ∀ x, (s.reserved x).length ≤ n

theorem reserveIn_bound {n : Nat} {b : Bits} (hb : b.length ≤ n) (l : List Cls) {r : Cls → Bits} (hr : ∀ x, (r x).length ≤ n) (x : Cls) :
    (reserveIn b r l x).length ≤ n := by
  unfold reserveIn
  induction l generalizing r with
  | nil => exact hr x
  | cons c l ih =>
    rw [List.foldl_cons]
    refine ih fun y => ?_
    by_cases hy : y = c
    · subst hy
      rw [Function.update_self, mergeInto_len]
      exact max_le hb (hr _)
    · rw [Function.update_of_ne hy]
      exact hr y

theorem assignParam_bound {n : Nat} {s : SlotState} (c : Cls) (mp : Nat × Nat) (h : LenBound n s) :
    LenBound (n + 1) (assignParam pl L c s mp) ∧ (assignParam pl L c s mp).marked = s.marked ∧ (assignParam pl L c s mp).first = s.first ∧
      (assignParam pl L c s mp).size = s.size ∧ ∃ slot ≤ n, (assignParam pl L c s mp).slots = Function.update s.slots mp slot := by
  have hslot : firstClear (mergeInto (s.reserved c) (s.used c)) ≤ n := by
    refine (firstClear_le _).trans ?_
    rw [mergeInto_len]
    exact max_le (h.reserved c) (h.used c)
  unfold assignParam
  dsimp only
  generalize hsl : firstClear (mergeInto (s.reserved c) (s.used c)) = slot at hslot
  have hu : ∀ x, (Function.update s.used c (setBit (s.used c) slot) x).length ≤ n + 1 := by
    intro x
    by_cases hx : x = c
    · subst hx
      rw [Function.update_self, setBit_len]
      have := h.used x
      omega
    · rw [Function.update_of_ne hx]
      have := h.used x
      omega
  have hr : ∀ x, (Function.update s.reserved c (setBit (s.reserved c) slot) x).length ≤ n + 1 := by
    intro x
    by_cases hx : x = c
    · subst hx
      rw [Function.update_self, setBit_len]
      have := h.reserved x
      omega
    · rw [Function.update_of_ne hx]
      have := h.reserved x
      omega
  have key : ∀ (l : List Cls) (t : SlotState), LenBound (n + 1) t → LenBound (n + 1) (l.foldl (assignCovariant L c) t) ∧
      (l.foldl (assignCovariant L c) t).marked = t.marked ∧ (l.foldl (assignCovariant L c) t).first = t.first ∧
      (l.foldl (assignCovariant L c) t).size = t.size ∧ (l.foldl (assignCovariant L c) t).slots = t.slots := by
    intro l
    induction l with
    | nil => intro t ht; exact ⟨ht, rfl, rfl, rfl, rfl⟩
    | cons d l ih =>
      intro t ht
      rw [List.foldl_cons]
      have h1 : LenBound (n + 1) (assignCovariant L c t d) := by
        unfold assignCovariant
        split
        · refine ⟨fun x => ?_, fun x => reserveIn_bound (ht.used c) _ ht.reserved x⟩
          dsimp only
          by_cases hx : x = d
          · subst hx
            rw [Function.update_self, mergeInto_len]
            exact max_le (ht.used _) (ht.used _)
          · rw [Function.update_of_ne hx]
            exact ht.used x
        · exact ht
      have h2 : (assignCovariant L c t d).marked = t.marked ∧ (assignCovariant L c t d).first = t.first ∧ (assignCovariant L c t d).size = t.size ∧
          (assignCovariant L c t d).slots = t.slots := by
        unfold assignCovariant
        split <;> exact ⟨rfl, rfl, rfl, rfl⟩
      obtain ⟨a, b, c', d', e⟩ := ih _ h1
      exact ⟨a, b.trans h2.1, c'.trans h2.2.1, d'.trans h2.2.2.1, e.trans h2.2.2.2⟩
  obtain ⟨a, b, c', d', e⟩ := key (pl.iter c (L.td c)) { s with
    slots := Function.update s.slots mp slot
    used := Function.update s.used c (setBit (s.used c) slot)
    reserved := reserveIn (Function.update s.used c (setBit (s.used c) slot) c) (Function.update s.reserved c (setBit (s.reserved c) slot)) (L.tb c) }
    ⟨hu, fun x => reserveIn_bound (hu c) _ hr x⟩
  exact ⟨a, b, c', d', slot, hslot, e⟩

theorem assignParams_bound {V : Nat} (c : Cls) (l : List (Nat × Nat)) : ∀ {n : Nat} {s : SlotState}, LenBound n s → n + l.length ≤ V →
    (∀ mp, s.slots mp = 0 ∨ s.slots mp < V) → LenBound (n + l.length) (l.foldl (assignParam pl L c) s) ∧
      (l.foldl (assignParam pl L c) s).marked = s.marked ∧ (l.foldl (assignParam pl L c) s).first = s.first ∧
      (l.foldl (assignParam pl L c) s).size = s.size ∧ ∀ mp, (l.foldl (assignParam pl L c) s).slots mp = 0 ∨ (l.foldl (assignParam pl L c) s).slots mp < V := by
  induction l with
  | nil => intro n s h _ hs; exact ⟨h, rfl, rfl, rfl, hs⟩
  | cons mp l ih =>
    intro n s h hV hs
    rw [List.length_cons] at hV ⊢
    rw [List.foldl_cons]
    obtain ⟨h1, h2, h3, h4, slot, h5, h6⟩ := assignParam_bound (pl := pl) (L := L) c mp h
    obtain ⟨g1, g2, g3, g4, g5⟩ := ih h1 (by omega) (by
      intro mp'
      rw [h6]
      by_cases hm : mp' = mp
      · subst hm
        rw [Function.update_self]
        right; omega
      · rw [Function.update_of_ne hm]
        exact hs mp')
    refine ⟨?_, g2.trans h2, g3.trans h3, g4.trans h4, g5⟩
    rwa [show n + (l.length + 1) = n + 1 + l.length by omega]

theorem assignLattice_bound (H : SlotCtx L usedBy rk) (fuel : Nat) : ∀ (s : SlotState) (c : Cls), SlotBound L usedBy s → c ∈ L.order →
    SlotBound L usedBy (assignLattice pl L usedBy fuel s c) := by
  induction fuel with
  | zero => intro s c h _; exact h
  | succ fuel ih =>
    intro s c h hc
    rw [assignLattice]
    split
    · exact h
    · rename_i hm
      have hn : (s.marked ++ [c]).Nodup := List.nodup_append.2 ⟨h.nodup, List.nodup_singleton c, fun a ha b hb e => hm (by
        obtain rfl := List.mem_singleton.1 hb
        exact e ▸ ha)⟩
      have hs : s.marked ++ [c] ⊆ L.order := List.append_subset.2 ⟨h.marked, List.cons_subset.2 ⟨hc, List.nil_subset _⟩⟩
      have hV := paramsOf_le (usedBy := usedBy) hn hs
      have he : paramsOf usedBy (s.marked ++ [c]) = paramsOf usedBy s.marked + (usedBy c).length := by simp [paramsOf]
      obtain ⟨h1, h2, h3, h4, h5⟩ := assignParams_bound (pl := pl) (L := L) (V := paramsOf usedBy L.order) c (usedBy c) (n := paramsOf usedBy s.marked)
        (s := { s with marked := s.marked ++ [c] }) ⟨h.used, h.reserved⟩ (by omega) h.slots
      have h0 : SlotBound L usedBy ((usedBy c).foldl (assignParam pl L c) { s with marked := s.marked ++ [c] }) := by
        refine ⟨h5, fun x => ?_, ?_, ?_, fun x => ?_, fun x => ?_⟩
        · rw [h3, h4]; exact h.sizes x
        · rw [h2]; exact hn
        · rw [h2]; exact hs
        · rw [h2]; show _ ≤ paramsOf usedBy (s.marked ++ [c]); rw [he]; exact h1.used x
        · rw [h2]; show _ ≤ paramsOf usedBy (s.marked ++ [c]); rw [he]; exact h1.reserved x
      generalize (usedBy c).foldl (assignParam pl L c) { s with marked := s.marked ++ [c] } = s0 at h0
      have hd : ∀ d ∈ L.dd c, d ∈ L.order := fun d hd => ((H.mem_dd c d).1 hd).1
      generalize L.dd c = ds at hd
      induction ds generalizing s0 with
      | nil => exact h0
      | cons d ds ihd =>
        rw [List.foldl_cons]
        exact ihd _ (ih s0 d h0 (hd d List.mem_cons_self)) fun d hd' => hd d (List.mem_cons_of_mem _ hd')

theorem assignSlots_bound (H : SlotCtx L usedBy rk) (pl : Platform) :
    (∀ mp, (assignSlots pl L usedBy).slots mp = 0 ∨ (assignSlots pl L usedBy).slots mp < paramsOf usedBy L.order) ∧
    ∀ x, (assignSlots pl L usedBy).first x + (assignSlots pl L usedBy).size x ≤ paramsOf usedBy L.order := by
  have h1 : ∀ (l : List Cls) (s : SlotState), l ⊆ L.order → SlotBound L usedBy s → SlotBound L usedBy (l.foldl (assignRoot pl L usedBy) s) := by
    intro l
    induction l with
    | nil => intro s _ h; exact h
    | cons c l ih =>
      intro s hl h
      obtain ⟨hc, hl⟩ := List.cons_subset.1 hl
      rw [List.foldl_cons]
      refine ih _ hl ?_
      unfold assignRoot
      split
      · split
        · exact assignLattice_bound H _ s c h hc
        · exact assignTree_bound H _ s c 0 [] h hc List.nodup_nil (List.nil_subset _) (by simp) (Nat.zero_le _)
      · exact h
  have h2 := h1 L.order SlotState.init (List.Subset.refl _) ⟨fun _ => .inl rfl, fun _ => Nat.zero_le _, List.nodup_nil, List.nil_subset _, fun _ => Nat.zero_le _, fun _ => Nat.zero_le _⟩
  unfold assignSlots
  generalize L.order.foldl (assignRoot pl L usedBy) SlotState.init = s at h2
  have hu : ∀ x, (s.used x).length ≤ paramsOf usedBy L.order := fun x => (h2.used x).trans (paramsOf_le h2.nodup h2.marked)
  have h3 := h2.slots
  have h4 := h2.sizes
  clear h2
  generalize hV : paramsOf usedBy L.order = V at *
  generalize L.order = l
  induction l generalizing s with
  | nil => exact ⟨h3, h4⟩
  | cons c l ih =>
    rw [List.foldl_cons]
    have hs : (sizeVtbl s c).slots = s.slots ∧ (sizeVtbl s c).used = s.used := by
      unfold sizeVtbl
      split <;> exact ⟨rfl, rfl⟩
    refine ih (sizeVtbl s c) (by rw [hs.2]; exact hu) (by rw [hs.1]; exact h3) fun x => ?_
    unfold sizeVtbl
    split
    · exact h4 x
    · dsimp only
      by_cases hx : x = c
      · subst hx
        rw [Function.update_self, Function.update_self]
        have := firstSet_le (s.used x)
        have := hu x
        omega
      · rw [Function.update_of_ne hx, Function.update_of_ne hx]
        exact h4 x

end OpenMethod

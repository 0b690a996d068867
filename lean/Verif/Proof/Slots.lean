import Verif.Model.Slots
import Verif.Proof.Classes
import Mathlib.Data.List.Nodup

/-! # Lemmas about slot allocation -/

namespace OpenMethod

open Spec Relation

/-! ## Bit sets -/

theorem Bits.test_lt {b : Bits} {i : Nat} (h : b.test i = true) : i < b.length := by
  unfold Bits.test at h
  by_contra hc
  rw [List.getElem?_eq_none (by omega)] at h
  simp at h

theorem test_range_map {n : Nat} {f : Nat → Bool} {i : Nat} :
    Bits.test ((List.range n).map f) i = (decide (i < n) && f i) := by
  unfold Bits.test
  by_cases h : i < n
  · simp [h]
  · simp [h]

theorem test_mergeInto (a b : Bits) (i : Nat) : (mergeInto a b).test i = (a.test i || b.test i) := by
  unfold mergeInto
  rw [test_range_map]
  by_cases h : i < max a.length b.length
  · simp [h]
  · have ha : a.test i = false := by
      by_contra hc; have := Bits.test_lt (by simpa using hc); omega
    have hb : b.test i = false := by
      by_contra hc; have := Bits.test_lt (by simpa using hc); omega
    simp [ha, hb]

theorem test_setBit (m : Bits) (b i : Nat) : (setBit m b).test i = (m.test i || decide (i = b)) := by
  unfold setBit
  rw [test_range_map]
  by_cases h : i < max m.length (b + 1)
  · simp [h]
  · have ha : m.test i = false := by
      by_contra hc; have := Bits.test_lt (by simpa using hc); omega
    have : i ≠ b := by omega
    simp [ha, this]

theorem test_firstClear (l : Bits) : l.test (firstClear l) = false := by
  induction l with
  | nil => rfl
  | cons b l ih =>
    cases b
    · rfl
    · simpa [firstClear, Bits.test] using ih

/-- A bit set without leading zeros: empty, or its last bit is set. -/
def Bits.Canonical (b : Bits) : Prop := b = [] ∨ b.test (b.length - 1) = true

theorem canonical_mergeInto {a b : Bits} (ha : a.Canonical) (hb : b.Canonical) : (mergeInto a b).Canonical := by
  unfold Bits.Canonical at *
  have hl : (mergeInto a b).length = max a.length b.length := by simp [mergeInto]
  rw [hl, test_mergeInto]
  rcases ha with rfl | ha
  · rcases hb with rfl | hb
    · left; simp [mergeInto]
    · right; simp [hb]
  · rcases hb with rfl | hb
    · right; simp [ha]
    · right
      rcases Nat.le_total a.length b.length with h | h
      · rw [max_eq_right h, hb]; simp
      · rw [max_eq_left h, ha]; simp

theorem canonical_setBit {m : Bits} {b : Nat} (h : m.Canonical) : (setBit m b).Canonical := by
  unfold Bits.Canonical at *
  have hl : (setBit m b).length = max m.length (b + 1) := by simp [setBit]
  rw [hl, test_setBit]
  right
  rcases h with rfl | h
  · simp
  · rcases Nat.le_total m.length (b + 1) with h' | h'
    · rw [max_eq_right h']; simp
    · rw [max_eq_left h', h]; simp

theorem firstSet_spec {l : Bits} (h : ∃ i, l.test i = true) :
    l.test (firstSet l) = true ∧ ∀ i, l.test i = true → firstSet l ≤ i := by
  induction l with
  | nil => obtain ⟨i, hi⟩ := h; simp [Bits.test] at hi
  | cons b l ih =>
    cases b
    · have h' : ∃ i, Bits.test l i = true := by
        obtain ⟨i, hi⟩ := h
        cases i with
        | zero => simp [Bits.test] at hi
        | succ i => exact ⟨i, by simpa [Bits.test] using hi⟩
      obtain ⟨h1, h2⟩ := ih h'
      have hm : true ∈ l := by
        obtain ⟨i, hi⟩ := h'
        have hlt := Bits.test_lt hi
        unfold Bits.test at hi
        rw [List.getElem?_eq_getElem hlt] at hi
        simp at hi
        rw [← hi]; simp
      simp only [firstSet, hm, if_true]
      refine ⟨by simpa [Bits.test] using h1, fun i hi => ?_⟩
      cases i with
      | zero => simp [Bits.test] at hi
      | succ i => exact Nat.succ_le_succ (h2 i (by simpa [Bits.test] using hi))
    · simp [firstSet, Bits.test]

/-! ## The context: a finite acyclic lattice and the parameters placed in it -/

/-- `u` is `v` or derives from it, following direct bases. -/
def Up (L : Lattice) : Cls → Cls → Prop := ReflTransGen (fun u v => v ∈ L.db u)

/-- What slot allocation relies on. -/
structure SlotCtx (L : Lattice) (usedBy : Cls → List (Nat × Nat)) (rk : Cls → Nat) : Prop where
  mem_dd : ∀ b d, d ∈ L.dd b ↔ d ∈ L.order ∧ b ∈ L.db d
  db_mem : ∀ d b, b ∈ L.db d → d ∈ L.order ∧ b ∈ L.order
  rk_lt : ∀ d b, b ∈ L.db d → rk b < rk d
  rk_le : ∀ c, rk c ≤ L.order.length
  mem_td : ∀ c ∈ L.order, ∀ x, x ∈ L.td c ↔ Up L x c
  used_mem : ∀ c mp, mp ∈ usedBy c → c ∈ L.order
  used_unique : ∀ c d mp, mp ∈ usedBy c → mp ∈ usedBy d → c = d
  used_nodup : ∀ c, (usedBy c).Nodup

variable {L : Lattice} {usedBy : Cls → List (Nat × Nat)} {rk : Cls → Nat}

theorem Up.rank (H : SlotCtx L usedBy rk) {x y : Cls} (h : Up L x y) : rk y ≤ rk x := by
  induction h with
  | refl => exact le_rfl
  | tail _ h ih => exact ((H.rk_lt _ _ h).le).trans ih

theorem Up.antisymm (H : SlotCtx L usedBy rk) {x y : Cls} (h : Up L x y) (h' : Up L y x) : x = y := by
  rcases ReflTransGen.cases_head h with h1 | ⟨z, hz, h1⟩
  · exact h1
  · have a := H.rk_lt _ _ hz
    have b := Up.rank H h1
    have c := Up.rank H h'
    omega

theorem Up.mem (H : SlotCtx L usedBy rk) {x y : Cls} (h : Up L x y) (hy : y ∈ L.order) : x ∈ L.order := by
  rcases ReflTransGen.cases_head h with h1 | ⟨z, hz, _⟩
  · exact h1 ▸ hy
  · exact (H.db_mem _ _ hz).1

theorem Up.mem' (H : SlotCtx L usedBy rk) {x y : Cls} (h : Up L x y) (hx : x ∈ L.order) : y ∈ L.order := by
  rcases ReflTransGen.cases_tail h with h1 | ⟨z, _, hz⟩
  · exact h1 ▸ hx
  · exact (H.db_mem _ _ hz).2

/-- A class is below `c` if it is `c` or below one of its direct derived classes. -/
theorem up_iff (H : SlotCtx L usedBy rk) {x c : Cls} : Up L x c ↔ x = c ∨ ∃ d ∈ L.dd c, Up L x d := by
  constructor
  · intro h
    rcases ReflTransGen.cases_tail h with h1 | ⟨d, hd, h1⟩
    · exact .inl h1.symm
    · exact .inr ⟨d, (H.mem_dd _ _).2 ⟨(H.db_mem _ _ h1).1, h1⟩, hd⟩
  · rintro (rfl | ⟨d, hd, h⟩)
    · exact .refl
    · exact h.tail ((H.mem_dd _ _).1 hd).2

/-! ## Trees -/

theorem numberSlots_other (slots : Nat × Nat → Nat) (next : Nat) (mps : List (Nat × Nat)) (mp : Nat × Nat)
    (h : mp ∉ mps) : numberSlots slots next mps mp = slots mp := by
  induction mps generalizing slots next with
  | nil => rfl
  | cons a l ih =>
    simp only [List.mem_cons, not_or] at h
    rw [numberSlots, ih _ _ h.2, Function.update_of_ne h.1]

theorem numberSlots_get (slots : Nat × Nat → Nat) (next : Nat) (mps : List (Nat × Nat)) (hn : mps.Nodup) (j : Nat)
    (mp : Nat × Nat) (h : mps[j]? = some mp) : numberSlots slots next mps mp = next + j := by
  induction mps generalizing slots next j with
  | nil => simp at h
  | cons a l ih =>
    rw [List.nodup_cons] at hn
    cases j with
    | zero =>
      simp only [List.getElem?_cons_zero, Option.some.injEq] at h
      subst h
      rw [numberSlots, numberSlots_other _ _ _ _ hn.1]
      simp
    | succ j =>
      simp only [List.getElem?_cons_succ] at h
      rw [numberSlots, ih _ _ hn.2 j h]
      omega

/-- Number of slots used above `c` in a tree. -/
def treeBase (L : Lattice) (usedBy : Cls → List (Nat × Nat)) : Nat → Cls → Nat
  | 0, _ => 0
  | n + 1, c =>
    match L.db c with
    | [b] => treeBase L usedBy n b + (usedBy b).length
    | _ => 0

theorem treeBase_fuel (H : SlotCtx L usedBy rk) (n m : Nat) (c : Cls) (hn : rk c < n) (hm : rk c < m) :
    treeBase L usedBy n c = treeBase L usedBy m c := by
  induction n generalizing m c with
  | zero => omega
  | succ n ih =>
    obtain ⟨m, rfl⟩ : ∃ k, m = k + 1 := ⟨m - 1, by omega⟩
    unfold treeBase
    split
    · rename_i b hb
      have := H.rk_lt c b (by rw [hb]; simp)
      rw [ih m b (by omega) (by omega)]
    · rfl

/-- The same, without fuel. -/
def tbase (L : Lattice) (usedBy : Cls → List (Nat × Nat)) (rk : Cls → Nat) (c : Cls) : Nat :=
  treeBase L usedBy (rk c + 1) c

theorem tbase_root {c : Cls} (h : L.db c = []) : tbase L usedBy rk c = 0 := by
  simp [tbase, treeBase, h]

theorem tbase_step (H : SlotCtx L usedBy rk) {c b : Cls} (h : L.db c = [b]) :
    tbase L usedBy rk c = tbase L usedBy rk b + (usedBy b).length := by
  have hlt := H.rk_lt c b (by rw [h]; simp)
  unfold tbase
  rw [treeBase, h]
  simp only [Nat.add_right_cancel_iff]
  exact treeBase_fuel H _ _ _ hlt (by omega)

/-- A root all of whose derived classes have at most one direct base. -/
structure TreeRoot (L : Lattice) (T : Cls) : Prop where
  root : L.db T = []
  single : ∀ x, Up L x T → (L.db x).length ≤ 1

theorem TreeRoot.base {T x b : Cls} (hT : TreeRoot L T) (hx : Up L x T) (hb : b ∈ L.db x) : L.db x = [b] ∧ Up L b T := by
  have hs := hT.single x hx
  have hl : L.db x = [b] := by
    rcases hd : L.db x with _ | ⟨a, l⟩
    · rw [hd] at hb; simp at hb
    · rw [hd] at hs hb
      rw [List.length_cons] at hs
      obtain rfl : l = [] := List.eq_nil_of_length_eq_zero (by omega)
      simp at hb
      rw [hb]
  refine ⟨hl, ?_⟩
  rcases ReflTransGen.cases_head hx with rfl | ⟨z, hz, h1⟩
  · rw [hT.root] at hb; simp at hb
  · rw [hl] at hz
    simp at hz
    subst hz
    exact h1

/-- In a tree, everything above a class of the tree is in the tree. -/
theorem TreeRoot.up {T x y : Cls} (hT : TreeRoot L T) (hx : Up L x T) (hxy : Up L x y) : Up L y T := by
  induction hxy with
  | refl => exact hx
  | tail _ h ih => exact (hT.base ih h).2

theorem TreeRoot.eq_root {T x R : Cls} (hT : TreeRoot L T) (hx : Up L x T) (hxR : Up L x R) (hR : L.db R = []) : R = T := by
  rcases ReflTransGen.cases_head (hT.up hx hxR) with h | ⟨z, hz, _⟩
  · exact h
  · rw [hR] at hz; simp at hz

/-- In a tree, the classes above a given class are totally ordered. -/
theorem TreeRoot.chain {T x y z : Cls} (hT : TreeRoot L T) (hx : Up L x T) (hy : Up L x y) (hz : Up L x z) :
    Up L y z ∨ Up L z y := by
  induction hy using ReflTransGen.head_induction_on with
  | refl => exact .inl hz
  | @head a c hab hbc ih =>
    rcases ReflTransGen.cases_head hz with rfl | ⟨w, hw, h1⟩
    · exact .inr (.head hab hbc)
    · have h2 := hT.base hx hab
      rw [h2.1] at hw
      simp at hw
      subst hw
      exact ih h2.2 h1

theorem tbase_mono (H : SlotCtx L usedBy rk) {T x y : Cls} (hT : TreeRoot L T) (hx : Up L x T) (hxy : Up L x y) (hne : x ≠ y) :
    tbase L usedBy rk y + (usedBy y).length ≤ tbase L usedBy rk x := by
  induction hxy using ReflTransGen.head_induction_on with
  | refl => exact absurd rfl hne
  | @head a c hab hbc ih =>
    have h2 := hT.base hx hab
    rw [tbase_step H h2.1]
    by_cases hc : c = y
    · subst hc; exact le_rfl
    · have := ih h2.2 hc
      omega

/-- The values that `assign_tree_slots` gives to a class and its parameters. -/
structure TreeDone (L : Lattice) (usedBy : Cls → List (Nat × Nat)) (rk : Cls → Nat) (s : SlotState) (x : Cls) : Prop where
  slots : ∀ (j : Nat) (mp : Nat × Nat), (usedBy x)[j]? = some mp → s.slots mp = tbase L usedBy rk x + j
  first : s.first x = 0
  size : s.size x = tbase L usedBy rk x + (usedBy x).length

/-- What `assign_tree_slots` leaves alone. -/
structure TreeFrame (L : Lattice) (usedBy : Cls → List (Nat × Nat)) (c : Cls) (s s' : SlotState) : Prop where
  used : s'.used = s.used
  reserved : s'.reserved = s.reserved
  marked : s'.marked = s.marked
  slots : ∀ mp, (∀ x, Up L x c → mp ∉ usedBy x) → s'.slots mp = s.slots mp
  first : ∀ x, ¬ Up L x c → s'.first x = s.first x
  size : ∀ x, ¬ Up L x c → s'.size x = s.size x

theorem assignTree_spec (H : SlotCtx L usedBy rk) {T : Cls} (hT : TreeRoot L T) (_ : T ∈ L.order) (fuel : Nat) (s : SlotState)
    (c : Cls) (hc : Up L c T) (hf : L.order.length - rk c < fuel) :
    (∀ x, Up L x c → TreeDone L usedBy rk (assignTree L usedBy fuel s c (tbase L usedBy rk c)) x) ∧
    TreeFrame L usedBy c s (assignTree L usedBy fuel s c (tbase L usedBy rk c)) := by
  induction fuel generalizing s c with
  | zero => omega
  | succ n ih =>
    unfold assignTree
    dsimp only
    generalize hs0 : ({ s with
        slots := numberSlots s.slots (tbase L usedBy rk c) (usedBy c)
        first := Function.update s.first c 0
        size := Function.update s.size c (tbase L usedBy rk c + (usedBy c).length) } : SlotState) = s0
    have hdone0 : TreeDone L usedBy rk s0 c := by
      subst hs0
      exact ⟨fun j mp hj => numberSlots_get _ _ _ (H.used_nodup c) j mp hj, by simp, by simp⟩
    have hframe0 : TreeFrame L usedBy c s s0 := by
      subst hs0
      refine ⟨rfl, rfl, rfl, fun mp hmp => numberSlots_other _ _ _ _ (hmp c .refl), fun x hx => ?_, fun x hx => ?_⟩
      · exact Function.update_of_ne (by rintro rfl; exact hx .refl) _ _
      · exact Function.update_of_ne (by rintro rfl; exact hx .refl) _ _
    have key := foldl_inv_prefix
      (fun (pre : List Cls) (t : SlotState) =>
        TreeDone L usedBy rk t c ∧ (∀ d ∈ pre, ∀ x, Up L x d → TreeDone L usedBy rk t x) ∧ TreeFrame L usedBy c s t)
      (fun s d => assignTree L usedBy n s d (tbase L usedBy rk c + (usedBy c).length)) (L.dd c) s0
      ⟨hdone0, by simp, hframe0⟩ ?_
    · obtain ⟨h1, h2, h3⟩ := key
      refine ⟨fun x hx => ?_, h3⟩
      rcases (up_iff H).1 hx with rfl | ⟨d, hd, hxd⟩
      · exact h1
      · exact h2 d hd x hxd
    · rintro pre d post t hl ⟨h1, h2, h3⟩
      have hd : d ∈ L.dd c := by rw [hl]; simp
      obtain ⟨hdo, hcd⟩ := (H.mem_dd _ _).1 hd
      have hdT : Up L d T := .head hcd hc
      have hdb := (hT.base hdT hcd).1
      have hrk := H.rk_lt d c hcd
      have hle := H.rk_le d
      rw [← tbase_step H hdb]
      obtain ⟨k1, k2⟩ := ih t d hdT (by omega)
      generalize assignTree L usedBy n t d (tbase L usedBy rk d) = t' at k1 k2
      have keep : ∀ x, TreeDone L usedBy rk t x → ¬ Up L x d → TreeDone L usedBy rk t' x := by
        intro x hx hxd
        refine ⟨fun j mp hj => ?_, ?_, ?_⟩
        · rw [k2.slots mp ?_]
          · exact hx.slots j mp hj
          · intro y hy hmp
            have := H.used_unique x y mp (List.mem_of_getElem? hj) hmp
            subst this
            exact hxd hy
        · rw [k2.first x hxd]; exact hx.first
        · rw [k2.size x hxd]; exact hx.size
      refine ⟨keep c h1 ?_, ?_, ?_⟩
      · intro hcd'
        have := Up.rank H hcd'
        omega
      · intro d' hd' x hx
        rcases List.mem_append.1 hd' with hd' | hd'
        · by_cases hxd : Up L x d
          · exact k1 x hxd
          · exact keep x (h2 d' hd' x hx) hxd
        · simp at hd'; subst hd'; exact k1 x hx
      · have hup : ∀ x, Up L x d → Up L x c := fun x hx => hx.tail hcd
        refine ⟨k2.used.trans h3.used, k2.reserved.trans h3.reserved, k2.marked.trans h3.marked, ?_, ?_, ?_⟩
        · intro mp hmp
          rw [k2.slots mp fun x hx => hmp x (hup x hx), h3.slots mp hmp]
        · intro x hx
          rw [k2.first x fun h => hx (hup x h), h3.first x hx]
        · intro x hx
          rw [k2.size x fun h => hx (hup x h), h3.size x hx]

/-! ## Lattices -/

theorem reserveIn_test (from_ : Bits) (reserved : Cls → Bits) (bases : List Cls) (z : Cls) (i : Nat) :
    (reserveIn from_ reserved bases z).test i = ((reserved z).test i || (decide (z ∈ bases) && from_.test i)) := by
  unfold reserveIn
  induction bases generalizing reserved with
  | nil => simp
  | cons b l ih =>
    rw [List.foldl_cons, ih]
    by_cases h : z = b
    · subst h
      rw [Function.update_self, test_mergeInto]
      cases from_.test i <;> cases (reserved z).test i <;> simp
    · rw [Function.update_of_ne h]
      simp [h]

/-- The assigned parameters, with the class where each one is placed. -/
abbrev Assigned := Nat × Nat → Cls → Prop

/-- A parameter placed at class `c` avoids the slots that were given before to the parameters of class `X`: it derives from `X` and the
slots are in use, or a class below `X` has reserved its slots in `c`, or `X` is only reached from `c`, which was visited before. -/
def Avoids (L : Lattice) (c X : Cls) : Prop :=
  Up L c X ∨ (∃ Z, Up L Z X ∧ c ∈ L.tb Z) ∨ (Up L X c ∧ ∀ Z W, Up L X Z → Up L Z c → Z ≠ c → W ∈ L.db Z → Up L W c)

/-- Visited classes were reached from a root through visited classes. -/
def Reached (L : Lattice) (V : List Cls) : Prop := ∀ x ∈ V, L.db x = [] ∨ ∃ b ∈ L.db x, b ∈ V

/-- A class that is reached only from `c` is visited after `c`. -/
theorem Reached.after (H : SlotCtx L usedBy rk) {V : List Cls} (hV : Reached L V) {c X : Cls} (hX : X ∈ V) (hXc : Up L X c)
    (h : ∀ Z W, Up L X Z → Up L Z c → Z ≠ c → W ∈ L.db Z → Up L W c) : c ∈ V := by
  have aux : ∀ n Z, rk Z ≤ n → Z ∈ V → Up L X Z → Up L Z c → c ∈ V := by
    intro n
    induction n with
    | zero =>
      intro Z hn hZ hXZ hZc
      by_cases hne : Z = c
      · exact hne ▸ hZ
      rcases ReflTransGen.cases_head hZc with h1 | ⟨W, hW, _⟩
      · exact absurd h1 hne
      · have := H.rk_lt _ _ hW
        omega
    | succ n ih =>
      intro Z hn hZ hXZ hZc
      by_cases hne : Z = c
      · exact hne ▸ hZ
      rcases hV Z hZ with h1 | ⟨W, hW, hWV⟩
      · rcases ReflTransGen.cases_head hZc with h2 | ⟨W, hW, _⟩
        · exact absurd h2 hne
        · rw [h1] at hW; simp at hW
      · have := H.rk_lt _ _ hW
        exact ih W (by omega) hWV (hXZ.tail hW) (h Z W hXZ hZc hne hW)
  exact aux _ X le_rfl hX .refl hXc

/-- Invariant of the allocation in lattices. -/
structure LatInv (L : Lattice) (A : Assigned) (s : SlotState) : Prop where
  used : ∀ mp X, A mp X → ∀ Y, Up L Y X → (s.used Y).test (s.slots mp) = true
  reserved : ∀ mp X, A mp X → ∀ Y, Up L Y X → ∀ Z ∈ L.tb Y, (s.reserved Z).test (s.slots mp) = true
  distinct : ∀ mp X mp' X', A mp X → A mp' X' → mp ≠ mp' → Avoids L X X' → Avoids L X' X → s.slots mp ≠ s.slots mp'
  origin : ∀ Y i, (s.used Y).test i = true → ∃ mp X, A mp X ∧ Up L Y X ∧ s.slots mp = i
  canonical : ∀ Y, (s.used Y).Canonical

structure CovInv (L : Lattice) (c : Cls) (slot : Nat) (s0 : SlotState) (pre : List Cls) (s : SlotState) : Prop where
  slots : s.slots = s0.slots
  first : s.first = s0.first
  size : s.size = s0.size
  marked : s.marked = s0.marked
  usedc : s.used c = s0.used c
  mono : ∀ Y i, (s0.used Y).test i = true → (s.used Y).test i = true
  rmono : ∀ Y i, (s0.reserved Y).test i = true → (s.reserved Y).test i = true
  used : ∀ Y ∈ pre, (s.used Y).test slot = true
  reserved : ∀ Y ∈ pre, ∀ Z ∈ L.tb Y, (s.reserved Z).test slot = true
  from_ : ∀ Y i, (s.used Y).test i = true → (s0.used Y).test i = true ∨ (Y ∈ pre ∧ (s0.used c).test i = true)
  canonical : ∀ Y, (s.used Y).Canonical

theorem covariants_spec (L : Lattice) (c : Cls) (slot : Nat) (s0 : SlotState) (l : List Cls)
    (hslot : (s0.used c).test slot = true) (hres : ∀ Z ∈ L.tb c, (s0.reserved Z).test slot = true)
    (hcan : ∀ Y, (s0.used Y).Canonical) :
    CovInv L c slot s0 l (l.foldl (assignCovariant L c) s0) := by
  refine foldl_inv_prefix (CovInv L c slot s0) _ l s0 ?_ ?_
  · exact ⟨rfl, rfl, rfl, rfl, rfl, fun _ _ h => h, fun _ _ h => h, by simp, by simp, fun _ _ h => .inl h, hcan⟩
  · intro pre Y post s _ h
    unfold assignCovariant
    by_cases hY : Y = c
    · subst hY
      rw [if_neg (by simp)]
      refine ⟨h.slots, h.first, h.size, h.marked, h.usedc, h.mono, h.rmono, ?_, ?_, ?_, h.canonical⟩
      · intro Z hZ
        rcases List.mem_append.1 hZ with hZ | hZ
        · exact h.used Z hZ
        · simp at hZ; subst hZ; exact h.mono _ _ hslot
      · intro W hW Z hZ
        rcases List.mem_append.1 hW with hW | hW
        · exact h.reserved W hW Z hZ
        · simp at hW; subst hW; exact h.rmono _ _ (hres Z hZ)
      · intro W i hi
        rcases h.from_ W i hi with h' | ⟨h', h''⟩
        · exact .inl h'
        · exact .inr ⟨by simp [h'], h''⟩
    · rw [if_pos hY]
      have hc : (Function.update s.used Y (mergeInto (s.used c) (s.used Y))) c = s.used c :=
        Function.update_of_ne (Ne.symm hY) _ _
      refine ⟨h.slots, h.first, h.size, h.marked, hc.trans h.usedc, ?_, ?_, ?_, ?_, ?_, ?_⟩
      · intro W i hi
        by_cases hW : W = Y
        · subst hW
          dsimp only
          rw [Function.update_self, test_mergeInto, h.mono W i hi, Bool.or_true]
        · dsimp only
          rw [Function.update_of_ne hW]; exact h.mono W i hi
      · intro W i hi
        dsimp only
        rw [reserveIn_test, h.rmono W i hi, Bool.true_or]
      · intro W hW
        dsimp only
        by_cases hWY : W = Y
        · subst hWY
          rw [Function.update_self, test_mergeInto, h.usedc, hslot, Bool.true_or]
        · rw [Function.update_of_ne hWY]
          rcases List.mem_append.1 hW with hW | hW
          · exact h.used W hW
          · simp at hW; exact absurd hW hWY
      · intro W hW Z hZ
        dsimp only
        rw [reserveIn_test]
        rcases List.mem_append.1 hW with hW | hW
        · rw [h.reserved W hW Z hZ, Bool.true_or]
        · simp at hW; subst hW
          rw [h.usedc, hslot]
          simp [hZ]
      · intro W i hi
        dsimp only at hi
        by_cases hWY : W = Y
        · subst hWY
          rw [Function.update_self, test_mergeInto, Bool.or_eq_true] at hi
          rcases hi with hi | hi
          · rw [h.usedc] at hi
            exact .inr ⟨by simp, hi⟩
          · rcases h.from_ W i hi with h' | ⟨h', h''⟩
            · exact .inl h'
            · exact .inr ⟨by simp [h'], h''⟩
        · rw [Function.update_of_ne hWY] at hi
          rcases h.from_ W i hi with h' | ⟨h', h''⟩
          · exact .inl h'
          · exact .inr ⟨by simp [h'], h''⟩
      · intro W
        dsimp only
        by_cases hWY : W = Y
        · subst hWY
          rw [Function.update_self]
          exact canonical_mergeInto (h.canonical c) (h.canonical W)
        · rw [Function.update_of_ne hWY]; exact h.canonical W

theorem assignParam_spec (H : SlotCtx L usedBy rk) (pl : Platform) {A : Assigned} {s : SlotState}
    (hA : LatInv L A s) (c : Cls) (hc : c ∈ L.order) (mp : Nat × Nat) (hmp : ∀ X, ¬ A mp X)
    (hroot : ∀ m X, A m X → X = c ∨ ∃ V, Reached L V ∧ X ∈ V ∧ c ∉ V) :
    LatInv L (fun m X => A m X ∨ (m = mp ∧ X = c)) (assignParam pl L c s mp) ∧
    (assignParam pl L c s mp).marked = s.marked ∧ (assignParam pl L c s mp).first = s.first ∧
    (assignParam pl L c s mp).size = s.size ∧ ∀ m, m ≠ mp → (assignParam pl L c s mp).slots m = s.slots m := by
  unfold assignParam
  dsimp only
  generalize hslot : firstClear (mergeInto (s.reserved c) (s.used c)) = slot
  have hclear : (s.reserved c).test slot = false ∧ (s.used c).test slot = false := by
    have := test_firstClear (mergeInto (s.reserved c) (s.used c))
    rw [hslot, test_mergeInto, Bool.or_eq_false_iff] at this
    exact this
  -- the state before the loop over covariant classes
  generalize hs1 : ({ s with
    slots := Function.update s.slots mp slot
    used := Function.update s.used c (setBit (s.used c) slot)
    reserved := reserveIn (Function.update s.used c (setBit (s.used c) slot) c)
      (Function.update s.reserved c (setBit (s.reserved c) slot)) (L.tb c) } : SlotState) = s1
  have hu1 : ∀ Y i, (s1.used Y).test i = ((s.used Y).test i || (decide (Y = c) && decide (i = slot))) := by
    intro Y i
    subst hs1
    dsimp only
    by_cases hY : Y = c
    · subst hY; rw [Function.update_self, test_setBit]; simp
    · rw [Function.update_of_ne hY]; simp [hY]
  have hr1 : ∀ Z i, (s.reserved Z).test i = true → (s1.reserved Z).test i = true := by
    intro Z i hi
    subst hs1
    dsimp only
    rw [reserveIn_test]
    by_cases hZ : Z = c
    · subst hZ; rw [Function.update_self, test_setBit, hi]; simp
    · rw [Function.update_of_ne hZ, hi]; simp
  have hr2 : ∀ Z ∈ L.tb c, (s1.reserved Z).test slot = true := by
    intro Z hZ
    subst hs1
    dsimp only
    rw [reserveIn_test, Function.update_self, test_setBit]
    simp [hZ]
  have hc1 : ∀ Y, (s1.used Y).Canonical := by
    intro Y
    subst hs1
    dsimp only
    by_cases hY : Y = c
    · subst hY; rw [Function.update_self]; exact canonical_setBit (hA.canonical Y)
    · rw [Function.update_of_ne hY]; exact hA.canonical Y
  have hslots1 : s1.slots = Function.update s.slots mp slot := by subst hs1; rfl
  have hm1 : s1.marked = s.marked := by subst hs1; rfl
  have hf1 : s1.first = s.first := by subst hs1; rfl
  have hz1 : s1.size = s.size := by subst hs1; rfl
  have C := covariants_spec L c slot s1 (pl.iter c (L.td c)) (by rw [hu1]; simp) hr2 hc1
  have hpre : ∀ Y, Y ∈ pl.iter c (L.td c) ↔ Up L Y c := by
    intro Y; rw [(pl.iter_perm c _).mem_iff, H.mem_td c hc]
  generalize (pl.iter c (L.td c)).foldl (assignCovariant L c) s1 = s2 at C
  have hold : ∀ m, m ≠ mp → s2.slots m = s.slots m := by
    intro m hm; rw [C.slots, hslots1, Function.update_of_ne hm]
  have hnew : s2.slots mp = slot := by rw [C.slots, hslots1, Function.update_self]
  have hAm : ∀ m X, A m X → m ≠ mp := by rintro m X h rfl; exact hmp X h
  -- the new slot differs from the slots already visible below `c`
  have hdiff : ∀ m X, A m X → Avoids L c X → s.slots m ≠ slot := by
    rintro m X hX (hcX | ⟨Z, hZX, hcZ⟩ | ⟨hXc, hR⟩) heq
    · have := hA.used m X hX c hcX
      rw [heq, hclear.2] at this
      simp at this
    · have := hA.reserved m X hX Z hZX c hcZ
      rw [heq, hclear.1] at this
      simp at this
    · rcases hroot m X hX with rfl | ⟨V, h1, h2, h3⟩
      · have := hA.used m X hX X .refl
        rw [heq, hclear.2] at this
        simp at this
      · exact h3 (h1.after H h2 hXc hR)
  refine ⟨⟨?_, ?_, ?_, ?_, C.canonical⟩, C.marked.trans hm1, C.first.trans hf1, C.size.trans hz1, hold⟩
  · rintro m X (hX | ⟨rfl, rfl⟩) Y hY
    · rw [hold m (hAm m X hX)]
      apply C.mono
      rw [hu1, hA.used m X hX Y hY, Bool.true_or]
    · rw [hnew]
      exact C.used Y ((hpre Y).2 hY)
  · rintro m X (hX | ⟨rfl, rfl⟩) Y hY Z hZ
    · rw [hold m (hAm m X hX)]
      exact C.rmono _ _ (hr1 _ _ (hA.reserved m X hX Y hY Z hZ))
    · rw [hnew]
      exact C.reserved Y ((hpre Y).2 hY) Z hZ
  · rintro m X m' X' (hX | ⟨rfl, rfl⟩) (hX' | ⟨rfl, rfl⟩) hne hY hY'
    · rw [hold m (hAm m X hX), hold m' (hAm m' X' hX')]
      exact hA.distinct m X m' X' hX hX' hne hY hY'
    · rw [hold m (hAm m X hX), hnew]
      exact hdiff m X hX hY'
    · rw [hold m' (hAm m' X' hX'), hnew]
      exact (hdiff m' X' hX' hY).symm
    · exact absurd rfl hne
  · intro Y i hi
    have old : (s.used Y).test i = true → ∃ m X, (A m X ∨ (m = mp ∧ X = c)) ∧ Up L Y X ∧ s2.slots m = i := by
      intro h
      obtain ⟨m, X, hX, hYX, he⟩ := hA.origin Y i h
      exact ⟨m, X, .inl hX, hYX, by rw [hold m (hAm m X hX)]; exact he⟩
    rcases C.from_ Y i hi with h | ⟨h, h'⟩
    · rw [hu1, Bool.or_eq_true] at h
      rcases h with h | h
      · exact old h
      · simp only [Bool.and_eq_true, decide_eq_true_eq] at h
        obtain ⟨rfl, rfl⟩ := h
        exact ⟨mp, Y, .inr ⟨rfl, rfl⟩, .refl, hnew⟩
    · rw [hu1, Bool.or_eq_true] at h'
      rw [hpre] at h
      rcases h' with h' | h'
      · obtain ⟨m, X, hX, hYX, he⟩ := hA.origin c i h'
        exact ⟨m, X, .inl hX, h.trans hYX, by rw [hold m (hAm m X hX)]; exact he⟩
      · simp only [Bool.and_eq_true, decide_eq_true_eq, true_and] at h'
        subst h'
        exact ⟨mp, c, .inr ⟨rfl, rfl⟩, h, hnew⟩

/-- The parameters of the marked classes. -/
def AMarked (usedBy : Cls → List (Nat × Nat)) (V : List Cls) : Assigned := fun mp X => X ∈ V ∧ mp ∈ usedBy X

theorem LatInv.congr {A B : Assigned} {s : SlotState} (h : LatInv L A s) (hAB : ∀ m X, A m X ↔ B m X) : LatInv L B s := by
  have : A = B := by funext m X; exact propext (hAB m X)
  exact this ▸ h

theorem assignParams_spec (H : SlotCtx L usedBy rk) (pl : Platform) {V : List Cls} {s : SlotState}
    (hA : LatInv L (AMarked usedBy V) s) (c : Cls) (hc : c ∈ L.order) (hcV : c ∉ V)
    (hR : Reached L V) :
    LatInv L (AMarked usedBy (V ++ [c])) ((usedBy c).foldl (assignParam pl L c) s) ∧
    ((usedBy c).foldl (assignParam pl L c) s).marked = s.marked ∧
    ((usedBy c).foldl (assignParam pl L c) s).first = s.first ∧
    ((usedBy c).foldl (assignParam pl L c) s).size = s.size ∧
    ∀ m, m ∉ usedBy c → ((usedBy c).foldl (assignParam pl L c) s).slots m = s.slots m := by
  have key := foldl_inv_prefix
    (fun (pre : List (Nat × Nat)) (t : SlotState) =>
      LatInv L (fun m X => AMarked usedBy V m X ∨ (m ∈ pre ∧ X = c)) t ∧ t.marked = s.marked ∧ t.first = s.first ∧
      t.size = s.size ∧ ∀ m, m ∉ usedBy c → t.slots m = s.slots m)
    (assignParam pl L c) (usedBy c) s ⟨hA.congr (by simp), rfl, rfl, rfl, fun _ _ => rfl⟩ ?_
  · obtain ⟨h1, h2⟩ := key
    refine ⟨h1.congr fun m X => ?_, h2⟩
    unfold AMarked
    simp only [List.mem_append, List.mem_singleton]
    constructor
    · rintro (⟨h, h'⟩ | ⟨h, rfl⟩)
      · exact ⟨.inl h, h'⟩
      · exact ⟨.inr rfl, h⟩
    · rintro ⟨h | rfl, h'⟩
      · exact .inl ⟨h, h'⟩
      · exact .inr ⟨h', rfl⟩
  · rintro pre mp post t hl ⟨h1, h2, h3, h4, h5⟩
    have hmem : mp ∈ usedBy c := by rw [hl]; simp
    have hnd := H.used_nodup c
    rw [hl] at hnd
    have hnp : mp ∉ pre := by
      intro h
      have := (List.nodup_append.1 hnd).2.2 mp h mp (by simp)
      exact this rfl
    obtain ⟨k1, k2, k3, k4, k5⟩ := assignParam_spec H pl h1 c hc mp (by
      rintro X (⟨h, h'⟩ | ⟨h, _⟩)
      · have := H.used_unique X c mp h' hmem
        subst this
        exact hcV h
      · exact hnp h) (by
      rintro m X (⟨h, _⟩ | ⟨_, h⟩)
      · exact .inr ⟨V, hR, h, hcV⟩
      · exact .inl h)
    refine ⟨k1.congr fun m X => ?_, k2.trans h2, k3.trans h3, k4.trans h4, fun m hm => ?_⟩
    · simp only [List.mem_append, List.mem_singleton]
      constructor
      · rintro ((h | ⟨h, rfl⟩) | ⟨rfl, rfl⟩)
        · exact .inl h
        · exact .inr ⟨.inl h, rfl⟩
        · exact .inr ⟨.inr rfl, rfl⟩
      · rintro (h | ⟨h | rfl, rfl⟩)
        · exact .inl (.inl h)
        · exact .inl (.inr ⟨h, rfl⟩)
        · exact .inr ⟨rfl, rfl⟩
    · rw [k5 m (by rintro rfl; exact hm hmem), h5 m hm]

/-- What the traversal of a lattice from `c` does. -/
structure LatDone (L : Lattice) (usedBy : Cls → List (Nat × Nat)) (c : Cls) (s s' : SlotState) : Prop where
  inv : LatInv L (AMarked usedBy s'.marked) s'
  mono : ∀ x ∈ s.marked, x ∈ s'.marked
  below : ∀ x, Up L x c → x ∈ s'.marked
  only : ∀ x ∈ s'.marked, x ∈ s.marked ∨ Up L x c
  roots : Reached L s'.marked
  first : s'.first = s.first
  size : s'.size = s.size
  slots : ∀ m, (∀ x, Up L x c → m ∉ usedBy x) → s'.slots m = s.slots m

theorem assignLattice_spec (H : SlotCtx L usedBy rk) (pl : Platform) (fuel : Nat) (s : SlotState)
    (c : Cls) (hc : c ∈ L.order) (hf : L.order.length - rk c < fuel) (hA : LatInv L (AMarked usedBy s.marked) s)
    (hV : ∀ x ∈ s.marked, Up L x c → ∀ y, Up L y x → y ∈ s.marked)
    (hR : Reached L s.marked) (hcR : L.db c = [] ∨ ∃ b ∈ L.db c, b ∈ s.marked) :
    LatDone L usedBy c s (assignLattice pl L usedBy fuel s c) := by
  induction fuel generalizing s c with
  | zero => omega
  | succ n ih =>
    unfold assignLattice
    by_cases hcm : c ∈ s.marked
    · rw [if_pos hcm]
      exact ⟨hA, fun _ h => h, hV c hcm .refl, fun _ h => .inl h, hR, rfl, rfl, fun _ _ => rfl⟩
    rw [if_neg hcm]
    generalize hs0 : ({ s with marked := s.marked ++ [c] } : SlotState) = s0
    have hA0 : LatInv L (AMarked usedBy s.marked) s0 := by
      subst hs0; exact ⟨hA.used, hA.reserved, hA.distinct, hA.origin, hA.canonical⟩
    obtain ⟨p1, p2, p3, p4, p5⟩ := assignParams_spec H pl hA0 c hc hcm hR
    generalize (usedBy c).foldl (assignParam pl L c) s0 = s1 at p1 p2 p3 p4 p5
    have hm1 : s1.marked = s.marked ++ [c] := by rw [p2, ← hs0]
    have hfs : s1.first = s.first := by rw [p3, ← hs0]
    have hzs : s1.size = s.size := by rw [p4, ← hs0]
    have hss : ∀ m, m ∉ usedBy c → s1.slots m = s.slots m := by intro m hm; rw [p5 m hm, ← hs0]
    have key := foldl_inv_prefix
      (fun (pre : List Cls) (t : SlotState) =>
        LatInv L (AMarked usedBy t.marked) t ∧ (∀ x ∈ s.marked, x ∈ t.marked) ∧ c ∈ t.marked ∧
        (∀ d ∈ pre, ∀ x, Up L x d → x ∈ t.marked) ∧ (∀ x ∈ t.marked, x ∈ s.marked ∨ Up L x c) ∧
        (∀ x ∈ t.marked, x ≠ c → Up L x c → ∀ y, Up L y x → y ∈ t.marked) ∧
        Reached L t.marked ∧
        t.first = s.first ∧ t.size = s.size ∧ ∀ m, (∀ x, Up L x c → m ∉ usedBy x) → t.slots m = s.slots m)
      (assignLattice pl L usedBy n) (L.dd c) s1 ?_ ?_
    · obtain ⟨k1, k2, k3, k4, k5, k6, kR, k7, k8, k9⟩ := key
      refine ⟨k1, k2, fun x hx => ?_, k5, kR, k7, k8, k9⟩
      rcases (up_iff H).1 hx with rfl | ⟨d, hd, hxd⟩
      · exact k3
      · exact k4 d hd x hxd
    · refine ⟨by rw [hm1]; exact p1, by rw [hm1]; simp +contextual, by rw [hm1]; simp, by simp, ?_, ?_, ?_, hfs, hzs,
        fun m hm => hss m (hm c .refl)⟩
      · intro x hx
        rw [hm1] at hx
        rcases List.mem_append.1 hx with hx | hx
        · exact .inl hx
        · simp at hx; subst hx; exact .inr .refl
      · intro x hx hxc hup y hy
        rw [hm1] at hx ⊢
        rcases List.mem_append.1 hx with hx | hx
        · exact List.mem_append_left _ (hV x hx hup y hy)
        · simp at hx; exact absurd hx hxc
      · intro x hx
        rw [hm1] at hx ⊢
        rcases List.mem_append.1 hx with hx | hx
        · exact (hR x hx).imp_right fun ⟨b, h1, h2⟩ => ⟨b, h1, List.mem_append_left _ h2⟩
        · simp at hx
          subst hx
          exact hcR.imp_right fun ⟨b, h1, h2⟩ => ⟨b, h1, List.mem_append_left _ h2⟩
    · rintro pre d post t hl ⟨k1, k2, k3, k4, k5, k6, kR, k7, k8, k9⟩
      have hd : d ∈ L.dd c := by rw [hl]; simp
      obtain ⟨hdo, hcd⟩ := (H.mem_dd _ _).1 hd
      have hrk := H.rk_lt d c hcd
      have hle := H.rk_le d
      have hnc : ∀ x, Up L x d → x ≠ c := by
        rintro x hx rfl
        have := Up.rank H hx
        omega
      have hup : ∀ x, Up L x d → Up L x c := fun x hx => hx.tail hcd
      have D := ih t d hdo (by omega) k1 (fun x hx hxd y hy => k6 x hx (hnc x hxd) (hup x hxd) y hy) kR (.inr ⟨c, hcd, k3⟩)
      generalize assignLattice pl L usedBy n t d = t' at D
      refine ⟨D.inv, fun x hx => D.mono x (k2 x hx), D.mono c k3, ?_, ?_, ?_, D.roots, D.first.trans k7, D.size.trans k8, ?_⟩
      · intro d' hd' x hx
        rcases List.mem_append.1 hd' with hd' | hd'
        · exact D.mono x (k4 d' hd' x hx)
        · simp at hd'; subst hd'; exact D.below x hx
      · intro x hx
        rcases D.only x hx with h | h
        · exact k5 x h
        · exact .inr (hup x h)
      · intro x hx hxc hxu y hy
        by_cases hxd : Up L x d
        · exact D.below y (hy.trans hxd)
        · rcases D.only x hx with h | h
          · exact D.mono y (k6 x h hxc hxu y hy)
          · exact absurd h hxd
      · intro m hm
        rw [D.slots m fun x hx => hm x (hup x hx), k9 m hm]

/-! ## The whole of `assign_slots` -/

/-- Every class is below a root. -/
theorem exists_root (H : SlotCtx L usedBy rk) (x : Cls) (hx : x ∈ L.order) : ∃ R ∈ L.order, L.db R = [] ∧ Up L x R := by
  have aux : ∀ (n : Nat) (x : Cls), x ∈ L.order → rk x ≤ n → ∃ R ∈ L.order, L.db R = [] ∧ Up L x R := by
    intro n
    induction n with
    | zero =>
      intro x hx hn
      refine ⟨x, hx, ?_, .refl⟩
      rw [List.eq_nil_iff_forall_not_mem]
      intro b hb
      have := H.rk_lt x b hb
      omega
    | succ n ih =>
      intro x hx hn
      rcases hd : L.db x with _ | ⟨b, l⟩
      · exact ⟨x, hx, hd, .refl⟩
      · have hb : b ∈ L.db x := by rw [hd]; simp
        have := H.rk_lt x b hb
        obtain ⟨R, hR, h1, h2⟩ := ih b (H.db_mem x b hb).2 (by omega)
        exact ⟨R, hR, h1, .head hb h2⟩
  exact aux _ x hx le_rfl

/-- Invariant of the loop over roots. -/
structure RootInv (L : Lattice) (usedBy : Cls → List (Nat × Nat)) (rk : Cls → Nat) (pre : List Cls) (s : SlotState) :
    Prop where
  lat : LatInv L (AMarked usedBy s.marked) s
  roots : Reached L s.marked
  under : ∀ x ∈ s.marked, ∃ R, L.db R = [] ∧ ¬ TreeRoot L R ∧ Up L x R
  closed : ∀ x ∈ s.marked, ∀ y, Up L y x → y ∈ s.marked
  visited : ∀ R ∈ pre, L.db R = [] → ¬ TreeRoot L R → ∀ x, Up L x R → x ∈ s.marked
  trees : ∀ T ∈ pre, TreeRoot L T → ∀ x, Up L x T → TreeDone L usedBy rk s x
  rest : ∀ x, (∀ T, TreeRoot L T → ¬ Up L x T) → s.first x = 0 ∧ s.size x = 0

theorem roots_spec (H : SlotCtx L usedBy rk) (pl : Platform) :
    RootInv L usedBy rk L.order (L.order.foldl (assignRoot pl L usedBy) SlotState.init) := by
  have hinit : LatInv L (AMarked usedBy SlotState.init.marked) SlotState.init :=
    ⟨by simp [AMarked, SlotState.init], by simp [AMarked, SlotState.init], by simp [AMarked, SlotState.init],
      by simp [SlotState.init, Bits.test], fun Y => .inl rfl⟩
  refine foldl_inv_prefix (RootInv L usedBy rk) _ L.order _ ?_ ?_
  · exact ⟨hinit, by simp [Reached, SlotState.init], by simp [SlotState.init], by simp [SlotState.init], by simp, by simp,
      fun x _ => ⟨rfl, rfl⟩⟩
  · intro pre c post s hl h
    have hc : c ∈ L.order := by rw [hl]; simp
    unfold assignRoot
    by_cases hdb : (L.db c).length = 0
    · have hdb' : L.db c = [] := List.eq_nil_of_length_eq_zero hdb
      rw [if_pos hdb]
      have htree : (L.td c).any (fun x => (L.db x).length > 1) = true ↔ ¬ TreeRoot L c := by
        rw [List.any_eq_true]
        constructor
        · rintro ⟨x, hx, hg⟩ hT
          have := hT.single x ((H.mem_td c hc x).1 hx)
          simp at hg
          omega
        · intro hT
          by_contra hn
          refine hT ⟨hdb', fun x hx => ?_⟩
          by_contra hg
          exact hn ⟨x, (H.mem_td c hc x).2 hx, by simpa using hg⟩
      by_cases hT : TreeRoot L c
      · -- a tree
        rw [if_neg (by rw [htree]; exact not_not.2 hT)]
        have hsp := assignTree_spec H hT hc (L.order.length + 1) s c .refl (by omega)
        rw [tbase_root hdb'] at hsp
        obtain ⟨k1, k2⟩ := hsp
        generalize assignTree L usedBy (L.order.length + 1) s c 0 = s' at k1 k2
        have hsep : ∀ X ∈ s.marked, ¬ Up L X c := by
          intro X hX hXc
          obtain ⟨R, hR, hnT, hXR⟩ := h.under X hX
          have := hT.eq_root hXc hXR hR
          subst this
          exact hnT hT
        have hkeep : ∀ mp X, AMarked usedBy s.marked mp X → s'.slots mp = s.slots mp := by
          rintro mp X ⟨hX, hmp⟩
          refine k2.slots mp fun x hx hm => ?_
          have := H.used_unique X x mp hmp hm
          subst this
          exact hsep X hX hx
        refine ⟨?_, ?_, ?_, ?_, ?_, ?_, ?_⟩
        · rw [k2.marked]
          refine ⟨?_, ?_, ?_, ?_, ?_⟩
          · intro mp X hA Y hY; rw [hkeep mp X hA, k2.used]; exact h.lat.used mp X hA Y hY
          · intro mp X hA Y hY Z hZ; rw [hkeep mp X hA, k2.reserved]; exact h.lat.reserved mp X hA Y hY Z hZ
          · intro mp X mp' X' hA hA'; rw [hkeep mp X hA, hkeep mp' X' hA']; exact h.lat.distinct mp X mp' X' hA hA'
          · intro Y i hi
            rw [k2.used] at hi
            obtain ⟨mp, X, hA, hY, he⟩ := h.lat.origin Y i hi
            exact ⟨mp, X, hA, hY, by rw [hkeep mp X hA]; exact he⟩
          · rw [k2.used]; exact h.lat.canonical
        · rw [k2.marked]; exact h.roots
        · rw [k2.marked]; exact h.under
        · rw [k2.marked]; exact h.closed
        · intro R hR hRd hRT x hx
          rw [k2.marked]
          rcases List.mem_append.1 hR with hR | hR
          · exact h.visited R hR hRd hRT x hx
          · simp at hR; subst hR; exact absurd hT hRT
        · intro T hTm hTT x hx
          rcases List.mem_append.1 hTm with hTm | hTm
          · by_cases hxc : Up L x c
            · exact k1 x hxc
            · have hd := h.trees T hTm hTT x hx
              refine ⟨fun j mp hj => ?_, by rw [k2.first x hxc]; exact hd.first, by rw [k2.size x hxc]; exact hd.size⟩
              rw [k2.slots mp fun y hy hm => ?_]
              · exact hd.slots j mp hj
              · have := H.used_unique x y mp (List.mem_of_getElem? hj) hm
                subst this
                exact hxc hy
          · simp at hTm; subst hTm; exact k1 x hx
        · intro x hx
          rw [k2.first x (hx c hT), k2.size x (hx c hT)]
          exact h.rest x hx
      · -- a lattice
        rw [if_pos (htree.2 hT)]
        have D := assignLattice_spec H pl (L.order.length + 1) s c hc (by omega) h.lat
          (fun x hx _ y hy => h.closed x hx y hy) h.roots (.inl hdb')
        generalize assignLattice pl L usedBy (L.order.length + 1) s c = s' at D
        refine ⟨D.inv, D.roots, ?_, ?_, ?_, ?_, ?_⟩
        · intro x hx
          rcases D.only x hx with h' | h'
          · exact h.under x h'
          · exact ⟨c, hdb', hT, h'⟩
        · intro x hx y hy
          rcases D.only x hx with h' | h'
          · exact D.mono y (h.closed x h' y hy)
          · exact D.below y (hy.trans h')
        · intro R hR hRd hRT x hx
          rcases List.mem_append.1 hR with hR | hR
          · exact D.mono x (h.visited R hR hRd hRT x hx)
          · simp at hR; subst hR; exact D.below x hx
        · intro T hTm hTT x hx
          rcases List.mem_append.1 hTm with hTm | hTm
          · have hd := h.trees T hTm hTT x hx
            refine ⟨fun j mp hj => ?_, by rw [D.first]; exact hd.first, by rw [D.size]; exact hd.size⟩
            rw [D.slots mp fun y hy hm => ?_]
            · exact hd.slots j mp hj
            · have := H.used_unique x y mp (List.mem_of_getElem? hj) hm
              subst this
              have := hTT.eq_root hx hy hdb'
              subst this
              exact hT hTT
          · simp at hTm; subst hTm; exact absurd hTT hT
        · intro x hx
          rw [D.first, D.size]
          exact h.rest x hx
    · rw [if_neg hdb]
      have hne : L.db c ≠ [] := by intro h'; rw [h'] at hdb; simp at hdb
      refine ⟨h.lat, h.roots, h.under, h.closed, ?_, ?_, h.rest⟩
      · intro R hR hRd hRT x hx
        rcases List.mem_append.1 hR with hR | hR
        · exact h.visited R hR hRd hRT x hx
        · simp at hR; subst hR; exact absurd hRd hne
      · intro T hTm hTT x hx
        rcases List.mem_append.1 hTm with hTm | hTm
        · exact h.trees T hTm hTT x hx
        · simp at hTm; subst hTm; exact absurd hTT.root hne

theorem sizes_spec (order : List Cls) (s : SlotState) :
    (order.foldl sizeVtbl s).used = s.used ∧ (order.foldl sizeVtbl s).slots = s.slots ∧
    (∀ c ∈ order, s.used c ≠ [] → (order.foldl sizeVtbl s).first c = firstSet (s.used c) ∧
      (order.foldl sizeVtbl s).size c = (s.used c).length - firstSet (s.used c)) ∧
    (∀ c, s.used c = [] → (order.foldl sizeVtbl s).first c = s.first c ∧ (order.foldl sizeVtbl s).size c = s.size c) := by
  refine foldl_inv_prefix
    (fun (pre : List Cls) (t : SlotState) => t.used = s.used ∧ t.slots = s.slots ∧
      (∀ c ∈ pre, s.used c ≠ [] → t.first c = firstSet (s.used c) ∧ t.size c = (s.used c).length - firstSet (s.used c)) ∧
      (∀ c, s.used c = [] → t.first c = s.first c ∧ t.size c = s.size c))
    sizeVtbl order s ⟨rfl, rfl, by simp, fun _ _ => ⟨rfl, rfl⟩⟩ ?_
  rintro pre c post t _ ⟨h1, h2, h3, h4⟩
  unfold sizeVtbl
  by_cases hc : (t.used c).length = 0
  · rw [if_pos hc]
    refine ⟨h1, h2, ?_, h4⟩
    intro x hx hne
    rcases List.mem_append.1 hx with hx | hx
    · exact h3 x hx hne
    · simp at hx; subst hx
      rw [← h1] at hne
      exact absurd (List.eq_nil_of_length_eq_zero hc) hne
  · rw [if_neg hc]
    refine ⟨h1, h2, ?_, ?_⟩
    · intro x hx hne
      by_cases hxc : x = c
      · subst hxc; simp [h1]
      · dsimp only
        rw [Function.update_of_ne hxc, Function.update_of_ne hxc]
        rcases List.mem_append.1 hx with hx | hx
        · exact h3 x hx hne
        · simp at hx; exact absurd hx hxc
    · intro x hx
      have hxc : x ≠ c := by
        rintro rfl
        rw [h1, hx] at hc
        simp at hc
      dsimp only
      rw [Function.update_of_ne hxc, Function.update_of_ne hxc]
      exact h4 x hx

/-- The parameters of `X` and those of the classes above `Y` avoid each other's slots. `Verif.Props.Tables` shows a conflict elsewhere. -/
def SlotSafe (L : Lattice) (usedBy : Cls → List (Nat × Nat)) (X Y : Cls) : Prop :=
  ∀ c, usedBy c ≠ [] → Up L Y c → Avoids L c X ∧ Avoids L X c

/-- What slot allocation guarantees. -/
structure SlotsOk (L : Lattice) (usedBy : Cls → List (Nat × Nat)) (s : SlotState) : Prop where
  /-- the slot of a parameter lies in the v-table of every class that the parameter accepts -/
  range : ∀ mp X Y, mp ∈ usedBy X → Up L Y X → s.first Y ≤ s.slots mp ∧ s.slots mp < s.first Y + s.size Y
  /-- two parameters that accept a common class have different slots -/
  distinct : ∀ mp X mp' X' Y, Avoids L X X' → Avoids L X' X → mp ∈ usedBy X → mp' ∈ usedBy X' → mp ≠ mp' → Up L Y X → Up L Y X' →
    s.slots mp ≠ s.slots mp'
  /-- the first word of a v-table is used -/
  first_used : ∀ Y ∈ L.order, 0 < s.size Y → ∃ mp X, mp ∈ usedBy X ∧ Up L Y X ∧ s.slots mp = s.first Y
  /-- the last word of a v-table is used -/
  last_used : ∀ Y ∈ L.order, 0 < s.size Y → ∃ mp X, mp ∈ usedBy X ∧ Up L Y X ∧ s.slots mp + 1 = s.first Y + s.size Y

/-- In a tree, every slot of the v-table of a class is the slot of a parameter that accepts it. -/
theorem tree_slot_used (H : SlotCtx L usedBy rk) {T : Cls} (hT : TreeRoot L T) {s : SlotState}
    (hd : ∀ x, Up L x T → TreeDone L usedBy rk s x) (x : Cls) (hx : Up L x T) (i : Nat)
    (hi : i < tbase L usedBy rk x + (usedBy x).length) : ∃ mp X, mp ∈ usedBy X ∧ Up L x X ∧ s.slots mp = i := by
  have aux : ∀ (n : Nat) (x : Cls), rk x ≤ n → Up L x T → i < tbase L usedBy rk x + (usedBy x).length →
      ∃ mp X, mp ∈ usedBy X ∧ Up L x X ∧ s.slots mp = i := by
    intro n
    induction n with
    | zero =>
      intro x hn hx hi
      have hroot : L.db x = [] := by
        rw [List.eq_nil_iff_forall_not_mem]
        intro b hb
        have := H.rk_lt x b hb
        omega
      rw [tbase_root hroot, Nat.zero_add] at hi
      refine ⟨(usedBy x)[i], x, by simp, .refl, ?_⟩
      rw [(hd x hx).slots i _ (List.getElem?_eq_getElem hi), tbase_root hroot, Nat.zero_add]
    | succ n ih =>
      intro x hn hx hi
      by_cases hge : tbase L usedBy rk x ≤ i
      · have hlt : i - tbase L usedBy rk x < (usedBy x).length := by omega
        refine ⟨(usedBy x)[i - tbase L usedBy rk x], x, by simp, .refl, ?_⟩
        rw [(hd x hx).slots _ _ (List.getElem?_eq_getElem hlt)]
        omega
      · rcases hdb : L.db x with _ | ⟨b, l⟩
        · rw [tbase_root hdb] at hge; omega
        · have hb : b ∈ L.db x := by rw [hdb]; simp
          obtain ⟨h1, h2⟩ := hT.base hx hb
          rw [tbase_step H h1] at hge
          have := H.rk_lt x b hb
          obtain ⟨mp, X, h3, h4, h5⟩ := ih b (by omega) h2 (by omega)
          exact ⟨mp, X, h3, .head hb h4, h5⟩
  exact aux _ x le_rfl hx hi

theorem assignSlots_ok (H : SlotCtx L usedBy rk) (pl : Platform) :
    SlotsOk L usedBy (assignSlots pl L usedBy) := by
  unfold assignSlots
  have R := roots_spec H pl
  generalize L.order.foldl (assignRoot pl L usedBy) SlotState.init = s at R
  obtain ⟨z1, z2, z3, z4⟩ := sizes_spec L.order s
  generalize L.order.foldl sizeVtbl s = t at z1 z2 z3 z4
  -- classes of trees use no bit set
  have htree : ∀ T, TreeRoot L T → ∀ x, Up L x T → s.used x = [] := by
    intro T hT x hx
    rcases R.lat.canonical x with h | h
    · exact h
    · obtain ⟨mp, X, ⟨hX, _⟩, hxX, _⟩ := R.lat.origin x _ h
      obtain ⟨Q, hQ, hnT, hXQ⟩ := R.under X hX
      have := hT.eq_root hx (hxX.trans hXQ) hQ
      subst this
      exact absurd hT hnT
  have hcase : ∀ X ∈ L.order, (∃ T ∈ L.order, TreeRoot L T ∧ Up L X T) ∨ X ∈ s.marked := by
    intro X hX
    obtain ⟨Q, hQ, hQd, hXQ⟩ := exists_root H X hX
    by_cases hT : TreeRoot L Q
    · exact .inl ⟨Q, hQ, hT, hXQ⟩
    · exact .inr (R.visited Q hQ hQd hT X hXQ)
  have hcomp : ∀ T X Y, TreeRoot L T → Up L X T → Up L Y X → X ∉ s.marked := by
    intro T X Y hT hXT hYX hX
    obtain ⟨Q, hQ, hnT, hXQ⟩ := R.under X hX
    have := hT.eq_root hXT hXQ hQ
    subst this
    exact hnT hT
  have hexists : ∀ Y, s.used Y ≠ [] → ∃ i, (s.used Y).test i = true := by
    intro Y hY
    rcases R.lat.canonical Y with h | h
    · exact absurd h hY
    · exact ⟨_, h⟩
  have hordused : ∀ Y, s.used Y ≠ [] → Y ∈ L.order := by
    intro Y hY
    obtain ⟨i, hi⟩ := hexists Y hY
    obtain ⟨mp, X, ⟨_, hmp⟩, hYX, _⟩ := R.lat.origin Y i hi
    exact Up.mem H hYX (H.used_mem X mp hmp)
  refine ⟨?_, ?_, ?_, ?_⟩
  · intro mp X Y hmp hYX
    rw [z2]
    rcases hcase X (H.used_mem X mp hmp) with ⟨T, hTo, hT, hXT⟩ | hX
    · have hYT := hYX.trans hXT
      have hdY := R.trees T hTo hT Y hYT
      have hdX := R.trees T hTo hT X hXT
      rw [(z4 Y (htree T hT Y hYT)).1, (z4 Y (htree T hT Y hYT)).2, hdY.first, hdY.size]
      obtain ⟨j, hj⟩ := List.getElem?_of_mem hmp
      rw [hdX.slots j mp hj]
      have hjl := (List.getElem?_eq_some_iff.1 hj).1
      refine ⟨by omega, ?_⟩
      by_cases hne : Y = X
      · subst hne; omega
      · have := tbase_mono H hT hYT hYX hne
        omega
    · have hu := R.lat.used mp X ⟨hX, hmp⟩ Y hYX
      have hne : s.used Y ≠ [] := by intro h; rw [h] at hu; simp [Bits.test] at hu
      have hfs := firstSet_spec ⟨_, hu⟩
      obtain ⟨e1, e2⟩ := z3 Y (hordused Y hne) hne
      rw [e1, e2]
      have := Bits.test_lt hu
      have := hfs.2 _ hu
      omega
  · intro mp X mp' X' Y hav hav' hmp hmp' hne hYX hYX'
    rw [z2]
    rcases hcase X (H.used_mem X mp hmp) with ⟨T, hTo, hT, hXT⟩ | hX
    · have hX'T := hT.up (hYX.trans hXT) hYX'
      have hdX := R.trees T hTo hT X hXT
      have hdX' := R.trees T hTo hT X' hX'T
      obtain ⟨j, hj⟩ := List.getElem?_of_mem hmp
      obtain ⟨j', hj'⟩ := List.getElem?_of_mem hmp'
      rw [hdX.slots j mp hj, hdX'.slots j' mp' hj']
      have hjl := (List.getElem?_eq_some_iff.1 hj).1
      have hjl' := (List.getElem?_eq_some_iff.1 hj').1
      by_cases hXX : X = X'
      · subst hXX
        intro he
        have : j = j' := by omega
        subst this
        rw [hj] at hj'
        exact hne (Option.some.inj hj')
      · rcases hT.chain (hYX.trans hXT) hYX hYX' with h | h
        · have := tbase_mono H hT hXT h hXX
          omega
        · have := tbase_mono H hT hX'T h (Ne.symm hXX)
          omega
    · have hX' : X' ∈ s.marked := by
        rcases hcase X' (H.used_mem X' mp' hmp') with ⟨T, hTo, hT, hXT⟩ | hX'
        · exact absurd hX (hcomp T X Y hT (hT.up (hYX'.trans hXT) hYX) hYX)
        · exact hX'
      exact R.lat.distinct mp X mp' X' ⟨hX, hmp⟩ ⟨hX', hmp'⟩ hne hav hav'
  · intro Y hY hpos
    rw [z2]
    by_cases hu : s.used Y = []
    · rw [(z4 Y hu).2] at hpos
      rw [(z4 Y hu).1]
      by_cases hT : ∃ T, TreeRoot L T ∧ Up L Y T
      · obtain ⟨T, hT, hYT⟩ := hT
        have hTo := Up.mem' H hYT hY
        have hd := R.trees T hTo hT
        rw [(hd Y hYT).size] at hpos
        rw [(hd Y hYT).first]
        exact tree_slot_used H hT hd Y hYT 0 hpos
      · have := (R.rest Y fun T hT' h => hT ⟨T, hT', h⟩).2
        omega
    · obtain ⟨e1, e2⟩ := z3 Y hY hu
      rw [e1]
      have hfs := firstSet_spec (hexists Y hu)
      obtain ⟨mp, X, ⟨_, hm⟩, hYX, he⟩ := R.lat.origin Y _ hfs.1
      exact ⟨mp, X, hm, hYX, he⟩
  · intro Y hY hpos
    rw [z2]
    by_cases hu : s.used Y = []
    · rw [(z4 Y hu).2] at hpos ⊢
      rw [(z4 Y hu).1]
      by_cases hT : ∃ T, TreeRoot L T ∧ Up L Y T
      · obtain ⟨T, hT, hYT⟩ := hT
        have hTo := Up.mem' H hYT hY
        have hd := R.trees T hTo hT
        have hsz := (hd Y hYT).size
        obtain ⟨mp, X, h1, h2, h3⟩ := tree_slot_used H hT hd Y hYT (s.size Y - 1) (by omega)
        exact ⟨mp, X, h1, h2, by rw [(hd Y hYT).first]; omega⟩
      · have := (R.rest Y fun T hT' h => hT ⟨T, hT', h⟩).2
        omega
    · obtain ⟨e1, e2⟩ := z3 Y hY hu
      rw [e1, e2]
      have hfs := firstSet_spec (hexists Y hu)
      have hlast : (s.used Y).test ((s.used Y).length - 1) = true := by
        rcases R.lat.canonical Y with h | h
        · exact absurd h hu
        · exact h
      have hlt := Bits.test_lt hfs.1
      obtain ⟨mp, X, ⟨_, hm⟩, hYX, he⟩ := R.lat.origin Y _ hlast
      exact ⟨mp, X, hm, hYX, by omega⟩

end OpenMethod

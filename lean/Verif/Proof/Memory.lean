import Verif.SpecRegistry
import Mathlib.Data.List.Nodup

/-! # `initialize` when memory is exhausted -/

namespace OpenMethod

/-! ## The stores -/

structure RegState.SameData (s s' : RegState) : Prop where
  data : s'.data = s.data
  gen : s'.gen = s.gen
  initialized : s'.initialized = s.initialized

theorem Store.apply_keeps (s : RegState) (x : Store) : s.SameData (x.apply s) ∧ (x.apply s).vptr = s.vptr ∧ (x.apply s).fresh = s.fresh := by
  cases x <;> exact ⟨⟨rfl, rfl, rfl⟩, rfl, rfl⟩

theorem stores_keep (l : List Store) (s : RegState) : s.SameData (l.foldl Store.apply s) ∧ (l.foldl Store.apply s).vptr = s.vptr ∧ (l.foldl Store.apply s).fresh = s.fresh := by
  induction l generalizing s with
  | nil => exact ⟨⟨rfl, rfl, rfl⟩, rfl, rfl⟩
  | cons x l ih =>
    obtain ⟨⟨h1, h2, h3⟩, h4, h5⟩ := ih (x.apply s)
    obtain ⟨⟨k1, k2, k3⟩, k4, k5⟩ := x.apply_keeps s
    exact ⟨⟨h1.trans k1, h2.trans k2, h3.trans k3⟩, h4.trans k4, h5.trans k5⟩

theorem stores_slots (l : List (Nat × List Nat)) (s : RegState) :
    (l.map fun x => Store.slotsStrides x.1 x.2).foldl Store.apply s = { s with ss := fun id => ((l.reverse.find? fun x => x.1 = id).map (·.2)).or (s.ss id) } := by
  induction l generalizing s with
  | nil => rfl
  | cons x l ih =>
    rw [List.map_cons, List.foldl_cons, ih]
    simp only [Store.apply, List.reverse_cons, List.find?_append, RegState.mk.injEq, true_and, and_true]
    funext id
    generalize (l.reverse.find? fun x => decide (x.1 = id)) = r
    rcases r with _ | y
    · rw [Option.none_or]
      by_cases h : x.1 = id
      · subst h; simp
      · simp [h, Function.update_of_ne (Ne.symm h)]
    · rfl

theorem stores_next (l : List (VarId × Pf)) (s : RegState) :
    (l.map fun x => Store.next x.1 x.2).foldl Store.apply s = { s with next := fun id => ((l.reverse.find? fun x => x.1 = id).map (·.2)).or (s.next id) } := by
  induction l generalizing s with
  | nil => rfl
  | cons x l ih =>
    rw [List.map_cons, List.foldl_cons, ih]
    simp only [Store.apply, List.reverse_cons, List.find?_append, RegState.mk.injEq, true_and, and_true]
    funext id
    generalize (l.reverse.find? fun x => decide (x.1 = id)) = r
    rcases r with _ | y
    · rw [Option.none_or]
      by_cases h : x.1 = id
      · subst h; simp
      · simp [h, Function.update_of_ne (Ne.symm h)]
    · rfl

theorem stores_svptr (f : Cls → VarId) (g : Cls → Ptr) (l : List Cls) (s : RegState) :
    (l.map fun x => Store.svptr (f x) (g x)).foldl Store.apply s = { s with svptr := l.foldl (fun mem x => Function.update mem (f x) (some (g x))) s.svptr } := by
  induction l generalizing s with
  | nil => rfl
  | cons x l ih => rw [List.map_cons, List.foldl_cons, ih]; rfl

/-- All the stores together are those of `initRegistry`. -/
theorem stores_all (L : Lattice) (img : Image) (s : RegState) :
    { (stores L img s.fresh).foldl Store.apply s with fresh := s.fresh + 1 } = applyImage L img s := by
  unfold stores
  rw [List.foldl_append, List.foldl_append, stores_slots, stores_next, stores_svptr]
  rfl

/-! ## Where the exception comes from -/

variable {E : Env} {p : Program} {s s' : RegState}

theorem exhausts_cases (h : Exhausts E p s s') : s' = s ∨ ∃ c img, compile E.platform E.n2216 p = .ok c ∧ writeGlobal c s.fresh = .ok img ∧
    ((∃ n, s' = { ((stores c.lattice img s.fresh).take n).foldl Store.apply s with fresh := s.fresh + 1 }) ∨
     ∃ f v, vptrFault E.cfg E.rnd (ctxClasses c.lattice) s.vptr f = .ok (some v) ∧ s' = { applyImage c.lattice img s with vptr := v }) := by
  obtain ⟨tr, f, h⟩ := h
  have hvptr : ∀ (c : Compiled) (img : Image), (do
      let v ← vptrFault E.cfg E.rnd (ctxClasses c.lattice) (applyImage c.lattice img s).vptr f
      Res.ok (v.map fun v => { applyImage c.lattice img s with vptr := v })) = .ok (some s') →
      ∃ f v, vptrFault E.cfg E.rnd (ctxClasses c.lattice) s.vptr f = .ok (some v) ∧ s' = { applyImage c.lattice img s with vptr := v } := by
    intro c img h
    rw [Res.bind_eq_ok] at h
    obtain ⟨v, hv, h⟩ := h
    have h := Res.ok.inj h
    cases v with
    | none => cases h
    | some v => exact ⟨f, v, hv, (Option.some.inj h).symm⟩
  unfold initFault at h
  split at h
  · exact .inl (Option.some.inj (Res.ok.inj h)).symm
  · split at h
    · cases h
    · cases h
    · rename_i c hc
      split at h
      · have h := Res.ok.inj h
        split at h
        · cases h
        · exact .inl (Option.some.inj h).symm
      · split at h
        · cases h
        · cases h
        · rename_i img hw
          refine .inr ⟨c, img, hc, hw, ?_⟩
          split at h
          · rename_i n _ _
            have h := Res.ok.inj h
            split at h
            · exact .inl ⟨n, (Option.some.inj h).symm⟩
            · cases h
          · exact .inr (hvptr c img h)

/-- What remains in any case. -/
theorem Exhausts.keeps (h : Exhausts E p s s') : s.SameData s' ∧ s.fresh ≤ s'.fresh := by
  rcases exhausts_cases h with rfl | ⟨c, img, _, _, ⟨n, rfl⟩ | ⟨_, v, _, rfl⟩⟩
  · exact ⟨⟨rfl, rfl, rfl⟩, Nat.le_refl _⟩
  · obtain ⟨⟨h1, h2, h3⟩, _, _⟩ := stores_keep ((stores c.lattice img s.fresh).take n) s
    exact ⟨⟨h1, h2, h3⟩, Nat.le_succ _⟩
  · exact ⟨⟨rfl, rfl, rfl⟩, Nat.le_succ _⟩

/-- The vptr policy only loses its hash factors. -/
theorem vptrFault_hash {cfg : Config} {rnd : Nat → BitVec 64} {cs : List CtxClass} {v v' : VptrState} {f : Fault} (h : vptrFault cfg rnd cs v f = .ok (some v')) :
    v' = v ∨ cfg.vector = true ∧ cfg.typeHash = true ∧ ∃ k, v' = { v with hash := k } := by
  unfold vptrFault at h
  split at h
  · split at h
    · rename_i hv
      rw [Bool.and_eq_true] at hv
      dsimp only at h
      rw [Res.bind_eq_ok] at h
      obtain ⟨k, _, h⟩ := h
      have h := Res.ok.inj h
      cases k with
      | none => cases h
      | some k => exact .inr ⟨hv.1, hv.2, k, (Option.some.inj h).symm⟩
    · cases h
  · split at h
    · rename_i hv
      split at h
      · rename_i ht
        rw [Res.bind_eq_ok] at h
        obtain ⟨r, _, h⟩ := h
        split at h
        · have h := Res.ok.inj h
          split at h
          · exact .inr ⟨hv, ht, _, (Option.some.inj h).symm⟩
          · cases h
        · cases h
      · have h := Res.ok.inj h
        split at h
        · exact .inl (Option.some.inj h).symm
        · cases h
    · cases h
  · have h := Res.ok.inj h
    split at h
    · cases h
    · exact .inl (Option.some.inj h).symm
  · cases h

theorem Exhausts.vptr (h : Exhausts E p s s') : s'.vptr = s.vptr ∨ E.cfg.vector = true ∧ E.cfg.typeHash = true ∧ ∃ k, s'.vptr = { s.vptr with hash := k } := by
  rcases exhausts_cases h with rfl | ⟨c, img, _, _, ⟨n, rfl⟩ | ⟨_, v, hv, rfl⟩⟩
  · exact .inl rfl
  · exact .inl (stores_keep ((stores c.lattice img s.fresh).take n) s).2.1
  · exact vptrFault_hash hv

end OpenMethod

import Verif.Proof.Trace

/-!
# Lemmas about tracing: dispatch tables and global data
-/

namespace OpenMethod

open T Spec

variable {o : Option Bool} {l : Nat}

/-! ## Cells -/

theorem overriderTok_ok {m : Meth} {i : Nat} (h : i < m.overriders.length) : ∃ t, overriderTok m i = .ok t := by
  unfold overriderTok
  simp [List.getElem?_eq_getElem h]

theorem res_traceCandidates {m : Meth} {cs : List (Option Nat)} (h : ∀ i, some i ∈ cs → i < m.overriders.length) : (traceCandidates m cs).res o l = .ok () := by
  unfold traceCandidates
  simp only [res_indented]
  apply res_each
  intro c hc
  cases c with
  | none => rfl
  | some i =>
    obtain ⟨t, ht⟩ := overriderTok_ok (h i hc)
    simp [ht]

theorem res_traceChoice {m : Meth} {i : Nat} (h : i < m.overriders.length) (b : Bool) : (traceChoice m i b).res o l = .ok () := by
  obtain ⟨t, ht⟩ := overriderTok_ok h
  unfold traceChoice
  simp [ht]

theorem Elim.some_mem {cs cs' : List (Option Nat)} (h : Elim cs cs') {i : Nat} (hi : some i ∈ cs') : some i ∈ cs := by
  unfold Elim at h
  induction h with
  | nil => simp at hi
  | cons h _ ih =>
    rcases List.mem_cons.1 hi with e | e
    · rcases h with h | h
      · simp [← h, e]
      · rw [← e] at h
        simp at h
    · exact List.mem_cons_of_mem _ (ih e)

theorem pick_mem {cs : List (Option Nat)} {k i : Nat} (h : cs[k]?.join = some i) : some i ∈ cs := by
  cases e : cs[k]? with
  | none => simp [e] at h
  | some c =>
    rw [e] at h
    obtain rfl : c = some i := by simpa using h
    exact List.mem_of_getElem? e

theorem withoutDominants_mem {cs ds : List (Option Nat)} {i : Nat} (h : some i ∈ withoutDominants cs ds) : some i ∈ cs := by
  unfold withoutDominants at h
  obtain ⟨k, hk⟩ := List.getElem?_of_mem h
  rw [List.getElem?_zipWith] at hk
  cases e : cs[k]? with
  | none => simp [e] at hk
  | some c =>
    cases e' : ds[k]? with
    | none => simp [e, e'] at hk
    | some d =>
      simp only [e, e', Option.some.injEq] at hk
      split at hk
      · simp at hk
      · rw [← hk]
        exact List.mem_of_getElem? e

theorem res_nextOfT (n : Bool) (L : Lattice) {m : Meth} {cs : List (Option Nat)} (ds : List (Option Nat)) (h : ∀ i, some i ∈ cs → i < m.overriders.length) :
    ((nextOfT n L m cs ds).res o l = .ub ∧ nextOf n (moreAt L m.overriders) (retAt m.overriders) L.td cs ds = .ub) ∨
    ∃ c b, (nextOfT n L m cs ds).res o l = .ok (c, b) ∧ nextOf n (moreAt L m.overriders) (retAt m.overriders) L.td cs ds = .ok c := by
  unfold nextOfT nextOf
  dsimp only
  have hr : ∀ i, some i ∈ withoutDominants cs ds → i < m.overriders.length := fun i hi => h i (withoutDominants_mem hi)
  by_cases h0 : remainingOf (withoutDominants cs ds) = 0
  · rw [if_pos h0, if_pos h0]
    exact .inr ⟨.notImplemented, true, rfl, rfl⟩
  · rw [if_neg h0, if_neg h0]
    simp only [res_bind, res_lift]
    rw [res_ifTrace _ (by simp [res_traceCandidates hr]), Res.ok_bind]
    rcases selectDominant_spec n (moreAt L m.overriders) (retAt m.overriders) L.td (withoutDominants cs ds) with ⟨h1, _⟩ | ⟨s, left, h1, _, h2⟩
    · rw [h1]
      exact .inl ⟨rfl, rfl⟩
    · rw [h1, Res.ok_bind, Res.ok_bind]
      cases hb : (!n && decide (s.remaining > 1)) with
      | true => exact .inr ⟨.ambiguous, false, rfl, rfl⟩
      | false =>
        simp only [Bool.false_eq_true, if_false, res_bind, res_lift]
        cases hp : s.cands[s.pick]?.join with
        | none => exact .inl ⟨rfl, rfl⟩
        | some i =>
          have hi := hr i (h2.elim.some_mem (pick_mem hp))
          refine .inr ⟨.ovr i, true, ?_, rfl⟩
          simp [res_traceChoice hi]

theorem res_evalCellT (n : Bool) (L : Lattice) {m : Meth} {mask : Mask} (h : mask.length ≤ m.overriders.length) :
    ((evalCellT n L m mask).res o l = .ub ∧ evalCell n (moreAt L m.overriders) (retAt m.overriders) L.td mask = .ub) ∨
    ∃ r b, (evalCellT n L m mask).res o l = .ok (r, b) ∧ evalCell n (moreAt L m.overriders) (retAt m.overriders) L.td mask = .ok r := by
  have hc : ∀ i, some i ∈ candidatesOf mask → i < m.overriders.length := by
    intro i hi
    unfold candidatesOf at hi
    simp only [List.mem_map, List.mem_filter, Option.some.injEq] at hi
    obtain ⟨x, ⟨hx, _⟩, rfl⟩ := hi
    have := List.mem_zipIdx' hx
    omega
  unfold evalCellT evalCell
  simp only [res_bind, res_lift]
  rw [res_ifTrace _ (by simp [res_traceCandidates hc]), Res.ok_bind]
  rcases selectDominant_spec n (moreAt L m.overriders) (retAt m.overriders) L.td (candidatesOf mask) with ⟨h1, _⟩ | ⟨s, left, h1, _, h2⟩
  · rw [h1]
    exact .inl ⟨rfl, rfl⟩
  · rw [h1, Res.ok_bind, Res.ok_bind]
    by_cases h0 : s.remaining = 0
    · rw [if_pos h0, if_pos h0]
      exact .inr ⟨_, true, rfl, rfl⟩
    · rw [if_neg h0, if_neg h0]
      cases hb : (!n && decide (s.remaining > 1)) with
      | true => exact .inr ⟨_, false, rfl, rfl⟩
      | false =>
        simp only [Bool.false_eq_true, if_false, res_bind, res_lift]
        cases hp : s.cands[s.pick]?.join with
        | none => exact .inl ⟨rfl, rfl⟩
        | some i =>
          have hi := hc i (h2.elim.some_mem (pick_mem hp))
          simp only [Res.ofOption_some, Res.ok_bind, res_traceChoice hi]
          rcases res_nextOfT (o := o) (l := l) n L s.cands hc with ⟨h3, h4⟩ | ⟨c, b, h3, h4⟩
          · rw [h3, h4]
            exact .inl ⟨rfl, rfl⟩
          · rw [h3, h4]
            exact .inr ⟨_, b, rfl, rfl⟩

theorem evalCells_append (n : Bool) (more : Nat → Nat → Bool) (ret : Nat → Option Cls) (td : Cls → List Cls) (a b : List Mask) :
    evalCells n more ret td (a ++ b) = (evalCells n more ret td a >>= fun x => evalCells n more ret td b >>= fun y => .ok (x ++ y)) := by
  induction a with
  | nil => simp only [List.nil_append, evalCells, Res.ok_bind]; cases evalCells n more ret td b <;> rfl
  | cons m a ih =>
    simp only [List.cons_append, evalCells, ih]
    cases evalCell n more ret td m with
    | ub => rfl
    | err => rfl
    | ok r =>
      simp only [Res.ok_bind]
      cases evalCells n more ret td a with
      | ub => rfl
      | err => rfl
      | ok x =>
        simp only [Res.ok_bind]
        cases evalCells n more ret td b <;> rfl

theorem maskAnd_le {a b : Mask} {k : Nat} (h : a.length ≤ k) : (maskAnd a b).length ≤ k := by
  unfold maskAnd
  simp only [List.length_zipWith]
  omega

/-- A loop that appends results. -/
theorem res_fold_cells {n : Bool} {more : Nat → Nat → Bool} {ret : Nat → Option Cls} {td : Cls → List Cls} {f : List CellResult × Nat → Group → T (List CellResult × Nat)}
    {M : Group → List Mask} {groups : List Group}
    (h : ∀ g ∈ groups, ∀ r, ((f r g).res o l = .ub ∧ evalCells n more ret td (M g) = .ub) ∨
      ∃ rs k, (f r g).res o l = .ok (r.1 ++ rs, k) ∧ evalCells n more ret td (M g) = .ok rs) (r : List CellResult × Nat) :
    ((fold f r groups).res o l >>= fun r => Res.ok r.1) = (evalCells n more ret td (groups.flatMap M) >>= fun rs => .ok (r.1 ++ rs)) := by
  induction groups generalizing r with
  | nil => simp [fold, evalCells]
  | cons g gs ih =>
    rw [List.flatMap_cons, evalCells_append]
    unfold fold
    rw [res_bind]
    rcases h g (by simp) r with ⟨h1, h2⟩ | ⟨rs, k, h1, h2⟩
    · rw [h1, h2]
      rfl
    · rw [h1, h2, Res.ok_bind, Res.ok_bind, ih (fun g hg => h g (by simp [hg]))]
      cases evalCells n more ret td (gs.flatMap M) with
      | ub => rfl
      | err => rfl
      | ok y => simp

theorem res_traceGroup {L : Lattice} {classes : List Cls} (h : ∀ c ∈ classes, L.Named c) (dim index : Nat) (mask : Mask) : (traceGroup L dim index mask classes).res o l = .ok () := by
  unfold traceGroup
  apply res_ifTrace
  simp only [res_bind, res_line, Res.ok_bind, res_indented]
  apply res_each
  intro c hc
  obtain ⟨t, ht⟩ := h c hc
  simp [ht]

theorem res_buildTableT (n : Bool) (L : Lattice) {m : Meth} (gss : List (List Group)) (hne : gss ≠ []) (cand : Mask) (hc : cand.length ≤ m.overriders.length)
    (hN : ∀ gs ∈ gss, ∀ g ∈ gs, ∀ c ∈ g.2, L.Named c) :
    (buildTableT n L m gss cand).res o l = evalCells n (moreAt L m.overriders) (retAt m.overriders) L.td (cellMasks (gss.map fun gs => gs.map (·.1)) cand) := by
  induction gss generalizing cand l with
  | nil => exact absurd rfl hne
  | cons groups rest ih =>
    unfold buildTableT
    simp only [res_indented, res_bind, res_pure]
    rw [res_fold_cells (M := fun g => cellMasks (rest.map fun gs => gs.map (·.1)) (maskAnd cand g.1))]
    · simp only [List.nil_append, List.map_cons, cellMasks, List.flatMap_map]
      cases evalCells n (moreAt L m.overriders) (retAt m.overriders) L.td (groups.flatMap fun g => cellMasks (rest.map fun gs => gs.map (·.1)) (maskAnd cand g.1)) <;> rfl
    · intro g hg r
      rw [res_bind, res_traceGroup (hN groups (by simp) g hg), Res.ok_bind]
      cases rest with
      | nil =>
        dsimp only
        simp only [List.map_nil, cellMasks, evalCells, res_bind]
        rcases res_evalCellT (o := o) (l := l + 2) n L (maskAnd_le (b := g.1) hc) with ⟨h1, h2⟩ | ⟨c, b, h1, h2⟩
        · rw [h1, h2]
          exact .inl ⟨rfl, rfl⟩
        · rw [h1, h2]
          exact .inr ⟨[c], _, rfl, rfl⟩
      | cons g' rest =>
        dsimp only
        rw [res_bind, ih (by simp) _ (maskAnd_le hc) (fun gs hgs => hN gs (by simp [List.mem_cons.1 hgs]))]
        rcases evalCells_ok n (moreAt L m.overriders) (retAt m.overriders) L.td (cellMasks ((g' :: rest).map fun gs => gs.map (·.1)) (maskAnd cand g.1)) with ⟨h1, _⟩ | ⟨rs, h1, _⟩
        · rw [h1]
          exact .inl ⟨rfl, rfl⟩
        · rw [h1]
          exact .inr ⟨rs, _, rfl, rfl⟩

/-! ## v-table entries -/

theorem foldlM_flatMap_res {α β γ : Type} (f : γ → β → Res γ) (g : α → List β) (as : List α) (b : γ) :
    (as.flatMap g).foldlM f b = as.foldlM (fun b a => (g a).foldlM f b) b := by
  induction as generalizing b with
  | nil => rfl
  | cons a as ih =>
    rw [List.flatMap_cons, foldlM_append_res, List.foldlM_cons]
    congr 1
    funext b
    exact ih b

theorem foldlM_map_res {α β γ : Type} (f : γ → β → Res γ) (g : α → β) (as : List α) (b : γ) :
    (as.map g).foldlM f b = as.foldlM (fun b a => f b (g a)) b := by
  induction as generalizing b with
  | nil => rfl
  | cons a as ih =>
    rw [List.map_cons, List.foldlM_cons, List.foldlM_cons]
    congr 1
    funext b
    exact ih b

theorem foldlM_congr_mem {α β : Type} {f g : β → α → Res β} {as : List α} (h : ∀ b, ∀ a ∈ as, f b a = g b a) (b : β) : as.foldlM f b = as.foldlM g b := by
  induction as generalizing b with
  | nil => rfl
  | cons a as ih =>
    rw [List.foldlM_cons, List.foldlM_cons, h b a (by simp)]
    congr 1
    funext b
    exact ih (fun b a ha => h b a (by simp [ha])) b

theorem res_entries {L : Lattice} {groups : List (List Group)} (hN : ∀ gs ∈ groups, ∀ g ∈ gs, ∀ c ∈ g.2, L.Named c) (first : Cls → Nat) (slots : Nat × Nat → Nat) (mi : Nat)
    (vtbl : Cls → List Entry) : (fold (entriesT L first slots mi) vtbl groups.zipIdx).res o l = (entryWrites slots mi groups).foldlM (writeEntry first) vtbl := by
  rw [res_fold, entryWrites, foldlM_flatMap_res]
  apply foldlM_congr_mem
  rintro vtbl ⟨gs, k⟩ hgs
  have hgs' := (List.mem_zipIdx' hgs).2
  unfold entriesT
  rw [res_indented, res_fold, foldlM_flatMap_res]
  apply foldlM_congr_mem
  rintro vtbl ⟨g, j⟩ hg
  simp only [res_bind, res_line, Res.ok_bind, res_indented]
  rw [res_fold, foldlM_map_res]
  apply foldlM_congr_mem
  intro vtbl c hc
  unfold entryT
  have h1 : gs ∈ groups := by rw [hgs']; exact List.getElem_mem _
  have h2 : g ∈ gs := by rw [(List.mem_zipIdx' hg).2]; exact List.getElem_mem _
  obtain ⟨t, ht⟩ := hN gs h1 g h2 c hc
  simp [ht]

theorem writeEntries_no_err (first : Cls → Nat) (ws : List (Cls × Nat × Entry)) (vtbl : Cls → List Entry) (e : Err) : ws.foldlM (writeEntry first) vtbl ≠ .err e := by
  induction ws generalizing vtbl with
  | nil => simp
  | cons w ws ih =>
    rw [List.foldlM_cons]
    intro h
    rw [Res.bind_eq_err] at h
    rcases h with h | ⟨v, _, h⟩
    · unfold writeEntry at h
      split at h <;> simp at h
    · exact ih v h

end OpenMethod

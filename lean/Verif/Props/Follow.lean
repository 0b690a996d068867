import Verif.Props.Stale

/-!
# C33: what a `static_vptr` contains after `initialize`

An indirect `virtual_ptr` is the address of a `static_vptr`.  After a successful `initialize`, in any history, it follows the registered class to
which the variable belongs; if there is none (as in `C33_refuted`), calls have undefined behaviour: they do not use outdated tables that still
exist, and no overrider is entered.
-/

namespace OpenMethod.Props

open Spec Examples

variable {E : Env} {p : Program} {s s' : RegState} {rep : Report} {b : Bool}

theorem writeSvptr_other {L : Lattice} {img : Image} {gen : Nat} {mem : VarId → Option Ptr} {v : VarId} (h : ∀ x ∈ L.order, L.staticVptr x ≠ v) :
    writeSvptr L img gen mem v = mem v := by
  unfold writeSvptr
  generalize L.order = l at h
  induction l generalizing mem with
  | nil => rfl
  | cons x l ih =>
    rw [List.foldl_cons, ih fun y hy => h y (by simp [hy]), Function.update_of_ne (Ne.symm (h x (by simp)))]

/-- A call whose first virtual argument has no v-table that can be read. -/
theorem call_first_ub {cfg : Config} {s : RegState} (hr : requireInitialized cfg s = .ok ()) {a : Arg} (hne : ∀ e, argPtr cfg s a ≠ .err e)
    (hbad : ∀ q, argPtr cfg s a = .ok q → ∀ k, readWord s.gen s.data (q.add k) = .ub) {m : MethodInfo} {ks : List Bool} {before after : List Arg}
    (hm : m.params = List.replicate before.length false ++ true :: ks) (types : List TypeId) : call cfg s m (before ++ a :: after) types = .ub := by
  have key : ∀ (ss : List Nat) (as bs : List (Res Ptr)), as.length = before.length →
      resolveUni (readWord s.gen s.data) ss m.params (as ++ argPtr cfg s a :: bs) = .ub ∧
      resolveMultiFirst (readWord s.gen s.data) ss m.arity m.params (as ++ argPtr cfg s a :: bs) = .ub := by
    intro ss as bs hl
    rw [hm, ← hl]
    clear hl hm
    induction as with
    | nil =>
      simp only [List.length_nil, List.replicate_zero, List.nil_append, resolveUni, resolveMultiFirst]
      cases e : argPtr cfg s a with
      | ub => exact ⟨rfl, rfl⟩
      | err e' => exact absurd e (hne e')
      | ok q =>
        cases ss[0]? with
        | none => exact ⟨rfl, rfl⟩
        | some k => simp [Res.ofOption, hbad q e k]
    | cons x as ih =>
      simp only [List.length_cons, List.replicate_succ, List.cons_append, resolveUni, resolveMultiFirst]
      exact ih
  unfold call
  rw [hr, Res.ok_bind]
  cases s.ss m.id with
  | none => rfl
  | some ss =>
    obtain ⟨k1, k2⟩ := key ss (before.map (argPtr cfg s)) (after.map (argPtr cfg s)) (by simp)
    rw [Res.ofOption_some, Res.ok_bind, List.map_append, List.map_cons]
    unfold resolve
    split
    · rw [k1]; rfl
    · rw [k2]; rfl

/-- The element of an unregistered class is null, or that from before. -/
theorem stale_element (hp : p.Good E.cfg) (h : Initializes E p s s' rep) (hv : E.cfg.vector = true) (hh : E.cfg.typeHash = false) {t : TypeId} (ht : ¬ p.HasId t)
    {x : Stored} (hx : s'.vptr.vec[t.toNat]? = some x) : x = .null ∨ s.vptr.vec[t.toNat]? = some x := by
  obtain ⟨c, img, R, _⟩ := init_ready hp h
  obtain ⟨v, hi, _, hs'⟩ := init_eq h R.compiled R.written
  have hst : s'.vptr = v.state := by rw [hs']
  rw [hst] at hx
  unfold vptrInit at hi
  rw [if_pos hv, if_neg (by simp [hh])] at hi
  unfold fillVec at hi
  rw [Res.bind_eq_ok] at hi
  obtain ⟨vec, h1, hi⟩ := hi
  rw [← Res.ok.inj hi] at hx
  dsimp only at hx
  rw [storeVec_other hh _ _ _ (i := t.toNat) (fun y hy e => ht ((mem_ctxIds R.ok.lat t).1 (by rw [← BitVec.eq_of_toNat_eq e]; exact ctxPairs_id hy))) h1] at hx
  unfold resize at hx
  rw [List.getElem?_append] at hx
  split at hx
  · rw [List.getElem?_take] at hx
    split at hx
    · exact .inr hx
    · cases hx
  · exact .inl (List.eq_of_mem_replicate (List.mem_of_getElem? hx))

/-- If the variable is that of a registered class, then the `virtual_ptr` is equivalent to an object of that class. -/
theorem C33_follows (hp : p.Good E.cfg) (h : Initializes E p s s' rep) {t : TypeId} (ht : p.HasId t) {v : VarId} (hv : p.StaticVar (p.rtti.ti t) v) :
    argPtr E.cfg s' (.vptr (.indirect v)) = argPtr E.cfg s' (.obj t) ∧ ∃ q, s'.svptr v = some q ∧ q.gen = s'.gen := by
  obtain ⟨c, img, R, _⟩ := init_ready hp h
  have hx := HasId.order R ht
  have hv' := lattice_svptr R.lattice _ hx
  unfold Program.StaticVar at hv hv'
  obtain rfl := Option.some.inj (hv.symm.trans hv')
  have hq := R.svptr _ hx
  refine ⟨?_, _, hq, ?_⟩
  · rw [R.argPtr ht]
    show Res.ofOption (s'.svptr _) = _
    rw [hq]; rfl
  · obtain ⟨w, _, _, hs'⟩ := init_eq h R.compiled R.written
    rw [hs']; rfl

/-- A variable of no registered class is empty, or refers to released dispatch data. -/
theorem orphan_dangles (h0 : History E.cfg s b) (hp : p.Good E.cfg) (h : Initializes E p s s' rep) {v : VarId}
    (hv : ∀ t, p.HasId t → ¬ p.StaticVar (p.rtti.ti t) v) {q : Ptr} (hq : s'.svptr v = some q) (k : Nat) : readWord s'.gen s'.data (q.add k) = .ub := by
  obtain ⟨c, img, R, _⟩ := init_ready hp h
  obtain ⟨w, _, _, hs'⟩ := init_eq h R.compiled R.written
  have hsv : s'.svptr v = s.svptr v := by
    rw [hs']
    refine writeSvptr_other fun x hx e => ?_
    have hst := lattice_svptr R.lattice x hx
    obtain ⟨cr, hcr, rfl⟩ := (R.ok.lat.mem_order x).1 hx
    exact hv cr.type ⟨cr, hcr, rfl⟩ (e ▸ hst)
  have hgen : s'.gen = s.fresh := by rw [hs']
  have := h0.old.svptr v q (hsv ▸ hq)
  unfold readWord
  rw [if_neg]
  rintro ⟨h1, _⟩
  have h1 : q.gen = s'.gen := h1
  omega

/-- If the variable is that of no registered class, then the behaviour of calls is undefined. -/
theorem C33_orphan (h0 : History E.cfg s b) (hp : p.Good E.cfg) (h : Initializes E p s s' rep) {v : VarId}
    (hv : ∀ t, p.HasId t → ¬ p.StaticVar (p.rtti.ti t) v) {m : MethodInfo} {ks : List Bool} {before after : List Arg}
    (hm : m.params = List.replicate before.length false ++ true :: ks) (types : List TypeId) :
    call E.cfg s' m (before ++ .vptr (.indirect v) :: after) types = .ub := by
  obtain ⟨c, img, R, _⟩ := init_ready hp h
  refine call_first_ub R.require (fun e he => ?_) (fun q hq k => ?_) hm types
  · have he : Res.ofOption (s'.svptr v) = .err e := he
    cases hx : s'.svptr v <;> rw [hx] at he <;> cases he
  · have hq : Res.ofOption (s'.svptr v) = .ok q := hq
    cases hx : s'.svptr v with
    | none => rw [hx] at hq; cases hq
    | some q' =>
      rw [hx] at hq
      obtain rfl := Res.ok.inj hq
      exact orphan_dangles h0 hp h hv hx k

/-- `vptr_vector` without a hash and with `indirect_vptr`, in all histories: an object of an unregistered class, as first virtual argument, is
reported, or its use is undefined behaviour, or it is treated as an object of a class that is registered, whose `static_vptr` was that
of the unregistered id when it was registered. -/
theorem C28_stale_indirect (h0 : History E.cfg s b) (hp : p.Good E.cfg) (h : Initializes E p s s' rep) (hv : E.cfg.vector = true) (hh : E.cfg.typeHash = false)
    (hd : E.cfg.indirect = true) {t : TypeId} (ht : ¬ p.HasId t) {m : MethodInfo} {ks : List Bool} {before after : List Arg}
    (hm : m.params = List.replicate before.length false ++ true :: ks) (types : List TypeId) :
    call E.cfg s' m (before ++ .obj t :: after) types = .ub ∨
    (call E.cfg s' m (before ++ .obj t :: after) types = .err (.missingClass t) ∧ s'.vptr.vec.length ≤ t.toNat) ∨
    ∃ u v, p.HasId u ∧ p.StaticVar (p.rtti.ti u) v ∧ s.vptr.vec[t.toNat]? = some (.indirect v) ∧
      call E.cfg s' m (before ++ .obj t :: after) types = call E.cfg s' m (before ++ .obj u :: after) types := by
  obtain ⟨c, img, R, _⟩ := init_ready hp h
  have hsub : ∀ a : Arg, argPtr E.cfg s' (.obj t) = argPtr E.cfg s' a →
      call E.cfg s' m (before ++ .obj t :: after) types = call E.cfg s' m (before ++ a :: after) types := by
    intro a e
    unfold call
    rw [List.map_append, List.map_append, List.map_cons, List.map_cons, e]
  have harg : argPtr E.cfg s' (.obj t) = (dynamicVptr E.cfg s'.vptr t >>= fun r => Res.ofOption (r.read s'.svptr)) := by
    unfold argPtr acquireVptr
    rw [R.require]; rfl
  have hdyn : dynamicVptr E.cfg s'.vptr t = if E.cfg.checks && decide (s'.vptr.vec.length ≤ t.toNat) then .err (.missingClass t) else
      match s'.vptr.vec[t.toNat]? with
      | none => .ub
      | some x => x.ref E.cfg := by
    unfold dynamicVptr
    simp only [hv, if_true, vecIndex, hh, Bool.not_false, Bool.true_and, Bool.false_eq_true, if_false, Res.ok_bind]
    rfl
  have hub : argPtr E.cfg s' (.obj t) = .ub → call E.cfg s' m (before ++ .obj t :: after) types = .ub := fun e =>
    call_first_ub R.require (fun e' he => by rw [e] at he; cases he) (fun q hq => by rw [e] at hq; cases hq) hm types
  rw [hdyn] at harg
  split at harg
  · rename_i hl
    have hl : s'.vptr.vec.length ≤ t.toNat := of_decide_eq_true (Bool.and_eq_true_iff.1 hl).2
    have harg : argPtr E.cfg s' (.obj t) = .err (.missingClass t) := harg
    cases hss : s'.ss m.id with
    | none => left; unfold call; rw [R.require, Res.ok_bind, hss]; rfl
    | some ss =>
      refine .inr (.inl ⟨?_, hl⟩)
      have key : ∀ (as bs : List (Res Ptr)), as.length = before.length →
          resolve (readWord s'.gen s'.data) ss m.arity m.params (as ++ argPtr E.cfg s' (.obj t) :: bs) = .err (.missingClass t) := by
        intro as bs hl
        unfold resolve
        rw [hm, ← hl, harg]
        have : resolveUni (readWord s'.gen s'.data) ss (List.replicate as.length false ++ true :: ks) (as ++ .err (.missingClass t) :: bs) = .err (.missingClass t) ∧
            resolveMultiFirst (readWord s'.gen s'.data) ss m.arity (List.replicate as.length false ++ true :: ks) (as ++ .err (.missingClass t) :: bs) =
              .err (.missingClass t) := by
          clear hl
          induction as with
          | nil => exact ⟨rfl, rfl⟩
          | cons x as ih => exact ih
        split
        · rw [this.1]; rfl
        · rw [this.2]; rfl
      unfold call
      rw [R.require, Res.ok_bind, hss, Res.ofOption_some, Res.ok_bind, List.map_append, List.map_cons, key _ _ (by simp)]
      rfl
  · cases hx : s'.vptr.vec[t.toNat]? with
    | none => rw [hx] at harg; exact .inl (hub harg)
    | some x =>
      rw [hx] at harg
      dsimp only at harg
      rcases stale_element hp h hv hh ht hx with rfl | hold
      · exact .inl (hub (by rw [harg]; simp [Stored.ref, hd]))
      · cases x with
        | null => exact .inl (hub (by rw [harg]; simp [Stored.ref, hd]))
        | direct w => exact absurd (List.mem_of_getElem? hold) (h0.no_direct hd w)
        | indirect v =>
          have harg : argPtr E.cfg s' (.obj t) = argPtr E.cfg s' (.vptr (.indirect v)) := harg
          by_cases hu : ∃ u, p.HasId u ∧ p.StaticVar (p.rtti.ti u) v
          · obtain ⟨u, h1, h2⟩ := hu
            exact .inr (.inr ⟨u, v, h1, h2, hold, hsub _ (harg.trans (C33_follows hp h h1 h2).1)⟩)
          · left
            rw [hsub _ harg]
            exact C33_orphan h0 hp h (fun u h1 h2 => hu ⟨u, h1, h2⟩) hm types

/-! ## The hypotheses are met -/

/-- `C28_stale_indirect`: id 2 was that of class 3, or of a class that was unloaded; id 4 was never registered. -/
example : callAfter (env (Config.ind plain)) [aliased, unaliased] kick [.obj 2] = some (.ok 10) ∧
    callAfter (env (Config.ind plain)) [DetectExample.loaded, gap] kick [.obj 2] = some .ub ∧
    callAfter (env (Config.ind plain)) [DetectExample.loaded, gap] kick [.obj 4] = some (.err (.missingClass 4)) := by decide +kernel

/-- The case of `C33_refuted`: variable 1 was that of class 1; now it is variable 101. -/
example : goodB (Config.ind mapped) secondVar = true ∧ callAfter (env (Config.ind mapped)) [twoVars] kick [.vptr (.indirect 1)] = some (.ok 10) ∧
    callAfter (env (Config.ind mapped)) [twoVars, secondVar] kick [.vptr (.indirect 1)] = some .ub ∧
    callAfter (env (Config.ind mapped)) [twoVars, secondVar] kick [.vptr (.indirect 101)] = some (.ok 10) := by decide +kernel

example : (∀ t, secondVar.HasId t → ¬ secondVar.StaticVar (secondVar.rtti.ti t) 1) ∧ secondVar.HasId 1 ∧ secondVar.StaticVar (secondVar.rtti.ti 1) 101 := by
  refine ⟨?_, by unfold Program.HasId; decide, by unfold Program.StaticVar; decide⟩
  rintro t ⟨cr, hcr, rfl⟩
  revert cr
  unfold Program.StaticVar
  decide

end OpenMethod.Props

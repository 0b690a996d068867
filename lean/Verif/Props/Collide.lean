import Verif.Props.Follow

/-!
# C28 without runtime_checks

Nothing is detected.  This says what can happen instead.  In a vector, with or without a hash: the behaviour is undefined, or the object is silently treated as one of a registered class, with the same hash value.
-/

namespace OpenMethod.Props

open Spec Examples

variable {E : Env} {p : Program} {s s' : RegState} {rep : Report} {b : Bool} {t : TypeId}

theorem fillVec_elems {cfg : Config} {mem : VarId → Option Ptr} {cs : List CtxClass} {s : VptrState} {n : Nat} {r : VptrResult} {x : Stored}
    (h : fillVec cfg mem cs s n = .ok r) (hx : x ∈ r.state.vec) : x ∈ s.vec ∨ x = .null ∨ ∃ c ∈ cs, x = storedFor cfg mem c := by
  unfold fillVec at h
  rw [Res.bind_eq_ok] at h
  obtain ⟨vec, h1, h⟩ := h
  rw [← Res.ok.inj h] at hx
  rcases storeVec_mem _ _ _ h1 hx with h | ⟨y, hy, e⟩
  · rcases resize_mem h with h | h
    · exact .inl h
    · exact .inr (.inl h)
  · unfold ctxPairs at hy
    obtain ⟨c, hc, hy⟩ := List.mem_flatMap.1 hy
    obtain ⟨t, _, rfl⟩ := List.mem_map.1 hy
    exact .inr (.inr ⟨c, hc, e.symm⟩)

theorem vptrInit_elems {cfg : Config} (hv : cfg.vector = true) {rnd : Nat → BitVec 64} {mem : VarId → Option Ptr} {cs : List CtxClass} {s : VptrState} {r : VptrResult} {x : Stored}
    (h : vptrInit cfg rnd mem cs s = .ok r) (hx : x ∈ r.state.vec) : x ∈ s.vec ∨ x = .null ∨ ∃ c ∈ cs, x = storedFor cfg mem c := by
  unfold vptrInit at h
  rw [if_pos hv] at h
  split at h
  · rw [Res.bind_eq_ok] at h
    obtain ⟨hr, _, h⟩ := h
    split at h
    · have := fillVec_elems h hx; exact this
    · rw [← Res.ok.inj h] at hx; exact .inl hx
  · exact fillVec_elems h hx

/-- With direct v-table pointers. -/
theorem unchecked_direct (h0 : History E.cfg s b) (hp : p.Good E.cfg) (h : Initializes E p s s' rep) (hk : E.cfg.checks = false) (hv : E.cfg.vector = true)
    (hd : E.cfg.indirect = false) {m : MethodInfo} {ks : List Bool} {before after : List Arg}
    (hm : m.params = List.replicate before.length false ++ true :: ks) (types : List TypeId) :
    call E.cfg s' m (before ++ .obj t :: after) types = .ub ∨
    ∃ u i, p.HasId u ∧ vecIndex E.cfg s'.vptr.hash t = .ok i ∧ i < s'.vptr.vec.length ∧
      call E.cfg s' m (before ++ .obj t :: after) types = call E.cfg s' m (before ++ .obj u :: after) types := by
  obtain ⟨c, img, R, _⟩ := init_ready hp h
  obtain ⟨w, hi, _, hs'⟩ := init_eq h R.compiled R.written
  have hst : s'.vptr = w.state := by rw [hs']
  have hsv : s'.svptr = (applyImage c.lattice img s).svptr := by rw [hs']
  have hgen : s'.gen = s.fresh := by rw [hs']
  have hix : ∃ i, vecIndex E.cfg s'.vptr.hash t = .ok i := by
    unfold vecIndex
    rw [hk]
    cases E.cfg.typeHash <;> exact ⟨_, rfl⟩
  obtain ⟨i, hix⟩ := hix
  have harg : argPtr E.cfg s' (.obj t) = (match s'.vptr.vec[i]? with
      | none => Res.ub
      | some x => x.ref E.cfg) >>= fun r => Res.ofOption (r.read s'.svptr) := by
    unfold argPtr acquireVptr dynamicVptr
    simp only [R.require, Res.ok_bind, hv, if_true, hix, hk, Bool.and_false, Bool.false_and, Bool.false_eq_true, if_false]
    rfl
  have hub : (∀ q, argPtr E.cfg s' (.obj t) = .ok q → ∀ k, readWord s'.gen s'.data (q.add k) = .ub) →
      call E.cfg s' m (before ++ .obj t :: after) types = .ub := fun hbad =>
    call_first_ub R.require (fun e => argPtr_unchecked hk _ e) hbad hm types
  cases hx : s'.vptr.vec[i]? with
  | none =>
    rw [hx] at harg
    exact .inl (hub fun q hq => by rw [harg] at hq; cases hq)
  | some x =>
    rw [hx] at harg
    dsimp only at harg
    rcases vptrInit_elems hv hi (hst ▸ List.mem_of_getElem? hx) with hold | rfl | ⟨d, hdm, rfl⟩
    · refine .inl (hub fun q hq k => ?_)
      cases x with
      | null => rw [harg] at hq; simp [Stored.ref, hd, VRef.read, Res.ofOption] at hq
      | indirect v => exact absurd hold (h0.no_indirect hd v)
      | direct o =>
        cases o with
        | none => rw [harg] at hq; cases hq
        | some q' =>
          rw [harg] at hq
          have hq : Res.ok q' = Res.ok q := hq
          obtain rfl := Res.ok.inj hq
          have := h0.old.vec q' hold
          unfold readWord
          rw [if_neg]
          rintro ⟨h1, _⟩
          have h1 : q'.gen = s'.gen := h1
          omega
    · exact .inl (hub fun q hq => by rw [harg] at hq; simp [Stored.ref, hd, VRef.read, Res.ofOption] at hq)
    · right
      unfold ctxClasses at hdm
      obtain ⟨y, hy, rfl⟩ := List.mem_map.1 hdm
      obtain ⟨cr, hcr, rfl⟩ := (R.ok.lat.mem_order y).1 hy
      have hu : p.HasId cr.type := ⟨cr, hcr, rfl⟩
      refine ⟨cr.type, i, hu, hix, (List.getElem?_eq_some_iff.1 hx).1, ?_⟩
      have e : argPtr E.cfg s' (.obj t) = argPtr E.cfg s' (.obj cr.type) := by
        rw [harg, R.argPtr hu]
        simp only [storedFor, hd, Bool.false_eq_true, if_false, Stored.ref, Res.ok_bind, VRef.read]
        rw [← hsv, R.svptr _ hy]; rfl
      unfold call
      rw [List.map_append, List.map_append, List.map_cons, List.map_cons, e]

/-- With `indirect_vptr`. -/
theorem unchecked_indirect (h0 : History E.cfg s b) (hp : p.Good E.cfg) (h : Initializes E p s s' rep) (hk : E.cfg.checks = false) (hv : E.cfg.vector = true)
    (hd : E.cfg.indirect = true) {m : MethodInfo} {ks : List Bool} {before after : List Arg}
    (hm : m.params = List.replicate before.length false ++ true :: ks) (types : List TypeId) :
    call E.cfg s' m (before ++ .obj t :: after) types = .ub ∨
    ∃ u i, p.HasId u ∧ vecIndex E.cfg s'.vptr.hash t = .ok i ∧ i < s'.vptr.vec.length ∧
      call E.cfg s' m (before ++ .obj t :: after) types = call E.cfg s' m (before ++ .obj u :: after) types := by
  obtain ⟨c, img, R, _⟩ := init_ready hp h
  have hix : ∃ i, vecIndex E.cfg s'.vptr.hash t = .ok i := by
    unfold vecIndex
    rw [hk]
    cases E.cfg.typeHash <;> exact ⟨_, rfl⟩
  obtain ⟨i, hix⟩ := hix
  have harg : argPtr E.cfg s' (.obj t) = (match s'.vptr.vec[i]? with
      | none => Res.ub
      | some x => x.ref E.cfg) >>= fun r => Res.ofOption (r.read s'.svptr) := by
    unfold argPtr acquireVptr dynamicVptr
    simp only [R.require, Res.ok_bind, hv, if_true, hix, hk, Bool.and_false, Bool.false_and, Bool.false_eq_true, if_false]
    rfl
  have hub : argPtr E.cfg s' (.obj t) = .ub → call E.cfg s' m (before ++ .obj t :: after) types = .ub := fun e =>
    call_first_ub R.require (fun e' => argPtr_unchecked hk _ e') (fun q hq => by rw [e] at hq; cases hq) hm types
  have hsub : ∀ a : Arg, argPtr E.cfg s' (.obj t) = argPtr E.cfg s' a →
      call E.cfg s' m (before ++ .obj t :: after) types = call E.cfg s' m (before ++ a :: after) types := by
    intro a e
    unfold call
    rw [List.map_append, List.map_append, List.map_cons, List.map_cons, e]
  cases hx : s'.vptr.vec[i]? with
  | none => rw [hx] at harg; exact .inl (hub harg)
  | some x =>
    rw [hx] at harg
    dsimp only at harg
    cases x with
    | null => exact .inl (hub (by rw [harg]; simp [Stored.ref, hd]))
    | direct w => exact absurd (List.mem_of_getElem? hx) ((History.ok h0 rfl h).no_direct hd w)
    | indirect v =>
      have harg : argPtr E.cfg s' (.obj t) = argPtr E.cfg s' (.vptr (.indirect v)) := harg
      by_cases hu : ∃ u, p.HasId u ∧ p.StaticVar (p.rtti.ti u) v
      · obtain ⟨u, h1, h2⟩ := hu
        exact .inr ⟨u, i, h1, hix, (List.getElem?_eq_some_iff.1 hx).1, hsub _ (harg.trans (C33_follows hp h h1 h2).1)⟩
      · left
        rw [hsub _ harg]
        exact C33_orphan h0 hp h (fun u h1 h2 => hu ⟨u, h1, h2⟩) hm types

/-- Without runtime_checks, with a vector, in all histories: a call of which the first virtual argument is any object, of a registered class or
not, has undefined behaviour, or is the same as a call with an object of a registered class. -/
theorem C28_unchecked (h0 : History E.cfg s b) (hp : p.Good E.cfg) (h : Initializes E p s s' rep) (hk : E.cfg.checks = false) (hv : E.cfg.vector = true)
    {m : MethodInfo} {ks : List Bool} {before after : List Arg} (hm : m.params = List.replicate before.length false ++ true :: ks) (types : List TypeId) :
    call E.cfg s' m (before ++ .obj t :: after) types = .ub ∨
    ∃ u i, p.HasId u ∧ vecIndex E.cfg s'.vptr.hash t = .ok i ∧ i < s'.vptr.vec.length ∧
      call E.cfg s' m (before ++ .obj t :: after) types = call E.cfg s' m (before ++ .obj u :: after) types := by
  cases hd : E.cfg.indirect with
  | false => exact unchecked_direct h0 hp h hk hv hd hm types
  | true => exact unchecked_indirect h0 hp h hk hv hd hm types

theorem emplace_mem {x : TypeId × Stored} : ∀ (l m : List (TypeId × Stored)),
    x ∈ l.foldl (fun m x => if m.any (fun y => y.1 == x.1) then m else m ++ [x]) m → x ∈ m ∨ x ∈ l
  | [], _, h => .inl h
  | y :: l, m, h => by
    rw [List.foldl_cons] at h
    rcases emplace_mem l _ h with h | h
    · split at h
      · exact .inl h
      · rcases List.mem_append.1 h with h | h
        · exact .inl h
        · exact .inr (by simp at h; simp [h])
    · exact .inr (by simp [h])

/-- Without runtime_checks, with `vptr_map`: the behaviour is undefined in all cases, since the map is made anew by each `initialize`. -/
theorem C28_unchecked_map (hp : p.Good E.cfg) (h : Initializes E p s s' rep) (hk : E.cfg.checks = false) (hv : E.cfg.vector = false) (ht : ¬ p.HasId t)
    {m : MethodInfo} {ks : List Bool} {before after : List Arg} (hm : m.params = List.replicate before.length false ++ true :: ks) (types : List TypeId) :
    call E.cfg s' m (before ++ .obj t :: after) types = .ub ∧ makeVirtualPtr E.cfg s' t = .ub := by
  obtain ⟨c, img, R, _⟩ := init_ready hp h
  obtain ⟨w, hi, _, hs'⟩ := init_eq h R.compiled R.written
  have hst : s'.vptr = w.state := by rw [hs']
  have hdyn : dynamicVptr E.cfg s'.vptr t = .ub := by
    unfold dynamicVptr
    rw [if_neg (by simp [hv]), hk]
    cases hx : s'.vptr.map.find? (fun y => y.1 == t) with
    | none => rfl
    | some x =>
      exfalso
      have h1 := List.mem_of_find?_eq_some hx
      have h2 : x.1 = t := by simpa using List.find?_some hx
      unfold vptrInit at hi
      rw [if_neg (by simp [hv])] at hi
      rw [hst, ← Res.ok.inj hi] at h1
      rcases emplace_mem _ _ h1 with h | h
      · cases h
      · exact ht ((mem_ctxIds R.ok.lat t).1 (h2 ▸ ctxPairs_id h))
  have hacq : acquireVptr E.cfg s' t = .ub := by
    unfold acquireVptr
    rw [R.require, Res.ok_bind, hdyn]
  have harg : argPtr E.cfg s' (.obj t) = .ub := by
    simp only [argPtr]
    rw [hacq]; rfl
  refine ⟨call_first_ub R.require (fun e he => ?_) (fun q hq => ?_) hm types, ?_⟩
  · rw [harg] at he; cases he
  · rw [harg] at hq; cases hq
  · unfold makeVirtualPtr
    rw [hacq]; rfl

/-! ## The hypotheses are met -/

/-- Classes 1 and 3 are registered, 9 and 11 are not: an overrider is silently entered. Without a hash, the null pointer in the vector
is dereferenced. -/
example : goodB (Config.fast hashed) gap = true ∧ callAfter (env (Config.fast hashed)) [gap] kick [.obj 9] = some (.ok 10) ∧
    callAfter (env (Config.fast hashed)) [gap] kick [.obj 11] = some (.ok 10) ∧
    callAfter (env (Config.ind (Config.fast hashed))) [gap] kick [.obj 9] = some (.ok 10) ∧
    callAfter (env (Config.fast plain)) [gap] kick [.obj 2] = some .ub ∧
    callAfter (env (Config.fast plain)) [gap] kick [.obj 3] = some (.ok 10) := by decide +kernel

/-- In a map, class 2 is not found, although it was registered before. -/
example : goodB (Config.fast mapped) gap = true ∧ callAfter (env (Config.fast mapped)) [DetectExample.loaded] kick [.obj 2] = some (.ok 10) ∧
    callAfter (env (Config.fast mapped)) [DetectExample.loaded, gap] kick [.obj 2] = some .ub ∧
    callAfter (env (Config.fast mapped)) [DetectExample.loaded, gap] kick [.obj 3] = some (.ok 10) := by decide +kernel

end OpenMethod.Props

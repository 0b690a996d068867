import Verif.Proof.Missing
import Verif.Proof.Gen
import Verif.Proof.Memory

/-! # Registries over time -/

namespace OpenMethod

open Spec

/-! ## The search for hash factors does not depend on the past -/

theorem tryFactors_old (rnd : Nat → BitVec 64) (ids : List TypeId) (n : Nat) {s s' : Search} (h1 : s.state.shift = s'.state.shift)
    (h2 : s.state.min = s'.state.min) (h3 : s.state.max = s'.state.max) (h4 : s.state.buckets.length = s'.state.buckets.length)
    (h5 : s.total = s'.total) (h6 : s.drawn = s'.drawn) : tryFactors rnd ids (n + 1) s = tryFactors rnd ids (n + 1) s' := by
  obtain ⟨⟨a, b, c, d, e⟩, f, g⟩ := s
  obtain ⟨⟨a', b', c', d', e'⟩, f', g'⟩ := s'
  simp only at h1 h2 h3 h4 h5 h6
  subst h1 h2 h3 h5 h6
  simp only [tryFactors, h4]

theorem hashInit_old (rnd : Nat → BitVec 64) (N : Nat) (ids : List TypeId) (old old' : HashState) : hashInit rnd N ids old = hashInit rnd N ids old' := by
  unfold hashInit searchPasses
  split
  · rfl
  · have : ∃ n, attemptsPerPass = n + 1 := ⟨99999, rfl⟩
    obtain ⟨n, hn⟩ := this
    rw [hn]
    dsimp only
    rw [tryFactors_old rnd ids n (s := { state := { old with shift := 64 - initialM N, min := sizeMax, max := 0, buckets := resize old.buckets (2 ^ initialM N) 0 }, total := 0, drawn := 0 })
      (s' := { state := { old' with shift := 64 - initialM N, min := sizeMax, max := 0, buckets := resize old'.buckets (2 ^ initialM N) 0 }, total := 0, drawn := 0 })
      rfl rfl rfl (by simp only [resize_length]) rfl rfl]

theorem storeVec_same {cfg : Config} {h h' : HashState} (hix : ∀ t, vecIndex cfg h t = vecIndex cfg h' t) (l l' : List (TypeId × Stored))
    (hk : l.map (·.1) = l'.map (·.1)) : ∀ (v v' : List Stored), v.length = v'.length →
    Res.map List.length (l.foldlM (storeVec cfg h) v) = Res.map List.length (l'.foldlM (storeVec cfg h') v') := by
  induction l generalizing l' with
  | nil =>
    intro v v' hv
    cases l' with
    | nil => simp only [List.foldlM_nil]; exact congrArg Res.ok hv
    | cons _ _ => simp at hk
  | cons x l ih =>
    intro v v' hv
    cases l' with
    | nil => simp at hk
    | cons x' l' =>
      simp only [List.map_cons, List.cons.injEq] at hk
      rw [List.foldlM_cons, List.foldlM_cons]
      unfold storeVec
      rw [hix, hk.1]
      cases hv' : vecIndex cfg h' x'.1 with
      | ub => rfl
      | err e => rfl
      | ok i =>
        simp only [Res.ok_bind, hv]
        by_cases hi : i < v'.length
        · rw [if_pos hi, if_pos hi]
          simp only [Res.ok_bind]
          exact ih l' hk.2 _ _ (by simp [hv])
        · rw [if_neg hi, if_neg hi]; rfl

theorem ctxPairs_same (cfg : Config) (mem mem' : VarId → Option Ptr) (cs : List CtxClass) :
    (ctxPairs cfg mem cs).map (·.1) = (ctxPairs cfg mem' cs).map (·.1) := by rw [ctxPairs_keys, ctxPairs_keys]

theorem fillVec_same {cfg : Config} (mem mem' : VarId → Option Ptr) (cs : List CtxClass) {s s' : VptrState}
    (hix : ∀ t, vecIndex cfg s.hash t = vecIndex cfg s'.hash t) (n : Nat) :
    Res.map VptrResult.error (fillVec cfg mem cs s n) = Res.map VptrResult.error (fillVec cfg mem' cs s' n) := by
  have := storeVec_same hix _ _ (ctxPairs_same cfg mem mem' cs) (resize s.vec n .null) (resize s'.vec n .null) (by simp only [resize_length])
  unfold fillVec
  cases h1 : (ctxPairs cfg mem cs).foldlM (storeVec cfg s.hash) (resize s.vec n .null) <;>
    cases h2 : (ctxPairs cfg mem' cs).foldlM (storeVec cfg s'.hash) (resize s'.vec n .null) <;> rw [h1, h2] at this <;>
    simp_all [Res.map]

theorem vptrInit_same (cfg : Config) (rnd : Nat → BitVec 64) (mem mem' : VarId → Option Ptr) (cs : List CtxClass) (s s' : VptrState) :
    Res.map VptrResult.error (vptrInit cfg rnd mem cs s) = Res.map VptrResult.error (vptrInit cfg rnd mem' cs s') := by
  unfold vptrInit
  split
  · split
    · rw [hashInit_old rnd _ _ (bucketsBefore cfg s.hash) (bucketsBefore cfg s'.hash)]
      cases hashInit rnd cs.length (cs.flatMap (·.ids)) (bucketsBefore cfg s'.hash) with
      | ub => rfl
      | err e => rfl
      | ok r =>
        cases r with
        | found h => exact fillVec_same mem mem' cs (s := { s with hash := h }) (s' := { s' with hash := h }) (fun _ => rfl) (h.max + 1)
        | failed a b h => rfl
    · rename_i ht
      exact fillVec_same mem mem' cs (fun t => by simp only [vecIndex]; rw [if_neg ht, if_neg ht]) _
  · rfl

/-- The result of `initialize` does not depend on the past. -/
theorem initRegistry_same (E : Env) (p : Program) (s s' : RegState) :
    Res.map InitOut.result (initRegistry E p s) = Res.map InitOut.result (initRegistry E p s') := by
  unfold initRegistry
  cases compile E.platform E.n2216 p with
  | ub => rfl
  | err e => rfl
  | ok c =>
    dsimp only
    rw [writeGlobal_moved c s.fresh s'.fresh]
    cases writeGlobal c s.fresh with
    | ub => rfl
    | err e => rfl
    | ok img =>
      simp only [Res.map_ok]
      have := vptrInit_same E.cfg E.rnd (applyImage c.lattice img s).svptr (applyImage c.lattice (img.moved s'.fresh) s').svptr (ctxClasses c.lattice)
        (applyImage c.lattice img s).vptr (applyImage c.lattice (img.moved s'.fresh) s').vptr
      cases h1 : vptrInit E.cfg E.rnd (applyImage c.lattice img s).svptr (ctxClasses c.lattice) (applyImage c.lattice img s).vptr with
      | ub =>
        rw [h1] at this
        cases h2 : vptrInit E.cfg E.rnd (applyImage c.lattice (img.moved s'.fresh) s').svptr (ctxClasses c.lattice) (applyImage c.lattice (img.moved s'.fresh) s').vptr <;>
          rw [h2] at this <;> first | rfl | cases this
      | err e =>
        rw [h1] at this
        cases h2 : vptrInit E.cfg E.rnd (applyImage c.lattice (img.moved s'.fresh) s').svptr (ctxClasses c.lattice) (applyImage c.lattice (img.moved s'.fresh) s').vptr <;>
          rw [h2] at this <;> first | (cases this; rfl) | cases this
      | ok v =>
        rw [h1] at this
        cases h2 : vptrInit E.cfg E.rnd (applyImage c.lattice (img.moved s'.fresh) s').svptr (ctxClasses c.lattice) (applyImage c.lattice (img.moved s'.fresh) s').vptr with
        | ub => rw [h2] at this; cases this
        | err e => rw [h2] at this; cases this
        | ok v' =>
          rw [h2] at this
          have he : v.error = v'.error := Res.ok.inj this
          simp only [he]
          cases v'.error <;> rfl

theorem compile_lattice {pl : Platform} {n : Bool} {p : Program} {c : Compiled} (hc : compile pl n p = .ok c) : augmentClasses pl p.rtti p.classes = .ok c.lattice := by
  unfold compile at hc
  rw [Res.bind_eq_ok] at hc
  obtain ⟨L, hL, hc⟩ := hc
  rw [Res.bind_eq_ok] at hc
  obtain ⟨ms, _, hc⟩ := hc
  simp only at hc
  rw [Res.bind_eq_ok] at hc
  obtain ⟨vt, _, hc⟩ := hc
  rw [Res.bind_eq_ok] at hc
  obtain ⟨ts, _, hc⟩ := hc
  rw [← Res.ok.inj hc]; exact hL

/-! ## Storage -/

theorem init_fresh {E : Env} {p : Program} {s : RegState} {r : InitOut} (h : initRegistry E p s = .ok r) : s.fresh ≤ r.state.fresh := by
  unfold initRegistry at h
  split at h
  · cases h
  · obtain rfl := Res.ok.inj h; exact Nat.le_refl _
  · split at h
    · cases h
    · obtain rfl := Res.ok.inj h; exact Nat.le_refl _
    · dsimp only at h
      split at h
      · cases h
      · obtain rfl := Res.ok.inj h; exact Nat.le_succ _
      · split at h <;> (obtain rfl := Res.ok.inj h; exact Nat.le_succ _)

theorem init_storage {E : Env} {p : Program} {s s' : RegState} {rep : Report} (h : Initializes E p s s' rep) :
    s'.gen = s.fresh ∧ s'.fresh = s.fresh + 1 ∧ s'.initialized = true := by
  unfold Initializes initRegistry at h
  split at h
  · cases h
  · cases h
  · split at h
    · cases h
    · cases h
    · dsimp only at h
      split at h
      · cases h
      · cases h
      · split at h
        · cases h
        · simp only [Res.ok.injEq, InitOut.mk.injEq] at h
          rw [← h.1]
          exact ⟨rfl, rfl, rfl⟩

/-- A failed `initialize` does not change the dispatch data, nor that the registry is initialized. -/
theorem fails_keeps {E : Env} {p : Program} {s s' : RegState} {e : Err} (h : FailsWith E p s s' e) :
    s'.data = s.data ∧ s'.gen = s.gen ∧ s'.initialized = s.initialized := by
  unfold FailsWith initRegistry at h
  split at h
  · cases h
  · simp only [Res.ok.injEq, InitOut.mk.injEq] at h; rw [← h.1]; exact ⟨rfl, rfl, rfl⟩
  · split at h
    · cases h
    · simp only [Res.ok.injEq, InitOut.mk.injEq] at h; rw [← h.1]; exact ⟨rfl, rfl, rfl⟩
    · dsimp only at h
      split at h
      · cases h
      · simp only [Res.ok.injEq, InitOut.mk.injEq] at h; rw [← h.1]; exact ⟨rfl, rfl, rfl⟩
      · split at h
        · simp only [Res.ok.injEq, InitOut.mk.injEq] at h; rw [← h.1]; exact ⟨rfl, rfl, rfl⟩
        · simp only [Res.ok.injEq, InitOut.mk.injEq, reduceCtorEq, and_false] at h

theorem Steps.fresh_le {cfg : Config} {s s' : RegState} (h : Steps cfg s s') : s.fresh ≤ s'.fresh := by
  induction h with
  | refl => exact Nat.le_refl _
  | ok _ _ h ih => exact Nat.le_trans ih (init_fresh h)
  | failed _ _ h ih => exact Nat.le_trans ih (init_fresh h)
  | exhausted _ _ h ih => exact Nat.le_trans ih h.keeps.2
  | final _ _ ih => exact ih

theorem History.initialized {cfg : Config} {s : RegState} {b : Bool} (h : History cfg s b) : s.initialized = b := by
  induction h with
  | start => rfl
  | ok _ _ h _ => exact (init_storage h).2.2
  | failed _ _ h ih => rw [(fails_keeps h).2.2, ih]
  | exhausted _ _ h ih => rw [h.keeps.1.initialized, ih]
  | final _ _ _ => rfl

/-! ## Arguments in two states -/

variable {E : Env} {p : Program} {rep : Report} {gen : Nat} {c : Compiled} {img : Image} {s : RegState}

theorem Ready.box (R : Ready E p rep gen c img s) {t : TypeId} (ht : p.HasId t) :
    makeVirtualPtr E.cfg s t = .ok (if E.cfg.indirect then .indirect (c.lattice.staticVptr (p.rtti.ti t)) else .direct (some (img.ptr gen (p.rtti.ti t)))) := by
  unfold makeVirtualPtr acquireVptr boxVptr
  simp only [R.require, Res.ok_bind, R.dynamic ht]
  cases E.cfg.indirect <;> simp

theorem HasId.order (R : Ready E p rep gen c img s) {t : TypeId} (ht : p.HasId t) : p.rtti.ti t ∈ c.lattice.order := by
  rw [R.ok.lat.mem_order]
  obtain ⟨cr, hcr, rfl⟩ := ht
  exact ⟨cr, hcr, rfl⟩

/-- A `virtual_ptr` gives the same v-table pointer as the object from which it was created. -/
theorem Ready.unbox (R : Ready E p rep gen c img s) {t : TypeId} (ht : p.HasId t) {b : Boxed} (hb : makeVirtualPtr E.cfg s t = .ok b) :
    OpenMethod.argPtr E.cfg s (.vptr b) = .ok (img.ptr gen (p.rtti.ti t)) := by
  rw [R.box ht] at hb
  obtain rfl := Res.ok.inj hb
  have := R.svptr _ (HasId.order R ht)
  unfold OpenMethod.argPtr
  cases E.cfg.indirect <;> simp [unboxVptr, this]

theorem Ready.missingArg (R : Ready E p rep gen c img s) (hd : Detects E.cfg) {t : TypeId} (ht : ¬ p.HasId t) (hn : E.cfg.vector = true → t ≠ noType) :
    OpenMethod.argPtr E.cfg s (.obj t) = .err (.missingClass t) := by
  unfold OpenMethod.argPtr acquireVptr
  simp only [R.require, Res.ok_bind, R.missing hd.checks hd.policy ht hn, Res.err_bind]

theorem Ready.sameArgs {rep' : Report} {gen' : Nat} {img' : Image} {s' : RegState} (R : Ready E p rep gen c img s) (R' : Ready E p rep' gen' c img' s')
    {ks : List Bool} {as bs : List Arg} (h : SameObjects E.cfg p s s' ks as bs) :
    SameArgs gen gen' ks (as.map (OpenMethod.argPtr E.cfg s)) (bs.map (OpenMethod.argPtr E.cfg s')) := by
  have hptr : ∀ x, img'.ptr gen' x = (img.ptr gen x).moved gen' := by
    intro x
    unfold Image.ptr Ptr.moved
    rw [writeGlobal_vptr R.written R'.written]
  induction h with
  | nil => exact .nil
  | virt ha _ ih =>
    refine .virt ?_ ih
    cases ha with
    | obj t ht => rw [R.argPtr ht, R'.argPtr ht, hptr]; exact .ptr _ rfl
    | unregistered t ht hd hn => rw [R.missingArg hd ht hn, R'.missingArg hd ht hn]; exact .err _
    | vptr t ht hb hb' => rw [R.unbox ht hb, R'.unbox ht hb', hptr]; exact .ptr _ rfl
  | other a b _ ih => exact .other _ _ ih

theorem Ready.vec_length {s' : RegState} (R : Ready E p rep gen c img s') (h : Initializes E p s s' rep) (hv : E.cfg.vector = true) (ht : E.cfg.typeHash = false) :
    s'.vptr.vec.length = vecSize ((ctxClasses c.lattice).flatMap (·.ids)) := by
  unfold Initializes at h
  rcases init_cases E p s with h0 | ⟨e, _, h0⟩ | ⟨c', hc, h0⟩
  · rw [h0] at h; cases h
  · rw [h0] at h; cases h
  · have := R.compiled
    rw [hc] at this
    obtain rfl := Res.ok.inj this
    unfold initRegistry at h
    simp only [hc] at h
    cases hw : writeGlobal c' s.fresh with
    | ub => rw [hw] at h; cases h
    | err e => rw [hw] at h; cases h
    | ok img' =>
      rw [hw] at h
      dsimp only at h
      cases hi : vptrInit E.cfg E.rnd (applyImage c'.lattice img' s).svptr (ctxClasses c'.lattice) (applyImage c'.lattice img' s).vptr with
      | ub => rw [hi] at h; cases h
      | err e => rw [hi] at h; cases h
      | ok v =>
        rw [hi] at h
        have hl := vptrInit_length hv ht hi
        dsimp only at h
        split at h
        · cases h
        · simp only [Res.ok.injEq, InitOut.mk.injEq] at h
          rw [← h.1]
          exact hl

/-- What a successful `initialize` does, in detail. -/
theorem init_eq {E : Env} {p : Program} {s s' : RegState} {rep : Report} (h : Initializes E p s s' rep) {c : Compiled} (hc : compile E.platform E.n2216 p = .ok c)
    {img : Image} (hw : writeGlobal c s.fresh = .ok img) : ∃ v, vptrInit E.cfg E.rnd (applyImage c.lattice img s).svptr (ctxClasses c.lattice) s.vptr = .ok v ∧
      v.error = none ∧ s' = { applyImage c.lattice img s with vptr := v.state, data := img.data, gen := s.fresh, initialized := true } := by
  unfold Initializes at h
  rcases init_cases E p s with h0 | ⟨e, _, h0⟩ | ⟨c', hc', h0⟩
  · rw [h0] at h; cases h
  · rw [h0] at h; cases h
  obtain rfl := Res.ok.inj (hc.symm.trans hc')
  rcases h0 with ⟨e, he⟩ | ⟨img', hw', h0⟩
  · rw [hw] at he; cases he
  obtain rfl := Res.ok.inj (hw.symm.trans hw')
  rcases h0 with ⟨e, he⟩ | ⟨v, hv, h0⟩
  · unfold initRegistry at h
    have : (applyImage c.lattice img s).vptr = s.vptr := rfl
    simp only [hc, hw, this, he] at h
    cases h
  · refine ⟨v, hv, ?_⟩
    rcases h0 with ⟨e, _, h0⟩ | ⟨hve, h0⟩
    · rw [h0] at h; cases h
    · rw [h0] at h
      simp only [Res.ok.injEq, InitOut.mk.injEq] at h
      exact ⟨hve, h.1.symm⟩

theorem init_next {E : Env} {p : Program} {s s' : RegState} {rep : Report} (h : Initializes E p s s' rep) {c : Compiled} (hc : compile E.platform E.n2216 p = .ok c)
    {img : Image} (hw : writeGlobal c s.fresh = .ok img) (v : VarId) : s'.next v = (nextAt img v).or (s.next v) := by
  obtain ⟨_, _, _, rfl⟩ := init_eq h hc hw
  rfl

/-- How `initialize` can fail: before anything is written, or in the search for hash factors. -/
theorem fails_cases {E : Env} {p : Program} {s s' : RegState} {e : Err} (hp : p.Good E.cfg) (h : FailsWith E p s s' e) :
    s' = s ∨ E.cfg.vector = true ∧ E.cfg.typeHash = true ∧ ∃ a b, e = .searchError a b := by
  unfold FailsWith at h
  rcases init_cases E p s with h0 | ⟨e', _, h0⟩ | ⟨c, hc, h0⟩
  · rw [h0] at h; cases h
  · rw [h0] at h
    simp only [Res.ok.injEq, InitOut.mk.injEq] at h
    exact .inl h.1.symm
  have C := compile_ok hp.valid.acyclic hp.valid.wf hc
  obtain ⟨bases, img, hw, I⟩ := writeGlobal_ok C s.fresh
  have hctx := ctxOk (cfg := E.cfg) C.lat hp.ids
  rcases h0 with ⟨e, he⟩ | ⟨img', hw', h0⟩
  · rw [hw] at he; cases he
  obtain rfl := Res.ok.inj (hw.symm.trans hw')
  rcases h0 with ⟨e, he⟩ | ⟨v, hv, h0⟩
  · exact absurd he (vptrInit_no_err hctx e)
  rcases h0 with ⟨e', hve, h0⟩ | ⟨_, h0⟩
  · rw [h0] at h
    simp only [Res.ok.injEq, InitOut.mk.injEq, Except.error.injEq] at h
    right
    obtain ⟨_, rfl⟩ := h
    unfold vptrInit at hv
    split at hv
    · rename_i hvec
      split at hv
      · rename_i hth
        refine ⟨hvec, hth, ?_⟩
        rw [Res.bind_eq_ok] at hv
        obtain ⟨r, _, hv⟩ := hv
        cases r with
        | found h =>
          simp only [fillVec] at hv
          rw [Res.bind_eq_ok] at hv
          obtain ⟨_, _, hv⟩ := hv
          rw [← Res.ok.inj hv] at hve; cases hve
        | failed a b h =>
          rw [← Res.ok.inj hv] at hve
          exact ⟨a, b, (Option.some.inj hve).symm⟩
      · simp only [fillVec] at hv
        rw [Res.bind_eq_ok] at hv
        obtain ⟨_, _, hv⟩ := hv
        rw [← Res.ok.inj hv] at hve; cases hve
    · rw [← Res.ok.inj hv] at hve; cases hve
  · rw [h0] at h; cases h

/-- When the search for hash factors fails, the `static_vptr`s of the classes already refer to the new dispatch data, which is
destroyed. -/
theorem init_search_fails {E : Env} {p : Program} {s : RegState} (hp : p.Good E.cfg) {c : Compiled} (hc : compile E.platform E.n2216 p = .ok c)
    (hv : E.cfg.vector = true) (ht : E.cfg.typeHash = true) (hN : c.lattice.order.length < 100000000)
    (hl : 2 ^ (initialM c.lattice.order.length + 3) < ((ctxClasses c.lattice).flatMap (·.ids)).length) :
    ∃ s' a b, FailsWith E p s s' (.searchError a b) ∧ ∀ x ∈ c.lattice.order, ∃ q, s'.svptr (c.lattice.staticVptr x) = some q ∧ q.gen = s.fresh := by
  have C := compile_ok hp.valid.acyclic hp.valid.wf hc
  obtain ⟨bases, img, hw, I⟩ := writeGlobal_ok C s.fresh
  have hctx := ctxOk (cfg := E.cfg) C.lat hp.ids
  have hlen : (ctxClasses c.lattice).length = c.lattice.order.length := by simp [ctxClasses]
  have hfail : ∃ h, hashInit E.rnd (ctxClasses c.lattice).length ((ctxClasses c.lattice).flatMap (·.ids)) (bucketsBefore E.cfg s.vptr.hash) =
      .ok (.failed 400000 (2 ^ (initialM c.lattice.order.length + 4)) h) := by
    rw [hlen]
    rcases hashInit_spec E.rnd c.lattice.order.length ((ctxClasses c.lattice).flatMap (·.ids)) (bucketsBefore E.cfg s.vptr.hash) (hctx.valid hv) with
      ⟨M, s', h1, h2, h3, h4⟩ | ⟨s', h1, _⟩ | ⟨_, h2⟩
    · have := h4.card h2
      have h5 : 2 ^ M ≤ 2 ^ (initialM c.lattice.order.length + 3) := Nat.pow_le_pow_right (by omega) h3.2
      omega
    · exact ⟨s', h1⟩
    · have := initialM_le hN; omega
  obtain ⟨h, hfail⟩ := hfail
  refine ⟨{ applyImage c.lattice img s with vptr := { s.vptr with hash := h.state } }, 400000,
    2 ^ (initialM c.lattice.order.length + 4), ?_, ?_⟩
  · unfold FailsWith initRegistry
    have hvp : (applyImage c.lattice img s).vptr = s.vptr := rfl
    have hvi : vptrInit E.cfg E.rnd (applyImage c.lattice img s).svptr (ctxClasses c.lattice) s.vptr =
        .ok { state := { s.vptr with hash := h.state }, error := some (.searchError 400000 (2 ^ (initialM c.lattice.order.length + 4))) } := by
      unfold vptrInit
      rw [hv, ht]
      simp only [if_true, hfail, Res.ok_bind]
    simp only [hc, hw, hvp, hvi]
  · intro x hx
    have hL : augmentClasses E.platform p.rtti p.classes = .ok c.lattice := compile_lattice hc
    exact ⟨_, writeSvptr_at (fun x hx y hy => lattice_svptr_inj hp.vars hL hx hy) s.svptr hx, rfl⟩

end OpenMethod

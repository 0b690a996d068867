import Verif.Proof.Cost

/-! # `initialize` again, with the same registrations, when memory is exhausted -/

namespace OpenMethod

open Spec

/-! ## The search for hash factors does not allocate -/

theorem probe_length (ids : List TypeId) : ∀ (s : HashState) {r : Bool × HashState}, probe ids s = .ok r → r.2.buckets.length = s.buckets.length := by
  induction ids with
  | nil => intro s r h; obtain rfl := Res.ok.inj h; rfl
  | cons t ids ih =>
    intro s r h
    unfold probe at h
    dsimp only at h
    split at h
    · cases h
    · split at h
      · obtain rfl := Res.ok.inj h; rfl
      · have := ih _ h
        simpa using this

theorem tryFactors_length (rnd : Nat → BitVec 64) (ids : List TypeId) (n : Nat) : ∀ (s : Search) {r : Bool × Search}, tryFactors rnd ids n s = .ok r →
    r.2.state.buckets.length = s.state.buckets.length := by
  induction n with
  | zero => intro s r h; obtain rfl := Res.ok.inj h; rfl
  | succ n ih =>
    intro s r h
    unfold tryFactors at h
    dsimp only at h
    rw [Res.bind_eq_ok] at h
    obtain ⟨x, hx, h⟩ := h
    have hl := probe_length ids _ hx
    simp only [List.length_replicate] at hl
    split at h
    · obtain rfl := Res.ok.inj h; exact hl
    · exact (ih _ h).trans hl

theorem searchPasses_length (rnd : Nat → BitVec 64) (ids : List TypeId) (passes : Nat) : ∀ (M : Nat) (s : Search) {h : HashState},
    searchPasses rnd ids passes M s = .ok (.found h) → 2 ^ M ≤ h.buckets.length := by
  induction passes with
  | zero => intro M s h hs; cases hs
  | succ passes ih =>
    intro M s h hs
    unfold searchPasses at hs
    split at hs
    · cases hs
    · dsimp only at hs
      rw [Res.bind_eq_ok] at hs
      obtain ⟨r, hr, hs⟩ := hs
      split at hs
      · have := Res.ok.inj hs
        simp only [HashResult.found.injEq] at this
        subst this
        rw [tryFactors_length rnd ids _ _ hr]
        simp [resize_length]
      · exact Nat.le_trans (Nat.pow_le_pow_right (by omega) (Nat.le_succ M)) (ih _ _ hs)

theorem searchFault_none (rnd : Nat → BitVec 64) (ids : List TypeId) (passes : Nat) : ∀ (k M cap : Nat) (s : Search) {h : HashState},
    searchPasses rnd ids passes M s = .ok (.found h) → h.buckets.length ≤ cap → searchFault rnd ids k passes M cap s = .ok none := by
  induction passes with
  | zero => intro k M cap s h hs; cases hs
  | succ passes ih =>
    intro k M cap s h hs hc
    have hl := searchPasses_length rnd ids _ _ _ hs
    unfold searchPasses at hs
    unfold searchFault
    split at hs
    · cases hs
    · rename_i hM
      rw [if_neg hM]
      dsimp only at hs ⊢
      cases k with
      | zero =>
        dsimp only
        rw [if_neg (by omega)]
      | succ k =>
        dsimp only
        rw [Res.bind_eq_ok] at hs
        obtain ⟨r, hr, hs⟩ := hs
        rw [hr, Res.ok_bind]
        split at hs
        · rename_i h1
          rw [if_pos h1]
        · rename_i h1
          rw [if_neg h1]
          exact ih _ _ _ _ hs (Nat.le_trans hc (Nat.le_max_left _ _))

/-! ## The vptr policy -/

/-- What the policy contains after `initialize` for these classes. -/
structure FilledFor (cfg : Config) (rnd : Nat → BitVec 64) (cs : List CtxClass) (v : VptrState) : Prop where
  plain : cfg.vector = true → cfg.typeHash = false → v.vec.length = vecSize (cs.flatMap (·.ids))
  hash : cfg.vector = true → cfg.typeHash = true → hashInit rnd cs.length (cs.flatMap (·.ids)) (bucketsBefore cfg v.hash) = .ok (.found v.hash) ∧ v.vec.length = v.hash.max + 1

theorem vptrInit_filled {cfg : Config} {rnd : Nat → BitVec 64} {mem : VarId → Option Ptr} {cs : List CtxClass} {v : VptrState} {r : VptrResult}
    (h : vptrInit cfg rnd mem cs v = .ok r) (he : r.error = none) : FilledFor cfg rnd cs r.state := by
  refine ⟨fun hv ht => vptrInit_length hv ht h, fun hv ht => ?_⟩
  unfold vptrInit at h
  rw [if_pos hv, if_pos ht, Res.bind_eq_ok] at h
  obtain ⟨x, hx, h⟩ := h
  cases x with
  | failed a b s => obtain rfl := Res.ok.inj h; cases he
  | found k =>
    obtain ⟨h1, _, h3⟩ := fillVec_length h
    have h3 : r.state.hash = k := h3
    rw [h3, h1]
    exact ⟨(hashInit_old rnd _ _ _ _).trans hx, rfl⟩

theorem FilledFor.same {cfg : Config} {rnd : Nat → BitVec 64} {cs : List CtxClass} {v v' : VptrState} (hf : FilledFor cfg rnd cs v)
    (hk : cfg.vector = true → cfg.typeHash = true → cfg.checks = true) {f : Fault} (h : vptrFault cfg rnd cs v f = .ok (some v')) : v' = v := by
  rcases vptrFault_hash h with h1 | ⟨hv, ht, _⟩
  · exact h1
  · exfalso
    obtain ⟨h1, h2⟩ := hf.hash hv ht
    have hb : bucketsBefore cfg v.hash = v.hash := by rw [bucketsBefore, if_pos (hk hv ht)]
    unfold vptrFault at h
    split at h
    · rename_i k
      rw [hv, ht] at h
      simp only [Bool.and_self, if_true] at h
      unfold hashInit at h1
      have := searchFault_none rnd _ 4 k (initialM cs.length) (bucketsBefore cfg v.hash).buckets.length _ h1 (by rw [hb])
      rw [this] at h
      cases h
    · rw [if_pos hv, if_pos ht, h1, Res.ok_bind] at h
      dsimp only at h
      rw [if_neg (by omega)] at h
      cases h
    · rw [hv] at h; cases h
    · cases h

/-! ## The slots and strides -/

theorem find_nodup {α : Type} {l : List (Nat × α)} (hn : (l.map (·.1)).Nodup) {x : Nat × α} (hx : x ∈ l) : (l.reverse.find? fun y => y.1 = x.1) = some x := by
  have hn' : (l.reverse.map (·.1)).Nodup := by rw [List.map_reverse]; exact List.nodup_reverse.2 hn
  have hx' : x ∈ l.reverse := List.mem_reverse.2 hx
  revert hn' hx'
  generalize l.reverse = r
  intro hn' hx'
  induction r with
  | nil => cases hx'
  | cons y r ih =>
    rw [List.map_cons, List.nodup_cons] at hn'
    rcases List.mem_cons.1 hx' with rfl | h
    · simp
    · rw [List.find?_cons_of_neg]
      · exact ih hn'.2 h
      · simp only [decide_eq_true_eq]
        intro e
        exact hn'.1 (e ▸ List.mem_map_of_mem h)

theorem slotsStrides_nodup {n : Bool} {pl : Platform} {p : Program} {c : Compiled} (C : CompiledOk n pl p c) (hid : (p.methods.map (·.id)).Nodup) : ((slotsStridesOf c).map (·.1)).Nodup := by
  have h1 : (slotsStridesOf c).map (·.1) = ((c.meths.zip c.tables).map (·.1)).map (·.info.id) := by
    unfold slotsStridesOf
    rw [List.map_map, List.map_map]
    have : ∀ (l : List (Meth × MethTable)) (i : Nat), (l.zipIdx i).map ((fun x : Nat × List Nat => x.1) ∘ fun x : (Meth × MethTable) × Nat =>
        (x.1.1.info.id, ((List.range x.1.1.vp.length).map fun k => c.slots.slots (x.2, k)) ++ x.1.2.strides)) = l.map ((fun m : Meth => m.info.id) ∘ fun x => x.1) := by
      intro l
      induction l with
      | nil => intro i; rfl
      | cons x l ih => intro i; rw [List.zipIdx_cons, List.map_cons, List.map_cons, ih]; rfl
    exact this _ 0
  rw [h1]
  have h2 : ((c.meths.zip c.tables).map (·.1)).Sublist c.meths := by
    have : ∀ (a : List Meth) (b : List MethTable), ((a.zip b).map (·.1)).Sublist a := by
      intro a
      induction a with
      | nil => intro b; simp
      | cons x a ih =>
        intro b
        cases b with
        | nil => simp
        | cons y b => rw [List.zip_cons_cons, List.map_cons]; exact (ih b).cons_cons x
    exact this _ _
  refine (h2.map (fun m : Meth => m.info.id)).nodup ?_
  rw [C.meths, List.map_map]
  exact hid

theorem stores_ss_same (l : List Store) (s : RegState) (h : ∀ m x, Store.slotsStrides m x ∈ l → s.ss m = some x) : (l.foldl Store.apply s).ss = s.ss := by
  induction l generalizing s with
  | nil => rfl
  | cons x l ih =>
    have hx : (x.apply s).ss = s.ss := by
      cases x with
      | slotsStrides m x =>
        show Function.update s.ss m (some x) = s.ss
        rw [← h m x (by simp), Function.update_eq_self]
      | next v f => rfl
      | svptr v p => rfl
    rw [List.foldl_cons, ih _ (fun m y hy => (congrFun hx m).trans (h m y (by simp [hy]))), hx]

/-! ## The registry -/

variable {E : Env} {p : Program} {s s0 s' : RegState} {rep : Report}

/-- The same registrations again: only `static_vptr`, and possibly `next`, have changed. -/
theorem Exhausts.same (hp : p.Good E.cfg) (hi : Initializes E p s0 s rep) (hx : Exhausts E p s s') (hk : E.cfg.vector = true → E.cfg.typeHash = true → E.cfg.checks = true) :
    s'.ss = s.ss ∧ s'.vptr = s.vptr := by
  obtain ⟨c, img, R, _⟩ := init_ready hp hi
  obtain ⟨v, hv, he, hs⟩ := init_eq hi R.compiled R.written
  rcases exhausts_cases hx with rfl | ⟨c', img', hc, hw, hx⟩
  · exact ⟨rfl, rfl⟩
  obtain rfl : c = c' := Res.ok.inj (R.compiled.symm.trans hc)
  have hmv : img' = img.moved s.fresh := by
    have := writeGlobal_moved c s0.fresh s.fresh
    rw [R.written, hw, Res.map_ok] at this
    exact Res.ok.inj this
  have hss : img.slotsStrides = slotsStridesOf c := by
    have := R.written
    unfold writeGlobal at this
    dsimp only at this
    rw [Res.bind_eq_ok] at this
    obtain ⟨_, _, this⟩ := this
    rw [Res.bind_eq_ok] at this
    obtain ⟨_, _, this⟩ := this
    rw [← Res.ok.inj this]
  have hat : ∀ m x, (m, x) ∈ img.slotsStrides → s.ss m = some x := by
    intro m x hm
    rw [hs]
    show (slotsStridesAt img m).or _ = _
    rw [slotsStridesAt, find_nodup (x := (m, x)) (by rw [hss]; exact slotsStrides_nodup R.ok hp.valid.ids) hm]
    rfl
  have hstore : ∀ m x, Store.slotsStrides m x ∈ stores c.lattice img' s.fresh → s.ss m = some x := by
    intro m x hm
    refine hat m x ?_
    rw [hmv] at hm
    simp only [stores, List.mem_append, List.mem_map, Store.slotsStrides.injEq, reduceCtorEq, and_false, exists_false, or_false] at hm
    obtain ⟨y, hy, rfl, rfl⟩ := hm
    exact hy
  rcases hx with ⟨n, rfl⟩ | ⟨f, v', hf, rfl⟩
  · exact ⟨stores_ss_same _ s fun m x hm => hstore m x (List.mem_of_mem_take hm), (stores_keep ((stores c.lattice img' s.fresh).take n) s).2.1⟩
  · refine ⟨?_, ?_⟩
    · have := stores_ss_same (stores c.lattice img' s.fresh) s hstore
      rw [← this]
      exact (congrArg RegState.ss (stores_all c.lattice img' s)).symm
    · have hF : FilledFor E.cfg E.rnd (ctxClasses c.lattice) s.vptr := by
        rw [hs]; exact vptrInit_filled hv he
      exact hF.same hk hf

/-- Calls read neither `static_vptr` nor `next` without `indirect_vptr`. -/
theorem call_direct {cfg : Config} (hd : cfg.indirect = false) (hf : s.vptr.Fits cfg) (h1 : s.SameData s') (h2 : s'.ss = s.ss) (h3 : s'.vptr = s.vptr) (m : MethodInfo) {args : List Arg}
    (ha : ∀ v, Arg.vptr (.indirect v) ∉ args) (types : List TypeId) :
    call cfg s' m args types = call cfg s m args types ∧ ∀ t, makeVirtualPtr cfg s' t = makeVirtualPtr cfg s t := by
  have hacq : ∀ t, acquireVptr cfg s' t = acquireVptr cfg s t := by
    intro t
    unfold acquireVptr requireInitialized
    rw [h1.initialized, h3]
  have harg : ∀ a ∈ args, argPtr cfg s' a = argPtr cfg s a := by
    intro a hm
    cases a with
    | vptr b =>
      cases b with
      | direct p => rfl
      | indirect v => exact absurd hm (ha v)
    | obj t =>
      unfold argPtr
      dsimp only
      rw [hacq]
      cases hr : acquireVptr cfg s t with
      | ub => rfl
      | err e => rfl
      | ok r =>
        rw [Res.ok_bind, Res.ok_bind]
        cases r with
        | value q => rfl
        | var v =>
          exfalso
          unfold acquireVptr at hr
          rw [Res.bind_eq_ok] at hr
          obtain ⟨_, _, hr⟩ := hr
          have := Cost.dynamicVptr_fits hf hr
          simp [Cost.RefFits, hd] at this
  refine ⟨?_, fun t => ?_⟩
  · unfold call requireInitialized
    rw [h1.initialized, h2, h1.gen, h1.data, List.map_congr_left harg]
  · unfold makeVirtualPtr
    rw [hacq]

/-! ## Dispatch data that is destroyed -/

theorem History.gen_lt {cfg : Config} {b : Bool} (h : History cfg s b) : s.gen < s.fresh := by
  induction h with
  | start => exact Nat.one_pos
  | ok _ _ h _ => obtain ⟨h1, h2, _⟩ := init_storage h; omega
  | failed _ _ h ih =>
    rw [(fails_keeps h).2.1]
    exact Nat.lt_of_lt_of_le ih (init_fresh h)
  | exhausted _ _ h ih =>
    rw [h.keeps.1.gen]
    exact Nat.lt_of_lt_of_le ih h.keeps.2
  | final _ _ ih => exact ih

/-- The first thing that a call reads is a word at a v-table pointer. -/
theorem resolve_dangling {gen : Nat} {data : List Word} (ss : List Nat) (arity : Nat) {params : List Bool} {args : List (Res Ptr)}
    (h : List.Forall₂ (fun k a => k = true → ∃ q : Ptr, a = .ok q ∧ q.gen ≠ gen) params args) : resolve (readWord gen data) ss arity params args = .ub := by
  have hrd : ∀ (q : Ptr) (i : Nat), q.gen ≠ gen → readWord gen data (q.add i) = .ub := by
    intro q i hq
    unfold readWord
    rw [if_neg]
    exact fun e => hq e.1
  have h1 : resolveUni (readWord gen data) ss params args = .ub := by
    induction h with
    | nil => rfl
    | @cons k a ks as hka _ ih =>
      cases k with
      | false => exact ih
      | true =>
        obtain ⟨q, rfl, hq⟩ := hka rfl
        show (Res.ofOption ss[0]? >>= fun slot => readWord gen data (q.add slot)) = .ub
        cases ss[0]? with
        | none => rfl
        | some i => exact hrd q i hq
  have h2 : resolveMultiFirst (readWord gen data) ss arity params args = .ub := by
    induction h with
    | nil => rfl
    | @cons k a ks as hka _ ih =>
      cases k with
      | false => exact ih (by unfold resolveUni at h1; exact h1)
      | true =>
        obtain ⟨q, rfl, hq⟩ := hka rfl
        unfold resolveMultiFirst
        rw [Res.ok_bind]
        cases ss[0]? with
        | none => rfl
        | some i =>
          show (readWord gen data (q.add i) >>= _) = Res.ub
          rw [hrd q i hq]; rfl
  unfold resolve
  rw [h1, h2, ite_self]; rfl

/-- The allocations made by `vptr::initialize`, the last ones. -/
def Fault.InVptr : Fault → Prop
  | .buckets _ | .vector | .map => True
  | _ => False

theorem initFault_inVptr {tr : Bool} {f : Fault} (hf : f.InVptr) (h : initFault E tr p s f = .ok (some s')) :
    ∃ c img v, compile E.platform E.n2216 p = .ok c ∧ writeGlobal c s.fresh = .ok img ∧ s' = { applyImage c.lattice img s with vptr := v } := by
  have key : ∀ (c : Compiled) (img : Image), (do
      let v ← vptrFault E.cfg E.rnd (ctxClasses c.lattice) (applyImage c.lattice img s).vptr f
      Res.ok (v.map fun v => { applyImage c.lattice img s with vptr := v })) = .ok (some s') → ∃ v, s' = { applyImage c.lattice img s with vptr := v } := by
    intro c img h
    rw [Res.bind_eq_ok] at h
    obtain ⟨v, _, h⟩ := h
    have h := Res.ok.inj h
    cases v with
    | none => cases h
    | some v => exact ⟨v, (Option.some.inj h).symm⟩
  have key2 : (match compile E.platform E.n2216 p with
      | .ub => Res.ub
      | .err _ => .ok none
      | .ok c => match writeGlobal c s.fresh with
        | .ub => .ub
        | .err _ => .ok none
        | .ok img => do
          let v ← vptrFault E.cfg E.rnd (ctxClasses c.lattice) (applyImage c.lattice img s).vptr f
          Res.ok (v.map fun v => { applyImage c.lattice img s with vptr := v })) = .ok (some s') := by
    cases f with
    | buckets k => exact h
    | vector => exact h
    | map => exact h
    | _ => exact hf.elim
  split at key2
  · cases key2
  · cases key2
  · rename_i c hc
    split at key2
    · cases key2
    · cases key2
    · rename_i img hw
      obtain ⟨v, hv⟩ := key c img key2
      exact ⟨c, img, v, hc, hw, hv⟩

/-- The `static_vptr` of the classes then refer to dispatch data that was destroyed. -/
theorem svptr_dangling {tr : Bool} {f : Fault} (hv : p.VarsOk) (hf : f.InVptr) (h : initFault E tr p s f = .ok (some s')) {x : Cls} {v : VarId} (hx : x ∈ p.classes.map (p.rtti.ti ·.type))
    (hxv : p.StaticVar x v) (hac : Acyclic p) (hwf : ∀ m ∈ p.methods, m.WF) : ∃ q, s'.svptr v = some q ∧ q.gen = s.fresh := by
  obtain ⟨c, img, w, hc, hw, rfl⟩ := initFault_inVptr hf h
  have hL := compile_lattice hc
  have C := compile_ok hac hwf hc
  have hxo : x ∈ c.lattice.order := by
    rw [C.lat.mem_order]
    obtain ⟨cr, hcr, rfl⟩ := List.mem_map.1 hx
    exact ⟨cr, hcr, rfl⟩
  obtain rfl : c.lattice.staticVptr x = v := by
    have := lattice_svptr hL x hxo
    unfold Program.StaticVar at hxv
    exact Option.some.inj (this.symm.trans hxv)
  exact ⟨_, writeSvptr_at (fun x hx y hy e => lattice_svptr_inj hv hL hx hy e) s.svptr hxo, rfl⟩

end OpenMethod

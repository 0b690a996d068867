import Verif.SpecRegistry
import Verif.Proof.Vptr
import Verif.Proof.Refine

/-! # The state of a registry after `initialize` -/

namespace OpenMethod

open Spec

/-! ## `static_vptr` of a class: from its first record -/

theorem addClass_svptr (r : Rtti) (classes : List ClassInfo) : ∀ x ∈ (classes.foldl (addClass r) Lattice.empty).order,
    (classes.find? (fun cr => r.ti cr.type = x)).map (·.staticVptr) = some ((classes.foldl (addClass r) Lattice.empty).staticVptr x) := by
  refine foldl_inv_prefix (fun pre s => (∀ x ∈ s.order, (pre.find? (fun cr => r.ti cr.type = x)).map (·.staticVptr) = some (s.staticVptr x)) ∧
    ∀ cr ∈ pre, r.ti cr.type ∈ s.order) (addClass r) classes _ ?_ ?_ |>.1
  · simp [Lattice.empty]
  · rintro pre cr post s _ ⟨h1, h2⟩
    have ho : (addClass r s cr).order = if r.ti cr.type ∈ s.order then s.order else s.order ++ [r.ti cr.type] := by
      unfold addClass; dsimp only; split <;> split <;> simp_all
    have hs : (addClass r s cr).staticVptr = if r.ti cr.type ∈ s.order then s.staticVptr else Function.update s.staticVptr (r.ti cr.type) cr.staticVptr := by
      unfold addClass; dsimp only; split <;> split <;> simp_all
    constructor
    · intro x hx
      rw [ho] at hx
      rw [hs, List.find?_append]
      by_cases hm : r.ti cr.type ∈ s.order
      · rw [if_pos hm] at hx ⊢
        have := h1 x hx
        rw [Option.map_eq_some_iff] at this
        obtain ⟨a, ha, hb⟩ := this
        rw [ha]; simp [hb]
      · rw [if_neg hm] at hx ⊢
        by_cases hxs : x ∈ s.order
        · have := h1 x hxs
          rw [Option.map_eq_some_iff] at this
          obtain ⟨a, ha, hb⟩ := this
          have hne : x ≠ r.ti cr.type := by rintro rfl; exact hm hxs
          rw [ha, Function.update_of_ne hne]; simp [hb]
        · have hxe : x = r.ti cr.type := by
            rcases List.mem_append.1 hx with h | h
            · exact absurd h hxs
            · simpa using h
          subst hxe
          have hnone : pre.find? (fun c => decide (r.ti c.type = r.ti cr.type)) = none := by
            rw [List.find?_eq_none]
            intro c hc e
            apply hxs
            have := h2 c hc
            rwa [of_decide_eq_true e] at this
          rw [hnone]
          simp
    · intro c hc
      rw [ho]
      rcases List.mem_append.1 hc with hc | hc
      · have := h2 c hc
        split
        · exact this
        · exact List.mem_append_left _ this
      · have : c = cr := by simpa using hc
        subst this
        split
        · assumption
        · simp

theorem lattice_svptr {pl : Platform} {p : Program} {L : Lattice} (h : augmentClasses pl p.rtti p.classes = .ok L) :
    ∀ x ∈ L.order, (p.classes.find? (fun cr => p.rtti.ti cr.type = x)).map (·.staticVptr) = some (L.staticVptr x) := by
  unfold augmentClasses at h
  rw [Res.bind_eq_ok] at h
  obtain ⟨s, hs, h⟩ := h
  have P1 := pass1 p.rtti p.classes
  have P2 := pass2 P1.tb hs
  have h := Res.ok.inj h
  rw [← h]
  simp only
  have h1 : s.order = (p.classes.foldl (addClass p.rtti) Lattice.empty).order := by rw [P2.same]
  have h2 : s.staticVptr = (p.classes.foldl (addClass p.rtti) Lattice.empty).staticVptr := by rw [P2.same]
  rw [h1, h2]
  exact addClass_svptr p.rtti p.classes

theorem lattice_svptr_mem {pl : Platform} {p : Program} {L : Lattice} (h : augmentClasses pl p.rtti p.classes = .ok L) {x : Cls} (hx : x ∈ L.order) :
    ∃ cr ∈ p.classes, p.rtti.ti cr.type = x ∧ cr.staticVptr = L.staticVptr x := by
  have := lattice_svptr h x hx
  rw [Option.map_eq_some_iff] at this
  obtain ⟨a, ha, hb⟩ := this
  exact ⟨a, List.mem_of_find?_eq_some ha, by simpa using List.find?_some ha, hb⟩

theorem lattice_svptr_inj {pl : Platform} {p : Program} {L : Lattice} (hp : p.VarsOk) (h : augmentClasses pl p.rtti p.classes = .ok L)
    {x y : Cls} (hx : x ∈ L.order) (hy : y ∈ L.order) (e : L.staticVptr x = L.staticVptr y) : x = y := by
  obtain ⟨a, ha, rfl, ha'⟩ := lattice_svptr_mem h hx
  obtain ⟨b, hb, rfl, hb'⟩ := lattice_svptr_mem h hy
  exact hp a ha b hb (by rw [ha', hb', e])

theorem writeSvptr_at {L : Lattice} {img : Image} {gen : Nat} (hinj : ∀ x ∈ L.order, ∀ y ∈ L.order, L.staticVptr x = L.staticVptr y → x = y)
    (mem : VarId → Option Ptr) {x : Cls} (hx : x ∈ L.order) : writeSvptr L img gen mem (L.staticVptr x) = some (img.ptr gen x) := by
  unfold writeSvptr
  have : ∀ (l : List Cls) (mem : VarId → Option Ptr), (∀ y ∈ l, y ∈ L.order) → (x ∈ l ∨ mem (L.staticVptr x) = some (img.ptr gen x)) →
      l.foldl (fun mem x => Function.update mem (L.staticVptr x) (some { gen := gen, off := img.vptr x })) mem (L.staticVptr x) = some (img.ptr gen x) := by
    intro l
    induction l with
    | nil => intro mem _ h; simpa using h
    | cons y l ih =>
      intro mem hl h
      rw [List.foldl_cons]
      refine ih _ (fun z hz => hl z (by simp [hz])) ?_
      by_cases hxl : x ∈ l
      · exact .inl hxl
      · right
        by_cases hxy : L.staticVptr x = L.staticVptr y
        · have := hinj x hx y (hl y (by simp)) hxy
          subst this
          simp [Image.ptr]
        · rw [Function.update_of_ne hxy]
          rcases h with h | h
          · rcases List.mem_cons.1 h with rfl | h
            · exact absurd rfl hxy
            · exact absurd h hxl
          · exact h
  exact this L.order mem (fun _ h => h) (.inl hx)

theorem writeSvptr_other {L : Lattice} {img : Image} {gen : Nat} (mem : VarId → Option Ptr) {v : VarId} (hv : ∀ x ∈ L.order, L.staticVptr x ≠ v) :
    writeSvptr L img gen mem v = mem v := by
  unfold writeSvptr
  have : ∀ (l : List Cls) (mem : VarId → Option Ptr), (∀ y ∈ l, y ∈ L.order) →
      l.foldl (fun mem x => Function.update mem (L.staticVptr x) (some { gen := gen, off := img.vptr x })) mem v = mem v := by
    intro l
    induction l with
    | nil => intro mem _; rfl
    | cons y l ih =>
      intro mem hl
      rw [List.foldl_cons, ih _ (fun z hz => hl z (by simp [hz])), Function.update_of_ne]
      exact fun e => hv y (hl y (by simp)) e.symm
  exact this L.order mem (fun _ h => h)

/-! ## The context of the vptr policy -/

theorem ctxIds (L : Lattice) : (ctxClasses L).flatMap (·.ids) = L.order.flatMap L.typeIds := by
  unfold ctxClasses
  rw [List.flatMap_map]

theorem mem_ctxIds {p : Program} {L : Lattice} (h : LatticeOk p L) (t : TypeId) : t ∈ (ctxClasses L).flatMap (·.ids) ↔ p.HasId t := by
  rw [ctxIds, List.mem_flatMap]
  constructor
  · rintro ⟨x, _, ht⟩
    exact ((h.mem_typeIds x t).1 ht).1
  · intro ht
    refine ⟨p.rtti.ti t, ?_, (h.mem_typeIds _ t).2 ⟨ht, rfl⟩⟩
    rw [h.mem_order]
    obtain ⟨cr, hcr, rfl⟩ := ht
    exact ⟨cr, hcr, rfl⟩

theorem ctxOk {cfg : Config} {p : Program} {L : Lattice} (h : LatticeOk p L) (hid : IdsOk cfg p) : CtxOk cfg (ctxClasses L) := by
  refine ⟨?_, ?_⟩
  · rw [ctxIds, List.nodup_flatMap]
    refine ⟨fun x _ => h.nodup_typeIds x, ?_⟩
    refine h.nodup_order.imp ?_
    intro x y hxy t hx hy
    have hx := ((h.mem_typeIds x t).1 hx).2
    have hy := ((h.mem_typeIds y t).1 hy).2
    exact hxy (hx.symm.trans hy)
  · intro hv t ht e
    subst e
    exact hid hv ((mem_ctxIds h _).1 ht)

/-! ## After a successful `initialize` -/

/-- The result of `initialize` in all cases. -/
theorem init_cases (E : Env) (p : Program) (s : RegState) :
    initRegistry E p s = .ub ∨
    (∃ e, compile E.platform E.n2216 p = .err e ∧ initRegistry E p s = .ok { state := s, result := .error e }) ∨
    ∃ c, compile E.platform E.n2216 p = .ok c ∧
      ((∃ e, writeGlobal c s.fresh = .err e) ∨
       ∃ img, writeGlobal c s.fresh = .ok img ∧
        ((∃ e, vptrInit E.cfg E.rnd (applyImage c.lattice img s).svptr (ctxClasses c.lattice) s.vptr = .err e) ∨
         ∃ v, vptrInit E.cfg E.rnd (applyImage c.lattice img s).svptr (ctxClasses c.lattice) s.vptr = .ok v ∧
          ((∃ e, v.error = some e ∧ initRegistry E p s = .ok { state := { applyImage c.lattice img s with vptr := v.state }, result := .error e }) ∨
           (v.error = none ∧ initRegistry E p s = .ok { state := { applyImage c.lattice img s with vptr := v.state, data := img.data, gen := s.fresh, initialized := true }, result := .ok c.report })))) := by
  unfold initRegistry
  cases hc : compile E.platform E.n2216 p with
  | ub => exact .inl rfl
  | err e => exact .inr (.inl ⟨e, rfl, rfl⟩)
  | ok c =>
    cases hw : writeGlobal c s.fresh with
    | ub => left; simp only [hw]
    | err e => exact .inr (.inr ⟨c, rfl, .inl ⟨e, hw⟩⟩)
    | ok img =>
      have hsv : (applyImage c.lattice img s).vptr = s.vptr := rfl
      simp only [hw, hsv]
      cases hv : vptrInit E.cfg E.rnd (applyImage c.lattice img s).svptr (ctxClasses c.lattice) s.vptr with
      | ub => left; simp only
      | err e => exact .inr (.inr ⟨c, rfl, .inr ⟨img, hw, .inl ⟨e, hv⟩⟩⟩)
      | ok v =>
        refine .inr (.inr ⟨c, rfl, .inr ⟨img, hw, .inr ⟨v, hv, ?_⟩⟩⟩)
        cases he : v.error with
        | some e => exact .inl ⟨e, rfl, by simp only [he]⟩
        | none => exact .inr ⟨rfl, by simp only [he]⟩

/-- The state of a registry after a successful `initialize`. -/
structure Ready (E : Env) (p : Program) (rep : Report) (gen : Nat) (c : Compiled) (img : Image) (s : RegState) : Prop where
  compiled : compile E.platform E.n2216 p = .ok c
  ok : CompiledOk E.n2216 E.platform p c
  lattice : augmentClasses E.platform p.rtti p.classes = .ok c.lattice
  written : writeGlobal c gen = .ok img
  install : install E.platform E.n2216 p gen = .ok (rep, img)
  data : s.data = img.data
  storage : s.gen = gen
  initialized : s.initialized = true
  ss : ∀ m ∈ p.methods, s.ss m.id = slotsStridesAt img m.id
  svptr : ∀ x ∈ c.lattice.order, s.svptr (c.lattice.staticVptr x) = some (img.ptr gen x)
  vptr : VptrOk E.cfg (ctxPairs E.cfg s.svptr (ctxClasses c.lattice)) s.vptr
  ctx : CtxOk E.cfg (ctxClasses c.lattice)

theorem vptrInit_no_err {cfg : Config} {rnd : Nat → BitVec 64} {mem : VarId → Option Ptr} {cs : List CtxClass} {s : VptrState}
    (hcs : CtxOk cfg cs) (e : Err) : vptrInit cfg rnd mem cs s ≠ .err e := by
  intro h
  unfold vptrInit at h
  have fill : ∀ (s0 : VptrState) (size : Nat), fillVec cfg mem cs s0 size = .err e →
      ∃ t ∈ cs.flatMap (·.ids), vecIndex cfg s0.hash t = .err e := by
    intro s0 size hf
    unfold fillVec at hf
    rw [Res.bind_eq_err] at hf
    rcases hf with hf | ⟨_, _, hf⟩
    · have : ∀ (l : List (TypeId × Stored)) (v : List Stored), l.foldlM (storeVec cfg s0.hash) v = .err e → ∃ x ∈ l, vecIndex cfg s0.hash x.1 = .err e := by
        intro l
        induction l with
        | nil => intro v h; cases h
        | cons x l ih =>
          intro v h
          rw [List.foldlM_cons, Res.bind_eq_err] at h
          rcases h with h | ⟨w, _, h⟩
          · unfold storeVec at h
            rw [Res.bind_eq_err] at h
            rcases h with h | ⟨i, _, h⟩
            · exact ⟨x, by simp, h⟩
            · split at h <;> cases h
          · obtain ⟨y, hy, h⟩ := ih w h
            exact ⟨y, by simp [hy], h⟩
      obtain ⟨x, hx, h⟩ := this _ _ hf
      refine ⟨x.1, ?_, h⟩
      rw [← ctxPairs_keys cfg mem cs]
      exact List.mem_map.2 ⟨x, hx, rfl⟩
    · cases hf
  cases hv : cfg.vector with
  | false => rw [hv] at h; simp at h
  | true =>
    rw [hv] at h
    simp only [if_true] at h
    cases ht : cfg.typeHash with
    | false =>
      rw [ht] at h
      simp only [Bool.false_eq_true, if_false] at h
      obtain ⟨t, _, h⟩ := fill _ _ h
      simp [vecIndex, ht] at h
    | true =>
      rw [ht] at h
      simp only [if_true] at h
      rw [Res.bind_eq_err] at h
      rcases h with h | ⟨r, hr, h⟩
      · rcases hashInit_spec rnd cs.length (cs.flatMap (·.ids)) (bucketsBefore cfg s.hash) (hcs.valid hv) with ⟨M, s', h1, _⟩ | ⟨s', h1, _⟩ | ⟨h1, _⟩ <;>
          rw [h1] at h <;> cases h
      · cases r with
        | failed a b h' => cases h
        | found hs =>
          obtain ⟨M, hM, _, H⟩ := hashInit_found (hcs.valid hv) hr
          obtain ⟨t, hm, h⟩ := fill _ _ h
          simp only [vecIndex, ht, if_true] at h
          cases hc : cfg.checks with
          | false => rw [hc] at h; cases h
          | true => rw [hc, H.check (hcs.valid hv t hm), if_pos hm] at h; cases h

theorem init_ready {E : Env} {p : Program} {s s' : RegState} {rep : Report} (hp : p.Good E.cfg) (h : Initializes E p s s' rep) :
    ∃ c img, Ready E p rep s.fresh c img s' ∧ s'.fresh = s.fresh + 1 := by
  unfold Initializes at h
  rcases init_cases E p s with h0 | ⟨e, _, h0⟩ | ⟨c, hc, h0⟩
  · rw [h0] at h; cases h
  · rw [h0] at h; cases h
  have C := compile_ok hp.valid.acyclic hp.valid.wf hc
  obtain ⟨bases, img, hw, I⟩ := writeGlobal_ok C s.fresh
  have hL : augmentClasses E.platform p.rtti p.classes = .ok c.lattice := by
    have := hc
    unfold compile at this
    rw [Res.bind_eq_ok] at this
    obtain ⟨L, hL, this⟩ := this
    rw [Res.bind_eq_ok] at this
    obtain ⟨ms, _, this⟩ := this
    simp only at this
    rw [Res.bind_eq_ok] at this
    obtain ⟨vt, _, this⟩ := this
    rw [Res.bind_eq_ok] at this
    obtain ⟨ts, _, this⟩ := this
    have this := Res.ok.inj this
    rw [← this]; exact hL
  have hctx := ctxOk (cfg := E.cfg) C.lat hp.ids
  rcases h0 with ⟨e, he⟩ | ⟨img', hw', h0⟩
  · rw [hw] at he; cases he
  rw [hw] at hw'
  obtain rfl := Res.ok.inj hw'
  rcases h0 with ⟨e, he⟩ | ⟨v, hv, h0⟩
  · exact absurd he (vptrInit_no_err hctx e)
  rcases h0 with ⟨e, _, h0⟩ | ⟨hve, h0⟩
  · rw [h0] at h; cases h
  rw [h0] at h
  simp only [Res.ok.injEq, InitOut.mk.injEq, Except.ok.injEq] at h
  obtain ⟨h1, h2⟩ := h
  have hV := vptrInit_ok hctx hv hve
  refine ⟨c, img, ?_, by rw [← h1]; rfl⟩
  have hinst : OpenMethod.install E.platform E.n2216 p s.fresh = .ok (rep, img) := by
    unfold OpenMethod.install
    rw [hc, Res.ok_bind, hw, Res.ok_bind, ← h2]; rfl
  refine ⟨hc, C, hL, hw, hinst, by rw [← h1], by rw [← h1], by rw [← h1], ?_, ?_, ?_, hctx⟩
  · intro m hm
    rw [← h1]
    simp only [applyImage]
    obtain ⟨i, hi⟩ := List.getElem?_of_mem hm
    have hmm : c.meths[i]? = some (toMeth p.rtti c.lattice m) := by rw [C.meths, List.getElem?_map, hi]; rfl
    obtain ⟨t, rs, ht, hT⟩ := C.table hmm
    have := slotsStrides_at C.toCompiledBase I hp.valid.ids hi ht
    rw [this]; rfl
  · intro x hx
    rw [← h1]
    exact writeSvptr_at (fun x hx y hy => lattice_svptr_inj hp.vars hL hx hy) s.svptr hx
  · rw [← h1]
    exact hV

/-! ## Calls -/

variable {E : Env} {p : Program} {rep : Report} {gen : Nat} {c : Compiled} {img : Image} {s : RegState}

theorem Ready.require (R : Ready E p rep gen c img s) : requireInitialized E.cfg s = .ok () := by
  simp [requireInitialized, R.initialized]

theorem Ready.dynamic (R : Ready E p rep gen c img s) {t : TypeId} (ht : p.HasId t) :
    dynamicVptr E.cfg s.vptr t = .ok (if E.cfg.indirect then .var (c.lattice.staticVptr (p.rtti.ti t)) else .value (some (img.ptr gen (p.rtti.ti t)))) := by
  have hx : p.rtti.ti t ∈ c.lattice.order := by
    rw [R.ok.lat.mem_order]
    obtain ⟨cr, hcr, rfl⟩ := ht
    exact ⟨cr, hcr, rfl⟩
  have hm : ({ ids := c.lattice.typeIds (p.rtti.ti t), var := c.lattice.staticVptr (p.rtti.ti t) } : CtxClass) ∈ ctxClasses c.lattice :=
    List.mem_map.2 ⟨_, hx, rfl⟩
  rw [R.vptr.found R.ctx hm (t := t) ((R.ok.lat.mem_typeIds _ t).2 ⟨ht, rfl⟩), storedFor_ref, R.svptr _ hx]

theorem Ready.missing (R : Ready E p rep gen c img s) (hk : E.cfg.checks = true) (hh : E.cfg.vector = true → E.cfg.typeHash = true)
    {t : TypeId} (ht : ¬ p.HasId t) (hn : E.cfg.vector = true → t ≠ noType) : dynamicVptr E.cfg s.vptr t = .err (.missingClass t) :=
  R.vptr.missing hk hh (fun h => ht ((mem_ctxIds R.ok.lat t).1 h)) hn

theorem Ready.argPtr (R : Ready E p rep gen c img s) {t : TypeId} (ht : p.HasId t) :
    argPtr E.cfg s (.obj t) = .ok (img.ptr gen (p.rtti.ti t)) := by
  have hx : p.rtti.ti t ∈ c.lattice.order := by
    rw [R.ok.lat.mem_order]
    obtain ⟨cr, hcr, rfl⟩ := ht
    exact ⟨cr, hcr, rfl⟩
  unfold OpenMethod.argPtr acquireVptr
  simp only [R.require, Res.ok_bind, R.dynamic ht]
  cases E.cfg.indirect <;> simp [VRef.read, R.svptr _ hx]

theorem Ready.call (R : Ready E p rep gen c img s) {m : MethodInfo} (hm : m ∈ p.methods) (args : List Arg) (types : List TypeId) :
    call E.cfg s m args types = callMethod gen img m (args.map (OpenMethod.argPtr E.cfg s)) types := by
  unfold OpenMethod.call callMethod
  rw [R.require, Res.ok_bind, R.ss m hm, R.data, R.storage]

theorem Ready.argsFor (R : Ready E p rep gen c img s) {ks : List Bool} {args : List Arg} {xs : List Cls} (h : Objects p ks args xs) :
    ArgsFor (img.ptr gen) ks (args.map (OpenMethod.argPtr E.cfg s)) xs := by
  induction h with
  | nil => exact .nil
  | virt t ht _ ih => rw [List.map_cons, R.argPtr ht]; exact .virt _ ih
  | other a _ ih => rw [List.map_cons]; exact .other _ ih

end OpenMethod

import Verif.Props.Vptr
import Verif.Proof.Next

/-! # C30-C33: registries over time -/

namespace OpenMethod.Props

open Spec Examples

variable {cfg : Config} {E E' : Env} {p p' : Program} {s s' s1 s2 s1' s2' : RegState} {rep rep' rep1 rep2 : Report} {m : MethodInfo}

/-! ## C30: uninitialized registries are detected -/

/-- C30: before the first successful `initialize`, and between `finalize` and the next successful `initialize`, calls and
constructions of `virtual_ptr`s report not_initialized. -/
theorem C30 (hk : cfg.checks = true) (h : History cfg s false) :
    (∀ m args types, call cfg s m args types = .err .notInitialized) ∧ ∀ t, makeVirtualPtr cfg s t = .err .notInitialized := by
  have hr : requireInitialized cfg s = .err .notInitialized := by
    unfold requireInitialized
    rw [h.initialized, hk]; rfl
  constructor
  · intro m args types
    unfold call
    rw [hr]; rfl
  · intro t
    unfold makeVirtualPtr acquireVptr
    rw [hr]; rfl

/-- At other times not_initialized is not reported. -/
theorem C30_converse (h : History cfg s true) : requireInitialized cfg s = .ok () := by
  unfold requireInitialized
  rw [h.initialized, Bool.not_true, Bool.and_false]; rfl

/-! ## C31: only what is currently registered matters -/

/-- C31: after a successful `initialize` in any two states of the registry, for the same registrations, calls with the same
objects have the same outcome, and the reports are the same. -/
theorem C31 (hp : p.Good E.cfg) (h1 : Initializes E p s1 s1' rep1) (h2 : Initializes E p s2 s2' rep2) (hm : m ∈ p.methods) {as bs : List Arg}
    (hab : SameObjects E.cfg p s1' s2' m.params as bs) (types : List TypeId) :
    rep1 = rep2 ∧ call E.cfg s1' m as types = call E.cfg s2' m bs types := by
  obtain ⟨c, img, R, _⟩ := init_ready hp h1
  obtain ⟨c', img', R', _⟩ := init_ready hp h2
  obtain rfl : c = c' := Res.ok.inj (R.compiled.symm.trans R'.compiled)
  refine ⟨?_, ?_⟩
  · have e1 := R.install
    have e2 := R'.install
    unfold install at e1 e2
    rw [R.compiled, Res.ok_bind, R.written, Res.ok_bind] at e1
    rw [R.compiled, Res.ok_bind, R'.written, Res.ok_bind] at e2
    have e1 := Res.ok.inj e1
    have e2 := Res.ok.inj e2
    simp only [Prod.mk.injEq, and_true] at e1 e2
    rw [← e1, ← e2]
  · rw [R.call hm, R'.call hm]
    exact (callMethod_moved R.written R'.written m (R.sameArgs R' hab) types).symm

/-- Whether `initialize` is successful, its report or the error do not depend on the past either. -/
theorem C31_result (E : Env) (p : Program) (s1 s2 : RegState) :
    (initRegistry E p s1 = .ub ↔ initRegistry E p s2 = .ub) ∧
    (∀ rep, (∃ s1', Initializes E p s1 s1' rep) ↔ ∃ s2', Initializes E p s2 s2' rep) ∧
    ∀ e, (∃ s1', FailsWith E p s1 s1' e) ↔ ∃ s2', FailsWith E p s2 s2' e := by
  have h := initRegistry_same E p s1 s2
  unfold Initializes FailsWith
  cases h1 : initRegistry E p s1 with
  | ub =>
    cases h2 : initRegistry E p s2 with
    | ub => simp
    | err e => rw [h1, h2] at h; cases h
    | ok r => rw [h1, h2] at h; cases h
  | err e =>
    cases h2 : initRegistry E p s2 with
    | ub => rw [h1, h2] at h; cases h
    | err e => simp
    | ok r => rw [h1, h2] at h; cases h
  | ok r =>
    cases h2 : initRegistry E p s2 with
    | ub => rw [h1, h2] at h; cases h
    | err e => rw [h1, h2] at h; cases h
    | ok r' =>
      rw [h1, h2] at h
      have h : r.result = r'.result := Res.ok.inj h
      obtain ⟨a, b⟩ := r
      obtain ⟨a', b'⟩ := r'
      simp only at h
      subst h
      simp

/-- The `next` of an overrider entered by a call does not depend on the past. -/
theorem C31_next (hp : p.Good E.cfg) (hD : p.Distinct) (h1 : Initializes E p s1 s1' rep1) (h2 : Initializes E p s2 s2' rep2) {m0 : MethodInfo}
    (hm0 : m0 ∈ p.methods) {as : List Arg} {types : List TypeId} {o : OverriderInfo} (hrun : call E.cfg s1' m0 as types = .ok o.pf) (hm : m ∈ p.methods)
    (ho : o ∈ m.overriders) : s1'.next o.next = s2'.next o.next := by
  obtain ⟨c, img, R, _⟩ := init_ready hp h1
  obtain ⟨c', img', R', _⟩ := init_ready hp h2
  obtain rfl : c = c' := Res.ok.inj (R.compiled.symm.trans R'.compiled)
  rw [R.call hm0] at hrun
  obtain ⟨m1, hm1, o1, ho1, hpf, f, hf, hk⟩ := next_entered hp.valid hD R.install hrun
  obtain ⟨j, hj⟩ := List.getElem?_of_mem ho
  obtain ⟨j1, hj1⟩ := List.getElem?_of_mem ho1
  obtain ⟨rfl, _, rfl⟩ := hD.index hm1 hm hj1 hj hpf
  have e := writeGlobal_moved c s1.fresh s2.fresh
  rw [R.written, R'.written, Res.map_ok] at e
  obtain rfl := Res.ok.inj e
  rw [init_next h1 R.compiled R.written, init_next h2 R.compiled R'.written, hf]
  have : nextAt (img.moved s2.fresh) o1.next = nextAt img o1.next := rfl
  rw [this, hf]
  rfl

/-! ## C32: a failed `initialize` is harmless -/

/-- C32 in full: calls that worked before a failed `initialize` still work, and dispatch as before. -/
def C32 : Prop :=
  ∀ (E : Env) (p : Program) (s s' : RegState) (e : Err) (m : MethodInfo) (args : List Arg) (types : List TypeId) (n : Nat),
    History E.cfg s true → p.Good E.cfg → FailsWith E p s s' e → call E.cfg s m args types = .ok n → call E.cfg s' m args types = .ok n

/-- All errors except the failure of the search for hash factors leave the registry as it was; in registries without a hash,
all errors do. -/
theorem C32_partial {e : Err} (hp : p.Good E.cfg) (h : FailsWith E p s s' e)
    (he : (E.cfg.vector = true → E.cfg.typeHash = false) ∨ ∀ a b, e ≠ .searchError a b) : s' = s := by
  rcases fails_cases hp h with h1 | ⟨hv, ht, a, b, rfl⟩
  · exact h1
  · rcases he with he | he
    · rw [he hv] at ht; cases ht
    · exact absurd rfl (he a b)

/-- Even then, dispatch data is not changed and the registry remains initialized. -/
theorem C32_data_partial {e : Err} (h : FailsWith E p s s' e) : s'.data = s.data ∧ s'.gen = s.gen ∧ s'.initialized = s.initialized :=
  fails_keeps h

/-- The first `n` type ids designate class 1, which is registered with each of them. -/
def manyIds (n : Nat) : Program :=
  { rtti := { ti := fun t => if t = 1000#64 then 1000 else 1, void := 1000#64 }
    classes := (List.range n).map fun i => { type := BitVec.ofNat 64 i, bases := [BitVec.ofNat 64 i], isAbstract := false, staticVptr := 1 }
    methods := [kick] }

/-- C32 does not hold: after class 1 was registered 17 times with different ids, `initialize` fails, and a call that worked before
uses a dangling v-table pointer. -/
theorem C32_refuted : ¬ C32 := by
  intro h
  obtain ⟨s, rep, hi, hc⟩ := callAfter_eq (E := env (Config.ind hashed)) (p := manyIds 1) (m := kick) (args := [.vptr (.indirect 1)]) (r := .ok 10) (by decide +kernel)
  have hp : (manyIds 17).Good (Config.ind hashed) := good (by decide +kernel)
  have hok : isOk (compile .std false (manyIds 17)) = true := by decide +kernel
  obtain ⟨c, hcomp⟩ := isOk_eq hok
  have C := compile_ok hp.valid.acyclic hp.valid.wf hcomp
  have hone : ∀ x, x ∈ c.lattice.order ↔ x = 1 := by
    intro x
    rw [C.lat.mem_order]
    constructor
    · rintro ⟨cr, hcr, rfl⟩
      have : ∀ cr ∈ (manyIds 17).classes, (manyIds 17).rtti.ti cr.type = 1 := by decide
      exact this cr hcr
    · rintro rfl
      exact ⟨⟨0, [0], false, 1⟩, by decide, by decide⟩
  have hord : c.lattice.order = [1] := by
    have hnd := C.lat.nodup_order
    cases ho : c.lattice.order with
    | nil => have := (hone 1).2 rfl; rw [ho] at this; simp at this
    | cons a l =>
      rw [ho] at hnd hone
      obtain rfl := (hone a).1 (by simp)
      cases l with
      | nil => rfl
      | cons b l =>
        obtain rfl := (hone b).1 (by simp)
        simp at hnd
  have hids : ((ctxClasses c.lattice).flatMap (·.ids)).length = 17 := by
    have hnd := (ctxOk (cfg := Config.ind hashed) C.lat hp.ids).nodup
    have : ((ctxClasses c.lattice).flatMap (·.ids)).Perm ((manyIds 17).classes.map (·.type)) := by
      rw [List.perm_ext_iff_of_nodup hnd (by decide)]
      intro t
      rw [mem_ctxIds C.lat]
      simp [Program.HasId]
    rw [this.length_eq]; rfl
  obtain ⟨s', a, b, hf, hsv⟩ := init_search_fails (s := s) hp (E := env (Config.ind hashed)) hcomp rfl rfl (by rw [hord]; decide) (by rw [hord, hids]; decide)
  obtain ⟨q, hq, hgen⟩ := hsv 1 (by rw [hord]; simp)
  have hvar : c.lattice.staticVptr 1 = 1 := by
    obtain ⟨cr, hcr, _, e⟩ := lattice_svptr_mem (compile_lattice hcomp) (x := 1) (by rw [hord]; simp)
    rw [← e]
    have : ∀ cr ∈ (manyIds 17).classes, cr.staticVptr = 1 := by decide
    exact this cr hcr
  rw [hvar] at hq
  have := h (env (Config.ind hashed)) (manyIds 17) s s' _ kick [.vptr (.indirect 1)] [] 10 (.ok .start rfl hi) hp hf hc
  obtain ⟨_, hg, hin⟩ := fails_keeps hf
  have hub : ∀ n, readWord s'.gen s'.data (q.add n) = .ub := by
    intro n
    unfold readWord
    rw [if_neg]
    rintro ⟨h1, _⟩
    have h2 : q.gen = s'.gen := h1
    rw [hg, hgen, (init_storage hi).1, (init_storage hi).2.1] at h2
    omega
  unfold call at this
  rw [Res.bind_eq_ok] at this
  obtain ⟨_, _, this⟩ := this
  rw [Res.bind_eq_ok] at this
  obtain ⟨ss, _, this⟩ := this
  rw [Res.bind_eq_ok] at this
  obtain ⟨f, hr, _⟩ := this
  have har : argPtr (Config.ind hashed) s' (.vptr (.indirect 1)) = .ok q := by
    unfold argPtr unboxVptr
    simp only [hq, Res.ofOption_some]
  unfold resolve at hr
  dsimp only at hr
  rw [if_pos (show kick.arity = 1 from rfl), Res.bind_eq_ok] at hr
  obtain ⟨w, hw, _⟩ := hr
  have hpar : kick.params = [true] := rfl
  rw [hpar, List.map_cons] at hw
  have har' : argPtr (env (Config.ind hashed)).cfg s' (.vptr (.indirect 1)) = .ok q := har
  rw [har'] at hw
  simp only [resolveUni, Res.ok_bind] at hw
  rw [Res.bind_eq_ok] at hw
  obtain ⟨slot, _, hw⟩ := hw
  rw [hub] at hw
  cases hw

/-! ## C33: indirect `virtual_ptr`s survive -/

/-- C33 in full, first part: with indirect_vptr, a `virtual_ptr` created at some time can be used instead of the object after any
later successful `initialize`, provided that the class of the object is still registered. -/
def C33 : Prop :=
  ∀ (E E' : Env) (p p' : Program) (s s1 s2 s' : RegState) (rep rep' : Report) (t : TypeId) (b : Boxed),
    E.cfg.indirect = true → E'.cfg = E.cfg → p.Good E.cfg → p'.Good E.cfg → Initializes E p s s1 rep → p.HasId t → makeVirtualPtr E.cfg s1 t = .ok b →
    Steps E.cfg s1 s2 → Initializes E' p' s2 s' rep' → p'.HasId t → argPtr E.cfg s' (.vptr b) = argPtr E.cfg s' (.obj t)

/-- A `virtual_ptr` can replace the object in calls. -/
theorem call_replace {as bs : List Arg} {t : TypeId} {b : Boxed} (h : argPtr cfg s (.vptr b) = argPtr cfg s (.obj t)) (types : List TypeId) :
    call cfg s m (as ++ .vptr b :: bs) types = call cfg s m (as ++ .obj t :: bs) types := by
  unfold call
  rw [List.map_append, List.map_append, List.map_cons, List.map_cons, h]

/-- C33, first part, when the `static_vptr` variable of the class is the same. -/
theorem C33_partial (hi : E.cfg.indirect = true) (he : E'.cfg = E.cfg) (hp : p.Good E.cfg) (hp' : p'.Good E.cfg) (h : Initializes E p s s1 rep) {t : TypeId}
    (ht : p.HasId t) {b : Boxed} (hb : makeVirtualPtr E.cfg s1 t = .ok b) (h' : Initializes E' p' s2 s' rep') (ht' : p'.HasId t)
    (hv : ∀ v, p.StaticVar (p.rtti.ti t) v → p'.StaticVar (p'.rtti.ti t) v) :
    argPtr E.cfg s' (.vptr b) = argPtr E.cfg s' (.obj t) ∧ ∃ q, argPtr E.cfg s' (.obj t) = .ok q ∧ q.gen = s'.gen := by
  obtain ⟨c, img, R, _⟩ := init_ready hp h
  obtain ⟨c', img', R', _⟩ := init_ready (by rw [he]; exact hp') h'
  have hvar := hv _ (lattice_svptr R.lattice _ (HasId.order R ht))
  have hvar' := lattice_svptr R'.lattice _ (HasId.order R' ht')
  unfold Program.StaticVar at hvar
  have hsame : c.lattice.staticVptr (p.rtti.ti t) = c'.lattice.staticVptr (p'.rtti.ti t) := Option.some.inj (hvar.symm.trans hvar')
  have hq := R'.argPtr ht'
  rw [he] at hq
  refine ⟨?_, _, hq, R'.storage.symm⟩
  rw [R.box ht, hi] at hb
  obtain rfl := Res.ok.inj hb
  rw [hq, if_pos rfl, hsame]
  unfold argPtr unboxVptr
  simp only [R'.svptr _ (HasId.order R' ht'), Res.ofOption_some]

/-- C33, second part: without indirect_vptr, reading through the v-table pointer after a later successful `initialize` is
undefined behaviour. -/
theorem C33_direct (hi : E.cfg.indirect = false) (hp : p.Good E.cfg) (h : Initializes E p s s1 rep) {t : TypeId} (ht : p.HasId t) {b : Boxed}
    (hb : makeVirtualPtr E.cfg s1 t = .ok b) (hs : Steps E.cfg s1 s2) (h' : Initializes E' p' s2 s' rep') :
    ∃ q, unboxVptr s' b = some q ∧ ∀ n, readWord s'.gen s'.data (q.add n) = .ub := by
  obtain ⟨c, img, R, hf⟩ := init_ready hp h
  rw [R.box ht, hi] at hb
  obtain rfl := Res.ok.inj hb
  refine ⟨_, rfl, fun n => ?_⟩
  unfold readWord
  rw [if_neg]
  rintro ⟨h1, _⟩
  have h2 : s.fresh = s'.gen := h1
  have := hs.fresh_le
  rw [(init_storage h').1] at h2
  omega

/-- Class 1 is registered by two modules, which do not share the `static_vptr` variables. -/
def twoVars : Program := prog [cls 1 [], { cls 1 [] with staticVptr := 101 }] [kick]
/-- The first module was unloaded. -/
def secondVar : Program := prog [{ cls 1 [] with staticVptr := 101 }] [kick]

/-- C33 does not hold when a class is registered by several modules that do not share its `static_vptr`: the first one is used,
and it is no longer updated when its module is unloaded. -/
theorem C33_refuted : ¬ C33 := by
  intro h
  have hrun : ((initOf (env (Config.ind mapped)) twoVars .init).bind fun x => (initOf (env (Config.ind mapped)) secondVar x.1).map fun y =>
      (makeVirtualPtr (Config.ind mapped) x.1 1, argPtr (Config.ind mapped) y.1 (.vptr (.indirect 1)), argPtr (Config.ind mapped) y.1 (.obj 1))) =
      some (.ok (.indirect 1), .ok ⟨1, 0⟩, .ok ⟨2, 0⟩) := by decide +kernel
  rw [Option.bind_eq_some_iff] at hrun
  obtain ⟨⟨s1, rep⟩, h1, hrun⟩ := hrun
  rw [Option.map_eq_some_iff] at hrun
  obtain ⟨⟨s', rep'⟩, h2, hrun⟩ := hrun
  simp only [Prod.mk.injEq] at hrun
  obtain ⟨hb, e1, e2⟩ := hrun
  have := h (env (Config.ind mapped)) (env (Config.ind mapped)) twoVars secondVar .init s1 s1 s' rep rep' 1 (.indirect 1) rfl rfl
    (good (by decide +kernel)) (good (by decide +kernel)) (initOf_eq h1) ⟨cls 1 [], by decide, rfl⟩ hb .refl (initOf_eq h2)
    ⟨{ cls 1 [] with staticVptr := 101 }, by decide, rfl⟩
  have e1' : argPtr (env (Config.ind mapped)).cfg s' (.vptr (.indirect 1)) = .ok ⟨1, 0⟩ := e1
  have e2' : argPtr (env (Config.ind mapped)).cfg s' (.obj 1) = .ok ⟨2, 0⟩ := e2
  rw [e1', e2'] at this
  exact absurd this (by decide)

/-! ## The hypotheses are met -/

/-- Registrations change, then change back. -/
example : callAfter (env hashed) [zoo] meet [.obj 0, .obj 4, .obj 3, .obj 0] = some (.ok 23) ∧
    callAfter (env hashed) [zoo, twoIds, zoo] meet [.obj 0, .obj 4, .obj 3, .obj 0] = some (.ok 23) := by decide +kernel

/-- An indirect `virtual_ptr` of class 4 used after a later `initialize`: variable 4 is the `static_vptr`. -/
example : ((initOf (env (Config.ind hashed)) zoo .init).map fun x => makeVirtualPtr (Config.ind hashed) x.1 4) = some (.ok (.indirect 4)) ∧
    callAfter (env (Config.ind hashed)) [zoo, twoIds] meet [.obj 0, .vptr (.indirect 4), .obj 3, .obj 0] = some (.ok 23) := by decide +kernel

/-- After `finalize`. -/
example : History hashed (finalize (env hashed) .init) false := .final .start rfl
example : ((initOf (env hashed) zoo .init).map fun x => call hashed (finalize (env hashed) x.1) meet [.obj 0, .obj 4, .obj 3, .obj 0] []) =
    some (.err .notInitialized) := by decide +kernel

/-- A failure that leaves the registry as it was: a base that is not registered. -/
example : (match initRegistry (env hashed) (prog [cls 2 [1]] []) .init with | .ok ⟨_, .error _⟩ => true | _ => false) = true := by decide +kernel

end OpenMethod.Props

import Verif.Props.Registry
import Verif.Proof.MemorySame

/-! # C84: memory exhaustion in `initialize` -/

namespace OpenMethod.Props

open Spec Examples

variable {E : Env} {p : Program} {s s' s0 s1 s1' s2' : RegState} {rep rep1 rep2 : Report} {m : MethodInfo} {b : Bool} {tr : Bool} {f : Fault}

/-- C84 in full: when an allocation fails in `initialize`, calls that were possible before have the same outcome after. -/
def C84 : Prop :=
  ∀ (E : Env) (p : Program) (s s' : RegState) (m : MethodInfo) (args : List Arg) (types : List TypeId) (n : Nat),
    History E.cfg s true → p.Good E.cfg → Exhausts E p s s' → call E.cfg s m args types = .ok n → call E.cfg s' m args types = .ok n

/-! ## What holds -/

/-- The dispatch data in use is neither changed nor released, and the registry is considered to be initialized if it was. -/
theorem C84_data (h : Exhausts E p s s') : s'.data = s.data ∧ s'.gen = s.gen ∧ s'.initialized = s.initialized :=
  ⟨h.keeps.1.data, h.keeps.1.gen, h.keeps.1.initialized⟩

/-- An allocation that fails in `compile`, or that of the dispatch data, changes nothing. -/
theorem C84_early (hf : f = .compile ∨ f = .data) (h : initFault E tr p s f = .ok (some s')) : s' = s := by
  rcases hf with rfl | rfl
  · exact (Option.some.inj (Res.ok.inj h)).symm
  · have h' : (match compile E.platform E.n2216 p with
        | .ub => Res.ub
        | .err _ => .ok none
        | .ok c => .ok (if dataSize c = 0 then none else some s)) = .ok (some s') := h
    split at h'
    · cases h'
    · cases h'
    · have h' := Res.ok.inj h'
      split at h'
      · cases h'
      · exact (Option.some.inj h').symm

/-- `compile` and the allocation of the dispatch data are the only places where nothing was stored; any other failure happens after `compile` was successful: an `initialize` that
would report an error of the registrations changes nothing, also if memory is exhausted before. -/
theorem C84_errors {e : Err} (he : compile E.platform E.n2216 p = .err e) (h : Exhausts E p s s') : s' = s := by
  rcases exhausts_cases h with h1 | ⟨c, _, hc, _⟩
  · exact h1
  · rw [he] at hc; cases hc

/-- When memory is available again, `initialize` does what it would have done without the failure: it is successful in the same cases, with the same report, and calls with the
same objects have the same outcome. -/
theorem C84_recovers (_ : Exhausts E p s s1) :
    ((∃ s', Initializes E p s s' rep) ↔ ∃ s', Initializes E p s1 s' rep) ∧
    (p.Good E.cfg → Initializes E p s s1' rep1 → Initializes E p s1 s2' rep2 → m ∈ p.methods → ∀ {as bs : List Arg}, SameObjects E.cfg p s1' s2' m.params as bs →
      ∀ types, rep1 = rep2 ∧ call E.cfg s1' m as types = call E.cfg s2' m bs types) :=
  ⟨(C31_result E p s s1).2.1 rep, fun hp h1 h2 hm _ _ hab types => C31 hp h1 h2 hm hab types⟩

/-- When `initialize` is called again for the same registrations, `virtual_ptr`s are direct, and the hash function, if there is one, is checked, then the failure is not visible: calls
and constructions of `virtual_ptr`s have the same outcome as before. Missing: `indirect_vptr`, changed registrations, and hash functions without checks. -/
theorem C84_again_partial (h0 : History E.cfg s0 b) (hp : p.Good E.cfg) (hi : Initializes E p s0 s rep) (hx : Exhausts E p s s') (hd : E.cfg.indirect = false)
    (hk : E.cfg.vector = true → E.cfg.typeHash = true → E.cfg.checks = true) (m : MethodInfo) {args : List Arg} (ha : ∀ v, Arg.vptr (.indirect v) ∉ args) (types : List TypeId) :
    call E.cfg s' m args types = call E.cfg s m args types ∧ ∀ t, makeVirtualPtr E.cfg s' t = makeVirtualPtr E.cfg s t := by
  obtain ⟨h1, h2⟩ := hx.same hp hi hk
  exact call_direct hd (History.ok h0 rfl hi).fits hx.keeps.1 h1 h2 m ha types

/-! ## What does not hold -/

/-- The arguments are indirect `virtual_ptr`s to objects of registered classes. -/
def IndirectArgs (p : Program) (params : List Bool) (args : List Arg) : Prop :=
  List.Forall₂ (fun k a => k = true → ∃ x v, x ∈ p.classes.map (p.rtti.ti ·.type) ∧ p.StaticVar x v ∧ a = .vptr (.indirect v)) params args

/-- If an allocation fails in `vptr::initialize`, the `static_vptr`s of all the registered classes refer to the new dispatch data, which is destroyed by the exception. Every call with indirect
`virtual_ptr`s then reads released memory. -/
theorem C84_dangling (h0 : History E.cfg s true) (hp : p.Good E.cfg) (hf : f.InVptr) (h : initFault E tr p s f = .ok (some s')) {args : List Arg} (ha : IndirectArgs p m.params args)
    (types : List TypeId) : call E.cfg s' m args types = .ub := by
  have hk := Exhausts.keeps ⟨tr, f, h⟩
  have hlt := h0.gen_lt
  have hargs : List.Forall₂ (fun k a => k = true → ∃ q : Ptr, a = .ok q ∧ q.gen ≠ s'.gen) m.params (args.map (argPtr E.cfg s')) := by
    rw [List.forall₂_map_right_iff]
    refine List.Forall₂.imp (fun k a hka hk1 => ?_) ha
    obtain ⟨x, v, hx, hv, rfl⟩ := hka hk1
    obtain ⟨q, hq, hg⟩ := svptr_dangling hp.vars hf h hx hv hp.valid.acyclic hp.valid.wf
    refine ⟨q, ?_, ?_⟩
    · show Res.ofOption (s'.svptr v) = _
      rw [hq]; rfl
    · rw [hg, hk.1.gen]; omega
  unfold call requireInitialized
  rw [hk.1.initialized, h0.initialized, Bool.not_true, Bool.and_false]
  cases hs : s'.ss m.id with
  | none => rfl
  | some ss =>
    show (resolve (readWord s'.gen s'.data) ss m.arity m.params _ >>= _) = Res.ub
    rw [resolve_dangling ss m.arity hargs]; rfl

/-- The same for objects, if `initialize` was called again for the same registrations: with `indirect_vptr`, every call of a method reads released memory. -/
theorem C84_dangling_objects (h0 : History E.cfg s0 b) (hp : p.Good E.cfg) (hi : Initializes E p s0 s rep) (hd : E.cfg.indirect = true)
    (hk : E.cfg.vector = true → E.cfg.typeHash = true → E.cfg.checks = true) (hf : f.InVptr) (h : initFault E tr p s f = .ok (some s')) {args : List Arg} {xs : List Cls}
    (ha : Objects p m.params args xs) (types : List TypeId) : call E.cfg s' m args types = .ub := by
  obtain ⟨c, img, R, _⟩ := init_ready hp hi
  have hx : Exhausts E p s s' := ⟨tr, f, h⟩
  have h1 : History E.cfg s true := .ok h0 rfl hi
  obtain ⟨_, hv⟩ := hx.same hp hi hk
  have hr : requireInitialized E.cfg s' = .ok () := by
    unfold requireInitialized
    rw [hx.keeps.1.initialized, h1.initialized, Bool.not_true, Bool.and_false]; rfl
  have hargs : List.Forall₂ (fun k a => k = true → ∃ q : Ptr, a = .ok q ∧ q.gen ≠ s'.gen) m.params (args.map (argPtr E.cfg s')) := by
    generalize m.params = ks at ha
    induction ha with
    | nil => exact .nil
    | other a _ ih => exact .cons nofun ih
    | virt t ht _ ih =>
      refine .cons (fun _ => ?_) ih
      obtain ⟨q, hq, hg⟩ := svptr_dangling hp.vars hf h (List.mem_map.2 (by obtain ⟨cr, hcr, rfl⟩ := ht; exact ⟨cr, hcr, rfl⟩)) (lattice_svptr R.lattice _ (HasId.order R ht)) hp.valid.acyclic hp.valid.wf
      refine ⟨q, ?_, ?_⟩
      · show (acquireVptr E.cfg s' t >>= fun r => Res.ofOption (r.read s'.svptr)) = _
        unfold acquireVptr
        rw [hr, hv, R.dynamic ht, hd]
        show Res.ofOption (s'.svptr _) = _
        rw [hq]; rfl
      · have := h1.gen_lt
        rw [hg, hx.keeps.1.gen]; omega
  unfold call
  rw [hr]
  cases hs : s'.ss m.id with
  | none => rfl
  | some ss =>
    show (resolve (readWord s'.gen s'.data) ss m.arity m.params _ >>= _) = Res.ub
    rw [resolve_dangling ss m.arity hargs]; rfl

/-! ### Concrete cases -/

def trot : MethodInfo := meth 0 [true] [1] [ov [1] 10, ov [2] 11]
def dive : MethodInfo := meth 1 [true] [1] [ov [1] 20, ov [2] 21]
def oneMethod : Program := prog [cls 1 [], cls 2 [1]] [trot]

/-- Another method is registered, before the first one. -/
def twoMethods : Program := prog [cls 1 [], cls 2 [1]] [dive, trot]

/-- `initialize` for registrations `p1`, then for `p2`, when memory is exhausted: the states before and after the failure. -/
def faultAfter (E : Env) (tr : Bool) (p1 p2 : Program) (f : Fault) : Option (RegState × RegState) :=
  (initOf E p1 .init).bind fun x => match initFault E tr p2 x.1 f with
    | .ok (some s') => some (x.1, s')
    | _ => none

theorem faultAfter_eq {p1 p2 : Program} {a b : Res Nat} {args : List Arg} (h : (faultAfter E tr p1 p2 f).map (fun x => (call E.cfg x.1 m args [], call E.cfg x.2 m args [])) = some (a, b)) :
    ∃ s s' rep, Initializes E p1 .init s rep ∧ initFault E tr p2 s f = .ok (some s') ∧ call E.cfg s m args [] = a ∧ call E.cfg s' m args [] = b := by
  rw [Option.map_eq_some_iff] at h
  obtain ⟨⟨s, s'⟩, hx, h⟩ := h
  unfold faultAfter at hx
  rw [Option.bind_eq_some_iff] at hx
  obtain ⟨⟨s1, rep⟩, hi, hx⟩ := hx
  dsimp only at hx
  split at hx
  · rename_i s2 h2
    simp only [Option.some.injEq, Prod.mk.injEq] at hx
    obtain ⟨rfl, rfl⟩ := hx
    simp only [Prod.mk.injEq] at h
    exact ⟨_, _, rep, initOf_eq hi, h2, h.1, h.2⟩
  · cases hx

theorem C84_counter {p1 p2 : Program} {n : Nat} {r : Res Nat} {args : List Arg} (hp : goodB E.cfg p2 = true)
    (h : (faultAfter E tr p1 p2 f).map (fun x => (call E.cfg x.1 m args [], call E.cfg x.2 m args [])) = some (.ok n, r)) (hr : r ≠ .ok n) : ¬ C84 := by
  intro hC
  obtain ⟨s, s', rep, hi, hf, h1, h2⟩ := faultAfter_eq h
  exact hr (h2.symm.trans (hC E p2 s s' m args [] n (.ok .start rfl hi) (good hp) ⟨tr, f, hf⟩ h1))

/-- C84 does not hold. With direct v-table pointers in a map, a call with an object of class 1 enters the overrider for class 2: the slot of the method is already that of the new tables, and it is used in the old
ones. -/
theorem C84_refuted : ¬ C84 :=
  C84_counter (E := env mapped) (tr := false) (p1 := oneMethod) (p2 := twoMethods) (f := .map) (m := trot) (args := [.obj 1]) (n := 10) (r := .ok 11) (by decide +kernel) (by decide +kernel) (by decide)

/-- With `indirect_vptr`, without changing the registrations: released memory is read. -/
theorem C84_refuted_indirect : ∃ (s s' : RegState) (rep : Report), Initializes (env (Config.ind mapped)) oneMethod .init s rep ∧
    initFault (env (Config.ind mapped)) false oneMethod s .map = .ok (some s') ∧ call (Config.ind mapped) s trot [.obj 2] [] = .ok 11 ∧ call (Config.ind mapped) s' trot [.obj 2] [] = .ub := by
  obtain ⟨s, s', rep, h⟩ := faultAfter_eq (E := env (Config.ind mapped)) (tr := false) (p1 := oneMethod) (p2 := oneMethod) (f := .map) (m := trot) (args := [.obj 2]) (a := .ok 11) (b := .ub) (by decide +kernel)
  exact ⟨s, s', rep, h⟩

/-- In the default registry, without `runtime_checks`, classes were added: the hash function is not the one for which the vector was filled. -/
theorem C84_refuted_hash : ∃ (s s' : RegState) (rep : Report), Initializes (env (Config.fast hashed)) gap .init s rep ∧
    initFault (env (Config.fast hashed)) false zoo s (.buckets 0) = .ok (some s') ∧ call (Config.fast hashed) s kick [.obj 3] [] = .ok 10 ∧ call (Config.fast hashed) s' kick [.obj 3] [] = .ub := by
  obtain ⟨s, s', rep, h⟩ := faultAfter_eq (E := env (Config.fast hashed)) (tr := false) (p1 := gap) (p2 := zoo) (f := .buckets 0) (m := kick) (args := [.obj 3]) (a := .ok 10) (b := .ub) (by decide +kernel)
  exact ⟨s, s', rep, h⟩

/-- With `runtime_checks`, a registered class is reported as missing. -/
theorem C84_refuted_checked : ∃ (s s' : RegState) (rep : Report), Initializes (env hashed) gap .init s rep ∧
    initFault (env hashed) false zoo s (.buckets 0) = .ok (some s') ∧ call hashed s kick [.obj 3] [] = .ok 10 ∧ call hashed s' kick [.obj 3] [] = .err (.missingClass 3) := by
  obtain ⟨s, s', rep, h⟩ := faultAfter_eq (E := env hashed) (tr := false) (p1 := gap) (p2 := zoo) (f := .buckets 0) (m := kick) (args := [.obj 3]) (a := .ok 10) (b := .err (.missingClass 3)) (by decide +kernel)
  exact ⟨s, s', rep, h⟩

/-- With `runtime_checks`, when the vector cannot be enlarged: the checks are those of the new hash function, but its indexes are beyond the end of the vector. The call is not detected. -/
theorem C84_refuted_vector : ∃ (s s' : RegState) (rep : Report), Initializes (env hashed) gap .init s rep ∧
    initFault (env hashed) false zoo s .vector = .ok (some s') ∧ call hashed s kick [.obj 3] [] = .ok 10 ∧ call hashed s' kick [.obj 3] [] = .ub := by
  obtain ⟨s, s', rep, h⟩ := faultAfter_eq (E := env hashed) (tr := false) (p1 := gap) (p2 := zoo) (f := .vector) (m := kick) (args := [.obj 3]) (a := .ok 10) (b := .ub) (by decide +kernel)
  exact ⟨s, s', rep, h⟩

/-! ## The hypotheses are met -/

/-- `C84_again_partial`: calls after failures while the trace is written, or while the map is filled. -/
example : (faultAfter (env mapped) false oneMethod oneMethod .map).map (fun x => (call mapped x.1 trot [.obj 2] [], call mapped x.2 trot [.obj 2] [])) = some (.ok 11, .ok 11) := by decide +kernel
example : (faultAfter (env hashed) true zoo zoo (.trace 5)).map (fun x => (call hashed x.1 meet [.obj 0, .obj 4, .obj 3, .obj 0] [], call hashed x.2 meet [.obj 0, .obj 4, .obj 3, .obj 0] [])) =
    some (.ok 23, .ok 23) := by decide +kernel

/-- A failure while the trace is written, with `indirect_vptr`. -/
example : (faultAfter (env (Config.ind hashed)) true oneMethod oneMethod (.trace 5)).map (fun x => (call (Config.ind hashed) x.1 trot [.obj 2] [], call (Config.ind hashed) x.2 trot [.obj 2] [])) =
    some (.ok 11, .ub) := by decide +kernel

/-- `C84_early`, `C84_data`, `C84_recovers`: memory is exhausted, then `initialize` is successful. -/
example : (faultAfter (env hashed) false gap zoo .data).map (fun x => call hashed x.2 kick [.obj 3] []) = some (.ok 10) := by decide +kernel
example : ((faultAfter (env hashed) false gap zoo (.buckets 0)).bind fun x => (initOf (env hashed) zoo x.2).map fun y => call hashed y.1 meet [.obj 0, .obj 4, .obj 3, .obj 0] []) = some (.ok 23) := by decide +kernel

/-- `C84_dangling`: the variable of class 2 is 2. -/
example : goodB (Config.ind mapped) oneMethod = true ∧
    (faultAfter (env (Config.ind mapped)) false oneMethod oneMethod .map).map (fun x => (call (Config.ind mapped) x.1 trot [.vptr (.indirect 2)] [], call (Config.ind mapped) x.2 trot [.vptr (.indirect 2)] [])) =
    some (.ok 11, .ub) := by decide +kernel
example : IndirectArgs oneMethod trot.params [.vptr (.indirect 2)] := .cons (fun _ => ⟨2, 2, by decide, by unfold Program.StaticVar; decide, rfl⟩) .nil

/-- `C84_dangling_objects`: for the vector, no allocation is made for the same registrations; the map is always allocated. -/
example : (faultAfter (env (Config.ind plain)) false oneMethod oneMethod .vector).isNone = true := by decide +kernel
example : (faultAfter (env (Config.ind mapped)) false zoo zoo .map).map (fun x => (call (Config.ind mapped) x.1 meet [.obj 0, .obj 4, .obj 3, .obj 0] [], call (Config.ind mapped) x.2 meet [.obj 0, .obj 4, .obj 3, .obj 0] [])) =
    some (.ok 23, .ub) := by decide +kernel

/-- `C84_errors`: class 7 is not registered. -/
example : errOf (compile .std false (prog [cls 1 [], cls 2 [1]] [meth 0 [true] [7] []])) = some (.missingClass 7) := by decide +kernel

end OpenMethod.Props

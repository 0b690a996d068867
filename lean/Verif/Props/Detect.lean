import Verif.Proof.Detect
import Verif.Props.Vptr

/-!
# C99: which corrections of `vptr_vector` make C28 hold

`SufficesD`: C28 under the conditions of `C28_partial`, but for all policies; the registry can have been initialized before, with
other classes.
-/

namespace OpenMethod.Props

open Spec Examples

/-- With runtime_checks, calls with objects of unregistered classes report the first of them, whatever the vptr policy and the
history of the registry; as in C28, unless a slot conflict (C06) or a misplaced parameter (C05) makes the call fail before. -/
def SufficesD (f : FixesD) : Prop :=
  ∀ (E : Env) (p : Program) (s s' : RegState) (rep : Report) (m : MethodInfo) (args : List Arg) (xs : List Cls) (t : TypeId) (ts : List TypeId) (types : List TypeId),
    p.Good E.cfg → ReachedD f E s → InitializesD f E p s s' rep → E.cfg.checks = true → m ∈ p.methods → Mixed p m.params args xs (t :: ts) →
    (E.cfg.vector = true → noType ∉ t :: ts) → Callable p m xs → ArgsSafe p (classesOf p m.vp) xs → (m.vp.length = 1 ∨ Contiguous m.params) →
    callD f E.cfg s' m args types = .err (.missingClass t)

/-- Without corrections, this is the library. -/
theorem C99_library (E : Env) (p : Program) (s : RegState) (m : MethodInfo) (args : List Arg) (types : List TypeId) :
    initRegistryD ⟨false, false⟩ E p s = initRegistry E p s ∧ callD ⟨false, false⟩ E.cfg s m args types = call E.cfg s m args types := by
  have h1 : ∀ cfg s t, dynamicVptrD ⟨false, false⟩ cfg s t = dynamicVptr cfg s t := by
    intro cfg s t
    unfold dynamicVptrD dynamicVptr
    simp only [Bool.false_and, Bool.false_eq_true, if_false]
    rfl
  have h2 : argPtrD ⟨false, false⟩ E.cfg s = argPtr E.cfg s := by
    funext a
    cases a with
    | obj t => simp only [argPtrD, argPtr, acquireVptrD, acquireVptr, h1]
    | vptr b => rfl
  refine ⟨rfl, ?_⟩
  unfold callD call
  rw [h2]

/-- **C99**, sufficiency: from any previous state. -/
theorem C99_detects {f : FixesD} (hnull : f.null = true) (hclear : f.clear = true) {E : Env} {p : Program} {s s' : RegState} {rep : Report} {m : MethodInfo}
    (hp : p.Good E.cfg) (h : InitializesD f E p s s' rep) (hk : E.cfg.checks = true) (hm : m ∈ p.methods) {args : List Arg} {xs : List Cls}
    {t : TypeId} {ts : List TypeId} (hargs : Mixed p m.params args xs (t :: ts)) (hn : E.cfg.vector = true → noType ∉ t :: ts)
    (hcall : Callable p m xs) (ho : ArgsSafe p (classesOf p m.vp) xs) (hc : m.vp.length = 1 ∨ Contiguous m.params) (types : List TypeId) :
    callD f E.cfg s' m args types = .err (.missingClass t) := by
  obtain ⟨c, img, R, _⟩ := init_ready hp (initializesD_iff.1 h)
  have R : Ready E p rep s.fresh c img s' := R
  obtain ⟨as, h1, h2⟩ := replD R h hnull hclear hk hargs hn
  obtain ⟨c', bases, hcomp, C, hw, I, _, hL⟩ := install_ok hp.valid R.install
  have hM := C.methOk m hm
  obtain ⟨i, hi⟩ := List.getElem?_of_mem hm
  obtain ⟨_, _, _, g, ss, _, _, _, _, hss, hres⟩ := resolve_ok C I hp.valid.ids hi h1 (callable_argsOk C.lat hM hcall)
    (slotSafe_of_argsSafe hp.valid.acyclic C.lat C.meths hL ho) hc
  rw [R.callD hm]
  unfold callMethod
  rw [hss, Res.ofOption_some, Res.ok_bind, resolve_repl (hp.valid.wf m hm) hc h2 hres]
  rfl

/-- **C99**, for objects: after `initialize`, a v-table pointer is acquired if, and only if, the class is registered; otherwise
`missing_class` is reported.  Also for the construction of `virtual_ptr`s. -/
theorem C99_acquire {f : FixesD} (hnull : f.null = true) (hclear : f.clear = true) {E : Env} {p : Program} {s s' : RegState} {rep : Report}
    (hp : p.Good E.cfg) (h : InitializesD f E p s s' rep) (hk : E.cfg.checks = true) (t : TypeId) (hn : E.cfg.vector = true → t ≠ noType) :
    (acquireVptrD f E.cfg s' t = .err (.missingClass t) ↔ ¬ p.HasId t) ∧
    (p.HasId t → ∃ r, acquireVptrD f E.cfg s' t = .ok r ∧ ∃ v q, p.StaticVar (p.rtti.ti t) v ∧ s'.svptr v = some q ∧ r.read s'.svptr = some q) := by
  obtain ⟨c, img, R, _⟩ := init_ready hp (initializesD_iff.1 h)
  have R : Ready E p rep s.fresh c img s' := R
  have hacq : acquireVptrD f E.cfg s' t = dynamicVptrD f E.cfg s'.vptr t := by
    unfold acquireVptrD
    rw [R.require, Res.ok_bind]
  rw [hacq]
  refine ⟨⟨fun e ht => ?_, fun ht => missingD R h hnull hclear hk ht hn⟩, fun ht => ?_⟩
  · rw [R.dynamicD ht] at e; cases e
  · have hx := HasId.order R ht
    have hq := R.svptr _ hx
    refine ⟨_, R.dynamicD ht, _, _, lattice_svptr R.lattice _ hx, hq, ?_⟩
    cases E.cfg.indirect <;> simp [VRef.read, hq]

/-- The corrections change nothing for objects of registered classes: the corrected registry, initialized from the same state,
gives the same v-table. -/
theorem C99_registered {f : FixesD} {E : Env} {p : Program} {s s1 s2 : RegState} {rep1 rep2 : Report} (hp : p.Good E.cfg)
    (h1 : InitializesD f E p s s1 rep1) (h2 : Initializes E p s s2 rep2) {t : TypeId} (ht : p.HasId t) :
    rep1 = rep2 ∧ argPtrD f E.cfg s1 (.obj t) = argPtr E.cfg s2 (.obj t) := by
  obtain ⟨c, img, R, _⟩ := init_ready hp (initializesD_iff.1 h1)
  obtain ⟨c', img', R', _⟩ := init_ready hp h2
  have R : Ready E p rep1 s.fresh c img s1 := R
  have e := R.install.symm.trans R'.install
  simp only [Res.ok.injEq, Prod.mk.injEq] at e
  refine ⟨e.1, ?_⟩
  rw [R.argPtrD ht, R.argPtr ht, R'.argPtr ht, e.2]

namespace DetectExample

/-- A call after `initialize` for each program. -/
def callAfterD (f : FixesD) (E : Env) : List Program → RegState → MethodInfo → List Arg → Option (Res Nat)
  | [], s, m, args => some (callD f E.cfg s m args [])
  | p :: ps, s, m, args =>
    match initRegistryD f E p s with
    | .ok { state := s', result := .ok _ } => callAfterD f E ps s' m args
    | _ => none

theorem callAfterD_eq {f : FixesD} {E : Env} {m : MethodInfo} {args : List Arg} {r : Res Nat} {q : Program} : ∀ (ps : List Program) (s : RegState),
    ReachedD f E s → callAfterD f E (ps ++ [q]) s m args = some r →
    ∃ s1 s2 rep, ReachedD f E s1 ∧ InitializesD f E q s1 s2 rep ∧ callD f E.cfg s2 m args [] = r
  | [], s, hs, h => by
    simp only [List.nil_append, callAfterD] at h
    split at h
    · rename_i s' rep hi
      exact ⟨s, s', rep, hs, hi, Option.some.inj h⟩
    · cases h
  | p :: ps, s, hs, h => by
    simp only [List.cons_append, callAfterD] at h
    split at h
    · rename_i s' rep hi
      exact callAfterD_eq ps s' (.init hs hi) h
    · cases h

/-- As `gap`, with class 2, before it is unloaded. -/
def loaded : Program := prog [cls 1 [], cls 2 [1], cls 3 [1]] [kick]

end DetectExample

open DetectExample

/-- **C99.**  Both corrections are needed, and together they are enough. -/
theorem C99 (f : FixesD) : SufficesD f ↔ f.null = true ∧ f.clear = true := by
  constructor
  · intro h
    have safe : ArgSafe gap 1 1 := by
      rintro c ⟨m, hm, hc⟩ -
      have : ∀ m ∈ gap.methods, ∀ c ∈ classesOf gap m.vp, c = 1 := by decide +kernel
      rw [this m hm c hc]
      exact ⟨.inl .refl, .inl .refl⟩
    have key : ∀ ps, callAfterD f (env plain) (ps ++ [gap]) .init kick [.obj 2] = some .ub → False := by
      intro ps hc
      obtain ⟨s1, s2, rep, hr, hi, hc⟩ := callAfterD_eq ps .init .start hc
      have := h (env plain) gap s1 s2 rep kick [.obj 2] [1] 2 [] [] (good (by decide +kernel)) hr hi rfl (by decide)
        (.unregistered 2 1 (by unfold Program.HasId; decide) .nil) (fun _ => by decide) (Check.callable (by decide +kernel) (by decide +kernel))
        (.cons safe .nil) (.inl rfl)
      rw [hc] at this
      cases this
    obtain ⟨null, clear⟩ := f
    cases null with
    | false =>
      cases clear with
      | false => exact (key [] (by decide +kernel)).elim
      | true => exact (key [] (by decide +kernel)).elim
    | true =>
      cases clear with
      | false => exact (key [loaded] (by decide +kernel)).elim
      | true => exact ⟨rfl, rfl⟩
  · rintro ⟨hnull, hclear⟩ E p s s' rep m args xs t ts types hp _ h hk hm hargs hn hcall ho hc
    exact C99_detects hnull hclear hp h hk hm hargs hn hcall ho hc types

/-! ## The hypotheses are met -/

example : callAfterD ⟨true, true⟩ (env plain) [loaded, gap] .init kick [.obj 2] = some (.err (.missingClass 2)) := by decide +kernel
example : callAfterD ⟨true, true⟩ (env (Config.ind plain)) [loaded, gap] .init kick [.obj 2] = some (.err (.missingClass 2)) := by decide +kernel
example : callAfterD ⟨true, true⟩ (env plain) [loaded, gap] .init kick [.obj 3] = some (.ok 10) := by decide +kernel
example : callAfterD ⟨true, true⟩ (env plain) [gap, loaded] .init kick [.obj 2] = some (.ok 10) := by decide +kernel

end OpenMethod.Props

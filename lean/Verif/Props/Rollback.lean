import Verif.Proof.Rollback
import Verif.Props.Registry

/-!
# C100: which corrections make a failed `initialize` harmless

`SufficesR` is C32, for the corrected `initialize`: calls that worked before a failed `initialize` still work, and dispatch as
before.
-/

namespace OpenMethod.Props

open Spec Examples

def SufficesR (f : FixesR) : Prop :=
  ∀ (E : Env) (p : Program) (s s' : RegState) (e : Err) (m : MethodInfo) (args : List Arg) (types : List TypeId) (n : Nat),
    ReachedR f E.cfg s → p.Good E.cfg → initRegistryR f E p s = .ok { state := s', result := .error e } →
    call E.cfg s m args types = .ok n → call E.cfg s' m args types = .ok n

/-- Without corrections, this is the library. -/
theorem C100_library (E : Env) (p : Program) (s : RegState) : initRegistryR ⟨false, false⟩ E p s = initRegistry E p s := by
  cases hl : initRegistry E p s with
  | ub => exact initR_ub.2 hl
  | err e => exact absurd hl (initRegistry_no_err e)
  | ok o =>
    obtain ⟨s', r⟩ := o
    cases r with
    | ok rep => exact initR_ok.2 hl
    | error e => rw [initR_error (f := ⟨false, false⟩) hl]; rfl

/-- Whatever the corrections, `initialize` succeeds in the same cases, with the same state and report, and fails in the same cases,
with the same error. -/
theorem C100_same (f : FixesR) (E : Env) (p : Program) (s : RegState) :
    (∀ s' rep, initRegistryR f E p s = .ok { state := s', result := .ok rep } ↔ Initializes E p s s' rep) ∧
    (∀ e, (∃ s', initRegistryR f E p s = .ok { state := s', result := .error e }) ↔ ∃ s', FailsWith E p s s' e) ∧
    (initRegistryR f E p s = .ub ↔ initRegistry E p s = .ub) :=
  ⟨fun _ _ => initR_ok, fun _ => ⟨fun ⟨_, h⟩ => initR_cases h, fun ⟨_, h⟩ => ⟨_, initR_error h⟩⟩, initR_ub⟩

/-- With both corrections, a failed `initialize` leaves the whole registry as it was: from any state, for any registrations. -/
theorem C100_unchanged {f : FixesR} (hearly : f.early = true) (hkeep : f.keep = true) {E : Env} {p : Program} {s s' : RegState} {e : Err}
    (h : initRegistryR f E p s = .ok { state := s', result := .error e }) : s' = s := by
  obtain ⟨s0, h0⟩ := initR_cases h
  rw [initR_error (f := f) h0] at h
  simp only [hearly, hkeep, if_true, Res.ok.injEq, InitOut.mk.injEq] at h
  exact h.1.symm

namespace RollbackExample

/-- The failing registration of `C32_refuted`: class 1 with 17 ids. -/
theorem many_compiled : ∃ c, compile .std false (manyIds 17) = .ok c ∧ c.lattice.order = [1] ∧
    ((ctxClasses c.lattice).flatMap (·.ids)).length = 17 ∧ c.lattice.staticVptr 1 = 1 := by
  have hp : (manyIds 17).Good (Config.ind hashed) := good (by decide +kernel)
  have hok : isOk (compile .std false (manyIds 17)) = true := by decide +kernel
  obtain ⟨c, hcomp⟩ := isOk_eq hok
  have C := compile_ok hp.valid.acyclic hp.valid.wf hcomp
  have hone : ∀ x, x ∈ c.lattice.order ↔ x = 1 := by
    intro x
    rw [C.lat.mem_order]
    constructor
    · rintro ⟨cr, hcr, rfl⟩
      have : ∀ cr ∈ (manyIds 17).classes, (manyIds 17).rtti.ti cr.type = 1 := by decide
      exact this cr hcr
    · rintro rfl
      exact ⟨⟨0, [0], false, 1⟩, by decide, by decide⟩
  have hord : c.lattice.order = [1] := by
    have hnd := C.lat.nodup_order
    cases ho : c.lattice.order with
    | nil => have := (hone 1).2 rfl; rw [ho] at this; simp at this
    | cons a l =>
      rw [ho] at hnd hone
      obtain rfl := (hone a).1 (by simp)
      cases l with
      | nil => rfl
      | cons b l =>
        obtain rfl := (hone b).1 (by simp)
        simp at hnd
  have hids : ((ctxClasses c.lattice).flatMap (·.ids)).length = 17 := by
    have hnd := (ctxOk (cfg := Config.ind hashed) C.lat hp.ids).nodup
    have : ((ctxClasses c.lattice).flatMap (·.ids)).Perm ((manyIds 17).classes.map (·.type)) := by
      rw [List.perm_ext_iff_of_nodup hnd (by decide)]
      intro t
      rw [mem_ctxIds C.lat]
      simp [Program.HasId]
    rw [this.length_eq]; rfl
  refine ⟨c, hcomp, hord, hids, ?_⟩
  obtain ⟨cr, hcr, _, e⟩ := lattice_svptr_mem (compile_lattice hcomp) (x := 1) (by rw [hord]; simp)
  rw [← e]
  have : ∀ cr ∈ (manyIds 17).classes, cr.staticVptr = 1 := by decide
  exact this cr hcr

/-- A call whose argument cannot be evaluated, or whose v-table cannot be read. -/
theorem kick_fails {cfg : Config} {s : RegState} {a : Arg} {n : Nat} (h : ∀ q, argPtr cfg s a = .ok q → ∀ k, readWord s.gen s.data (q.add k) = .ub) :
    call cfg s kick [a] [] ≠ .ok n := by
  intro hc
  unfold call at hc
  rw [Res.bind_eq_ok] at hc
  obtain ⟨_, _, hc⟩ := hc
  rw [Res.bind_eq_ok] at hc
  obtain ⟨ss, _, hc⟩ := hc
  rw [Res.bind_eq_ok] at hc
  obtain ⟨f, hr, _⟩ := hc
  have h1 : kick.arity = 1 := rfl
  have h2 : kick.params = [true] := rfl
  unfold resolve at hr
  rw [if_pos h1, h2, List.map_cons] at hr
  simp only [resolveUni] at hr
  rw [Res.bind_eq_ok] at hr
  obtain ⟨w, hw, _⟩ := hr
  rw [Res.bind_eq_ok] at hw
  obtain ⟨q, hq, hw⟩ := hw
  rw [Res.bind_eq_ok] at hw
  obtain ⟨k, _, hw⟩ := hw
  rw [h q hq k] at hw
  cases hw

end RollbackExample

open RollbackExample

/-- **C100.**  Both corrections are needed, and together they are enough. -/
theorem C100 (f : FixesR) : SufficesR f ↔ f.early = true ∧ f.keep = true := by
  constructor
  · intro h
    obtain ⟨c, hcomp, hord, hids, hvar⟩ := many_compiled
    have hsize : c.lattice.order.length < 100000000 := by rw [hord]; decide
    have hmany : 2 ^ (initialM c.lattice.order.length + 3) < ((ctxClasses c.lattice).flatMap (·.ids)).length := by rw [hord, hids]; decide
    constructor
    · -- a `virtual_ptr` to the `static_vptr`, which dangles
      cases hearly : f.early with
      | true => rfl
      | false =>
        exfalso
        obtain ⟨s, rep, hi, hc⟩ := callAfter_eq (E := env (Config.ind hashed)) (p := manyIds 1) (m := kick) (args := [.vptr (.indirect 1)]) (r := .ok 10) (by decide +kernel)
        have hp : (manyIds 17).Good (Config.ind hashed) := good (by decide +kernel)
        obtain ⟨s', a, b, hf, hsv⟩ := init_search_fails (s := s) hp (E := env (Config.ind hashed)) hcomp rfl rfl hsize hmany
        obtain ⟨q, hq, hgen⟩ := hsv 1 (by rw [hord]; simp)
        rw [hvar] at hq
        have hR := initR_error (f := f) hf
        simp only [hearly, Bool.false_eq_true, if_false] at hR
        refine kick_fails ?_ (h (env (Config.ind hashed)) (manyIds 17) s _ _ kick [.vptr (.indirect 1)] [] 10 (.init .start rfl (initR_ok.2 hi)) hp hR hc)
        intro q' hq' k
        obtain ⟨_, hg, _⟩ := fails_keeps hf
        simp only [argPtr, unboxVptr, hq, Res.ofOption_some, Res.ok.injEq] at hq'
        subst hq'
        dsimp only
        unfold readWord
        rw [if_neg]
        rintro ⟨h1, _⟩
        have h2 : q.gen = s'.gen := h1
        rw [hg, hgen, (init_storage hi).1, (init_storage hi).2.1] at h2
        omega
    · -- an object, for which the new factors give another index
      cases hkeep : f.keep with
      | true => rfl
      | false =>
        exfalso
        let E := env (Config.fast hashed)
        have hstart : (inits E [prog [cls 1 []] [kick]] .init).any (fun s => decide (call E.cfg s kick [.obj 1] [] = .ok 10 ∧ s.vptr.vec.length = 1)) = true := by
          decide +kernel
        cases hs : inits E [prog [cls 1 []] [kick]] .init with
        | none => rw [hs] at hstart; cases hstart
        | some s =>
          rw [hs] at hstart
          obtain ⟨hc, hvec⟩ := of_decide_eq_true hstart
          unfold inits at hs
          rw [Option.bind_eq_some_iff] at hs
          obtain ⟨⟨s0, rep⟩, h1, h2⟩ := hs
          simp only [inits, Option.some.injEq] at h2
          subst h2
          have hi := initOf_eq h1
          have hp : (manyIds 17).Good (Config.fast hashed) := good (by decide +kernel)
          obtain ⟨s', a, b, hf, _⟩ := init_search_fails (s := s0) hp (E := E) hcomp rfl rfl hsize hmany
          obtain ⟨e1, e2, e3⟩ := init_search_hash (E := E) (p := manyIds 17) (k := 0x2000000000000000) rfl hp hcomp rfl rfl hf
          have hR := initR_error (f := f) hf
          simp only [hkeep, Bool.false_eq_true, if_false] at hR
          refine kick_fails ?_ (h E (manyIds 17) s0 _ _ kick [.obj 1] [] 10 (.init .start rfl (initR_ok.2 hi)) hp hR hc)
          intro q hq k
          exfalso
          unfold argPtr at hq
          dsimp only at hq
          rw [Res.bind_eq_ok] at hq
          obtain ⟨r, hr, _⟩ := hq
          unfold acquireVptr at hr
          rw [Res.bind_eq_ok] at hr
          obtain ⟨_, _, hr⟩ := hr
          have hix : hashIndex s'.vptr.hash.mult s'.vptr.hash.shift 1#64 = 2 := by
            rw [e2, e3, hord]; decide
          have hnone : s'.vptr.vec[2]? = none := by
            rw [e1, List.getElem?_eq_none_iff, hvec]; decide
          have : dynamicVptr (Config.fast hashed) s'.vptr 1 = .ub := by
            simp [dynamicVptr, Config.fast, hashed, vecIndex, hash, hix, hnone]
          exact absurd (this.symm.trans hr) (by simp)
  · rintro ⟨hearly, hkeep⟩ E p s s' e m args types n _ _ h hc
    rw [C100_unchanged hearly hkeep h]
    exact hc

/-! ## The hypotheses are met: the corrected `initialize` fails, and a call still works -/

example (f : FixesR) (hearly : f.early = true) (hkeep : f.keep = true) : ∃ s s' e, ReachedR f (Config.ind hashed) s ∧
    initRegistryR f (env (Config.ind hashed)) (manyIds 17) s = .ok { state := s', result := .error e } ∧
    call (Config.ind hashed) s' kick [.vptr (.indirect 1)] [] = .ok 10 := by
  obtain ⟨s, rep, hi, hc⟩ := callAfter_eq (E := env (Config.ind hashed)) (p := manyIds 1) (m := kick) (args := [.vptr (.indirect 1)]) (r := .ok 10) (by decide +kernel)
  have hp : (manyIds 17).Good (Config.ind hashed) := good (by decide +kernel)
  obtain ⟨c, hcomp, hord, hids, hvar⟩ := many_compiled
  obtain ⟨s', a, b, hf, _⟩ := init_search_fails (s := s) hp (E := env (Config.ind hashed)) hcomp rfl rfl (by rw [hord]; decide) (by rw [hord, hids]; decide)
  have hR := initR_error (f := f) hf
  refine ⟨s, _, _, .init .start rfl (initR_ok.2 hi), hR, ?_⟩
  rw [C100_unchanged hearly hkeep hR]
  exact hc

end OpenMethod.Props

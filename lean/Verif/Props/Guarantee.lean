import Verif.Model.Guarantee
import Verif.Props.Rollback
import Verif.Props.Memory

/-!
# C101: which corrections give `initialize` the strong exception guarantee

`SufficesM` is C84, for the corrected `initialize`: calls that worked before an allocation failed in `initialize` still work, and
dispatch as before.
-/

namespace OpenMethod.Props

open Spec Examples

def SufficesM (fx : FixesM) : Prop :=
  ∀ (E : Env) (tr : Bool) (p : Program) (s s' : RegState) (f : Fault) (m : MethodInfo) (args : List Arg) (types : List TypeId) (n : Nat),
    ReachedM fx E.cfg s → p.Good E.cfg → initFaultM fx E tr p s f = .ok (some s') → call E.cfg s m args types = .ok n →
    call E.cfg s' m args types = .ok n

/-- Equal, except for the identities that were given to released dispatch data. -/
def SameRegistry (s s' : RegState) : Prop := s' = { s with fresh := s'.fresh }

theorem SameRegistry.call {s s' : RegState} (h : SameRegistry s s') (cfg : Config) (m : MethodInfo) (args : List Arg) (types : List TypeId) :
    call cfg s' m args types = call cfg s m args types := by
  have ha : argPtr cfg s' = argPtr cfg s := by
    funext a
    rw [h]
    cases a with
    | obj t => rfl
    | vptr b => cases b <;> rfl
  unfold OpenMethod.call
  rw [ha, h]
  rfl

/-- Without corrections, this is the library. -/
theorem C101_library (E : Env) (tr : Bool) (p : Program) (s : RegState) (f : Fault) :
    initFaultM ⟨⟨false, false⟩, false⟩ E tr p s f = initFault E tr p s f := by
  cases f <;> rfl

/-- Whatever the corrections, the same allocations are made. -/
theorem C101_same (fx : FixesM) (E : Env) (tr : Bool) (p : Program) (s : RegState) (f : Fault) :
    ((∃ s', initFaultM fx E tr p s f = .ok (some s')) ↔ ∃ s', initFault E tr p s f = .ok (some s')) ∧
    (initFaultM fx E tr p s f = .ub ↔ initFault E tr p s f = .ub) := by
  unfold initFaultM initFault
  cases f with
  | compile => simp
  | data => cases compile E.platform E.n2216 p <;> simp
  | trace n =>
    cases compile E.platform E.n2216 p with
    | ub => simp
    | err e => simp
    | ok c => dsimp only; cases writeGlobal c s.fresh <;> cases tr <;> simp
  | _ =>
    cases compile E.platform E.n2216 p with
    | ub => simp
    | err e => simp
    | ok c =>
      dsimp only
      cases writeGlobal c s.fresh with
      | ub => simp
      | err e => simp
      | ok img =>
        dsimp only
        generalize vptrFault E.cfg E.rnd (ctxClasses c.lattice) (applyImage c.lattice img s).vptr _ = r
        cases r with
        | ub => simp
        | err e => simp
        | ok v => cases v <;> simp

/-- With the three corrections, a failed allocation leaves the whole registry as it was: from any state, for any registrations. -/
theorem C101_unchanged {fx : FixesM} (he : fx.early = true) (hk : fx.keep = true) (hq : fx.quiet = true) {E : Env} {tr : Bool} {p : Program}
    {s s' : RegState} {f : Fault} (h : initFaultM fx E tr p s f = .ok (some s')) : SameRegistry s s' := by
  unfold initFaultM at h
  split at h
  · rw [← Option.some.inj (Res.ok.inj h)]; rfl
  · split at h
    · cases h
    · cases h
    · split at h
      · have h := Res.ok.inj h
        split at h
        · cases h
        · rw [← Option.some.inj h]; rfl
      · split at h
        · cases h
        · cases h
        · split at h
          · have h := Res.ok.inj h
            rw [if_pos hq] at h
            split at h
            · rw [← Option.some.inj h]; rfl
            · cases h
          · dsimp only at h
            rw [Res.bind_eq_ok] at h
            obtain ⟨v, _, h⟩ := h
            cases v with
            | none => cases h
            | some v =>
              simp only [he, hk, if_true, Option.map_some] at h
              rw [← Option.some.inj (Res.ok.inj h)]
              rfl

/-- What each correction does, whatever the others: the vptr policy keeps its state; the variables of classes, methods and overriders keep
theirs when the policy cannot allocate; nothing changes when the trace cannot be written. -/
theorem C101_each {fx : FixesM} {E : Env} {tr : Bool} {p : Program} {s s' : RegState} {f : Fault} (h : initFaultM fx E tr p s f = .ok (some s')) :
    (fx.keep = true → s'.vptr = s.vptr) ∧ (fx.early = true → f.InVptr → s'.svptr = s.svptr ∧ s'.ss = s.ss ∧ s'.next = s.next) ∧
    (fx.quiet = true → ∀ n, f = .trace n → SameRegistry s s') := by
  unfold initFaultM at h
  split at h
  · rw [← Option.some.inj (Res.ok.inj h)]; exact ⟨fun _ => rfl, fun _ _ => ⟨rfl, rfl, rfl⟩, fun _ _ _ => rfl⟩
  · split at h
    · cases h
    · cases h
    · split at h
      · have h := Res.ok.inj h
        split at h
        · cases h
        · rw [← Option.some.inj h]; exact ⟨fun _ => rfl, fun _ _ => ⟨rfl, rfl, rfl⟩, fun _ _ _ => rfl⟩
      · split at h
        · cases h
        · cases h
        · split at h
          · have h := Res.ok.inj h
            split at h
            · rw [← Option.some.inj h]
              refine ⟨fun _ => (stores_keep _ s).2.1, fun _ hf => by simp [Fault.InVptr] at hf, fun hq _ _ => ?_⟩
              rw [if_pos hq]; rfl
            · cases h
          · rename_i hnt
            dsimp only at h
            rw [Res.bind_eq_ok] at h
            obtain ⟨v, _, h⟩ := h
            cases v with
            | none => cases h
            | some v =>
              have h := Option.some.inj (Res.ok.inj h)
              refine ⟨fun hk => ?_, fun he _ => ?_, fun _ n e => absurd e (hnt n)⟩
              · rw [← h]; simp [hk]
              · rw [← h]; simp [he]

/-- The strong guarantee, for errors (C100) and failed allocations: when the corrected `initialize` is not successful, calls and
constructions of `virtual_ptr`s are as before. -/
theorem C101_strong {fx : FixesM} (he : fx.early = true) (hk : fx.keep = true) (hq : fx.quiet = true) {E : Env} {p : Program} {s s' : RegState}
    (h : (∃ e, initRegistryR fx.toFixesR E p s = .ok { state := s', result := .error e }) ∨ ∃ tr f, initFaultM fx E tr p s f = .ok (some s')) :
    (∀ m args types, call E.cfg s' m args types = call E.cfg s m args types) ∧ ∀ t, makeVirtualPtr E.cfg s' t = makeVirtualPtr E.cfg s t := by
  have hs : SameRegistry s s' := by
    rcases h with ⟨e, h⟩ | ⟨tr, f, h⟩
    · rw [C100_unchanged he hk h]; rfl
    · exact C101_unchanged he hk hq h
  refine ⟨hs.call E.cfg, fun t => ?_⟩
  rw [hs]
  rfl

namespace GuaranteeExample

/-- `initialize` for registrations `p1`, then for `p2`, when memory is exhausted: the outcomes of a call before and after. -/
def faultAfterM (fx : FixesM) (E : Env) (tr : Bool) (p1 p2 : Program) (f : Fault) (m : MethodInfo) (args : List Arg) : Option (Res Nat × Res Nat) :=
  (initOf E p1 .init).bind fun x => match initFaultM fx E tr p2 x.1 f with
    | .ok (some s') => some (call E.cfg x.1 m args [], call E.cfg s' m args [])
    | _ => none

theorem not_suffices {fx : FixesM} {E : Env} {tr : Bool} {p1 p2 : Program} {f : Fault} {m : MethodInfo} {args : List Arg} {n : Nat} {r : Res Nat}
    (hp : goodB E.cfg p2 = true) (h : faultAfterM fx E tr p1 p2 f m args = some (.ok n, r)) (hr : r ≠ .ok n) : ¬ SufficesM fx := by
  intro hS
  unfold faultAfterM at h
  rw [Option.bind_eq_some_iff] at h
  obtain ⟨⟨s, rep⟩, hi, h⟩ := h
  dsimp only at h
  split at h
  · rename_i s' h2
    simp only [Option.some.injEq, Prod.mk.injEq] at h
    exact hr (h.2.symm.trans (hS E tr p2 s s' f m args [] n (.init .start rfl (initR_ok.2 (initOf_eq hi))) (good hp) h2 h.1))
  · cases h

end GuaranteeExample

open GuaranteeExample

/-- **C101.**  The three corrections are needed, and together they are enough. -/
theorem C101 (fx : FixesM) : SufficesM fx ↔ fx.early = true ∧ fx.keep = true ∧ fx.quiet = true := by
  constructor
  · intro h
    obtain ⟨⟨early, keep⟩, quiet⟩ := fx
    refine ⟨?_, ?_, ?_⟩
    · -- the slot of the method is that of the new tables
      cases early with
      | true => rfl
      | false =>
        exact absurd h (not_suffices (E := env mapped) (tr := false) (p1 := oneMethod) (p2 := twoMethods) (f := .map) (m := trot) (args := [.obj 1]) (n := 10) (r := .ok 11)
          (by decide +kernel) (by clear h; revert keep quiet; decide +kernel) (by decide))
    · -- the hash factors are not those for which the vector was filled
      cases keep with
      | true => rfl
      | false =>
        exact absurd h (not_suffices (E := env hashed) (tr := false) (p1 := gap) (p2 := zoo) (f := .buckets 0) (m := kick) (args := [.obj 3]) (n := 10) (r := .err (.missingClass 3))
          (by decide +kernel) (by clear h; revert early quiet; decide +kernel) (by decide))
    · -- some of the slots are those of the new tables
      cases quiet with
      | true => rfl
      | false =>
        exact absurd h (not_suffices (E := env mapped) (tr := true) (p1 := oneMethod) (p2 := twoMethods) (f := .trace 2) (m := trot) (args := [.obj 1]) (n := 10) (r := .ok 11)
          (by decide +kernel) (by clear h; revert early keep; decide +kernel) (by decide))
  · rintro ⟨he, hk, hq⟩ E tr p s s' f m args types n _ _ h hc
    rw [(C101_unchanged he hk hq h).call]
    exact hc

/-! ## The hypotheses are met: an allocation fails in the corrected `initialize`, and the calls still work -/

example : faultAfterM ⟨⟨true, true⟩, true⟩ (env mapped) false oneMethod twoMethods .map trot [.obj 1] = some (.ok 10, .ok 10) ∧
    faultAfterM ⟨⟨true, true⟩, true⟩ (env hashed) false gap zoo (.buckets 0) kick [.obj 3] = some (.ok 10, .ok 10) ∧
    faultAfterM ⟨⟨true, true⟩, true⟩ (env hashed) false gap zoo .vector kick [.obj 3] = some (.ok 10, .ok 10) ∧
    faultAfterM ⟨⟨true, true⟩, true⟩ (env mapped) true oneMethod twoMethods (.trace 2) trot [.obj 1] = some (.ok 10, .ok 10) := by decide +kernel

end OpenMethod.Props

import Verif.Examples.Programs
import Verif.SpecRegistry

/-! # Concrete registries -/

namespace OpenMethod.Examples

open Spec

/-- A registry on a standard platform. With these random values, ids up to 7 are hashed to themselves when there are 4 to 6
classes. -/
def env (cfg : Config) : Env := { cfg := cfg, platform := .std, n2216 := false, rnd := fun _ => 0x2000000000000000 }

/-- `default_registry` with runtime checks: `vptr_vector` and `fast_perfect_hash`. -/
def hashed : Config := { checks := true, indirect := false, vector := true, typeHash := true }

/-- `vptr_vector` only. -/
def plain : Config := { checks := true, indirect := false, vector := true, typeHash := false }

/-- `vptr_map`. -/
def mapped : Config := { checks := true, indirect := false, vector := false, typeHash := false }

/-- With `indirect_vptr`. -/
def Config.ind (cfg : Config) : Config := { cfg with indirect := true }

/-- Without `runtime_checks`. -/
def Config.fast (cfg : Config) : Config := { cfg with checks := false }

def goodB (cfg : Config) (p : Program) : Bool :=
  Check.validB p && (p.classes.all fun a => p.classes.all fun b => !(a.staticVptr == b.staticVptr) || p.rtti.ti a.type == p.rtti.ti b.type) &&
    (!cfg.vector || p.classes.all fun cr => cr.type != noType)

theorem good {cfg : Config} {p : Program} (h : goodB cfg p = true) : p.Good cfg := by
  unfold goodB at h
  simp only [Bool.and_eq_true, List.all_eq_true] at h
  refine ⟨Check.valid h.1.1, ?_, ?_⟩
  · intro a ha b hb e
    have := h.1.2 a ha b hb
    simpa [e] using this
  · rintro hv ⟨cr, hcr, e⟩
    have := h.2
    simp only [hv, Bool.not_true, Bool.false_or, List.all_eq_true] at this
    simpa [e] using this cr hcr

/-- The state after `initialize`, if it is successful. -/
def initOf (E : Env) (p : Program) (s : RegState) : Option (RegState × Report) :=
  match initRegistry E p s with
  | .ok ⟨s', .ok rep⟩ => some (s', rep)
  | _ => none

theorem initOf_eq {E : Env} {p : Program} {s s' : RegState} {rep : Report} (h : initOf E p s = some (s', rep)) : Initializes E p s s' rep := by
  unfold initOf at h
  split at h
  · next s'' rep' he =>
    simp only [Option.some.injEq, Prod.mk.injEq] at h
    obtain ⟨rfl, rfl⟩ := h
    exact he
  · cases h

/-- `initialize` is successful for all these registrations, one after the other. -/
def inits (E : Env) : List Program → RegState → Option RegState
  | [], s => some s
  | p :: ps, s => (initOf E p s).bind fun x => inits E ps x.1

/-- A call after these calls to `initialize`, since the start of the program. -/
def callAfter (E : Env) (ps : List Program) (m : MethodInfo) (args : List Arg) : Option (Res Nat) :=
  (inits E ps .init).map fun s => call E.cfg s m args []

theorem callAfter_eq {E : Env} {p : Program} {m : MethodInfo} {args : List Arg} {r : Res Nat} (h : callAfter E [p] m args = some r) :
    ∃ s rep, Initializes E p .init s rep ∧ call E.cfg s m args [] = r := by
  unfold callAfter at h
  rw [Option.map_eq_some_iff] at h
  obtain ⟨s, hs, hr⟩ := h
  unfold inits at hs
  rw [Option.bind_eq_some_iff] at hs
  obtain ⟨⟨s', rep⟩, h1, h2⟩ := hs
  simp only [inits, Option.some.injEq] at h2
  subst h2
  exact ⟨_, rep, initOf_eq h1, hr⟩

end OpenMethod.Examples

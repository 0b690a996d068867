import Verif.SpecNext

/-! # Specification: one `next` for all the calls that run an overrider -/

namespace OpenMethod

open Spec

/-- What the documented rule says about the arguments when overrider number `i` is left out. -/
def Spec.Without (p : Program) (m : MethodInfo) (xs : List Cls) (i : Nat) : Outcome → Prop :=
  Best (fun j => ApplicableAt p m xs j ∧ j ≠ i) (Dominates p m)

/-- Function `f` is right as `next` of overrider number `i`: for all arguments with which the overrider is called, `f` does what the call would do without the overrider. -/
def Spec.FitsNext (p : Program) (m : MethodInfo) (i : Nat) (f : Pf) : Prop :=
  ∀ xs, Callable p m xs → Expected p m xs (.run i) → ∃ r, Without p m xs i r ∧ ∀ types, Does m (enter f types) r

/-- All calls that run overrider number `i` would do the same thing without it. -/
def Spec.UniformAt (p : Program) (m : MethodInfo) (i : Nat) : Prop :=
  ∀ xs ys r, Callable p m xs → Callable p m ys → Expected p m xs (.run i) → Expected p m ys (.run i) → Without p m xs i r → Without p m ys i r

end OpenMethod

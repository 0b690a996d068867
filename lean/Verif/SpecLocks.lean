import Verif.Model.Locks
import Verif.SpecLoading

/-! # Specification of threads that use locks: one operation after the other -/

namespace OpenMethod

/-- Operations of several threads are executed one after the other, in any order: the results of each thread, and the registries afterwards. -/
inductive OneByOne (L : RegId → Setting) (strategy : Nat → LStrategy) (mem : RegId → Home) : (Nat → List LResult) → (RegId → Home) → Prop
  | nil : OneByOne L strategy mem (fun _ => []) mem
  | op {pasts mem' i r op o h} : OneByOne L strategy mem pasts mem' → strategy i (pasts i) = some (r, op) → op.exec (L r) (mem' r) = .ok (o, h) →
      OneByOne L strategy mem (Function.update pasts i (pasts i ++ [o])) (Function.update mem' r h)

/-- In some order, an operation has undefined behaviour. -/
def WrongOrder (L : RegId → Setting) (strategy : Nat → LStrategy) (mem : RegId → Home) : Prop :=
  ∃ pasts mem' i r op, OneByOne L strategy mem pasts mem' ∧ strategy i (pasts i) = some (r, op) ∧ op.exec (L r) (mem' r) = .ub

/-- The states that can be reached, with any interleaving. -/
inductive KInterleaves (L : RegId → Setting) (strategy : Nat → LStrategy) (K : KSys) : KSys → Prop
  | refl : KInterleaves L strategy K K
  | step {K1 K2 i} : KInterleaves L strategy K K1 → K1.step L strategy i = some K2 → KInterleaves L strategy K K2

end OpenMethod

import Verif.Model.Threads

/-! # Specification of threads: each as if it were alone -/

namespace OpenMethod

/-- An operation in one go, by the functions of the other modules: its result and the state of the registry afterwards. -/
def Op.exec (E : Env) (s : RegState) : Op → Res (OpResult × RegState)
  | .call m args types => (OpResult.of .entered (OpenMethod.call E.cfg s m args types) >>= fun o => .ok (o, s))
  | .make t => (OpResult.of .boxed (OpenMethod.makeVirtualPtr E.cfg s t) >>= fun o => .ok (o, s))
  | .hasNext m v => .ok (.bool (OpenMethod.hasNext m (s.next v)), s)
  | .next v types => (OpResult.of .entered (Res.ofOption (s.next v) >>= fun f => enter f types) >>= fun o => .ok (o, s))
  | .init p => initRegistry E p s >>= fun r => .ok (.report r.result, r.state)
  | .final => .ok (.done, finalize E s)

/-- The results of a thread that is executed alone. -/
inductive Alone (E : RegId → Env) (st : Strategy) (mem : RegId → RegState) : List OpResult → (RegId → RegState) → Prop
  | nil : Alone E st mem [] mem
  | op {past mem' r op o s} : Alone E st mem past mem' → st past = some (r, op) → op.exec (E r) (mem' r) = .ok (o, s) →
      Alone E st mem (past ++ [o]) (Function.update mem' r s)

/-- The thread, if executed alone, has undefined behaviour. -/
def Wrong (E : RegId → Env) (st : Strategy) (mem : RegId → RegState) : Prop :=
  ∃ past mem' r op, Alone E st mem past mem' ∧ st past = some (r, op) ∧ op.exec (E r) (mem' r) = .ub

/-- Operations that change the registry. -/
def Op.Writes : Op → Prop
  | .init _ | .final => True
  | _ => False

/-- A registry that is initialized or finalized by a thread is not used by another one, at the same time. -/
def Separate (strategy : Nat → Strategy) : Prop :=
  ∀ i j, i ≠ j → ∀ past r op, strategy i past = some (r, op) → op.Writes → ∀ past' op', strategy j past' ≠ some (r, op')

/-- The states that can be reached, with any interleaving. -/
inductive Interleaves (E : RegId → Env) (strategy : Nat → Strategy) (S : Sys) : Sys → Prop
  | refl : Interleaves E strategy S S
  | step {S1 S2 i} : Interleaves E strategy S S1 → S1.step E strategy i = some S2 → Interleaves E strategy S S2

end OpenMethod

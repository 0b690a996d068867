import Verif.Model.Loading
import Verif.SpecThreads

/-! # Specification of threads that load libraries: each as if it were alone -/

namespace OpenMethod

/-- The result of an operation, when the error handler is `f`. -/
def LResult.of (f : Nat) (o : OpResult) : LResult :=
  match o with
  | .error e => .reported e f
  | .report (.error e) => .reported e f
  | o => .op o

/-- An operation in one go, by the functions of the other modules. -/
def LOp.exec (L : Setting) (h : Home) : LOp → Res (LResult × Home)
  | .use op _ => op.exec L.env h.tables >>= fun x => .ok (.of h.handler x.1, { h with tables := x.2 })
  | .init => Res.ofOption (h.lists.program false L.decls L.rtti L.fuel L.now) >>= fun p =>
      (Op.init p).exec L.env h.tables >>= fun x => .ok (.of h.handler x.1, { h with tables := x.2 })
  | .final => .ok (.op .done, { h with tables := finalize L.env h.tables })
  | .register e => match h.lists.step false L.now e with
    | .ok l => .ok (.registered, { h with lists := l })
    | _ => .ub
  | .setHandler f => .ok (.previous h.handler, { h with handler := f })

/-- The results of a thread that is executed alone. -/
inductive LAlone (L : RegId → Setting) (st : LStrategy) (mem : RegId → Home) : List LResult → (RegId → Home) → Prop
  | nil : LAlone L st mem [] mem
  | op {past mem' r op o h} : LAlone L st mem past mem' → st past = some (r, op) → op.exec (L r) (mem' r) = .ok (o, h) →
      LAlone L st mem (past ++ [o]) (Function.update mem' r h)

/-- The thread, if executed alone, has undefined behaviour. -/
def LWrong (L : RegId → Setting) (st : LStrategy) (mem : RegId → Home) : Prop :=
  ∃ past mem' r op, LAlone L st mem past mem' ∧ st past = some (r, op) ∧ op.exec (L r) (mem' r) = .ub

/-- What an operation needs. -/
def LOp.uses : LOp → List LPart
  | .use _ _ => [.tables, .handler]
  | .init => [.lists, .tables, .handler]
  | .final => [.tables]
  | .register _ => [.lists]
  | .setHandler _ => [.handler]

/-- What an operation changes. -/
def LOp.alters : LOp → List LPart
  | .use _ _ => []
  | .init | .final => [.tables]
  | .register _ => [.lists]
  | .setHandler _ => [.handler]

/-- Two registries are equal in a group of variables. -/
def Home.Same (a b : Home) : LPart → Prop
  | .tables => a.tables = b.tables
  | .lists => a.lists = b.lists
  | .handler => a.handler = b.handler

/-- What a thread changes in a registry is not needed by other threads. So, in a registry: any number of threads can call methods while one loads libraries;
while a thread initializes it, others do not use it at all. -/
def LSeparate (strategy : Nat → LStrategy) : Prop :=
  ∀ i j, i ≠ j → ∀ past r op, strategy i past = some (r, op) → ∀ past' op', strategy j past' = some (r, op') → ∀ x ∈ op.alters, x ∉ op'.uses

/-- The states that can be reached, with any interleaving. -/
inductive LInterleaves (L : RegId → Setting) (strategy : Nat → LStrategy) (S : LSys) : LSys → Prop
  | refl : LInterleaves L strategy S S
  | step {S1 S2 i} : LInterleaves L strategy S S1 → S1.step L strategy i = some S2 → LInterleaves L strategy S S2

end OpenMethod

import Verif.Model.ErrorHandler

/-! # Specification of error handling -/

namespace OpenMethod

/-- The calls of error handlers. -/
def handlerCalls (log : List Event) : List (Handler × Err) :=
  log.filterMap fun
    | .called h e => some (h, e)
    | .wrote _ => none

/-- The descriptions of errors written to the output policy. -/
def written (log : List Event) : List Err :=
  log.filterMap fun
    | .called _ _ => none
    | .wrote e => some e

/-- The function installed in `default_error_handler` is the default one, and the registry has an output policy. -/
def Describes (S : Setup) (f : Option Fn) : Prop := S.policy = .default true ∧ f = some .default

instance (S : Setup) (f : Option Fn) : Decidable (Describes S f) := inferInstanceAs (Decidable (_ ∧ _))

/-- The error handler in use, if any. -/
def currentHandler (S : Setup) (f : Option Fn) : Option Handler :=
  match S.policy with
  | .none => none
  | .default _ => f.map .fn
  | .throwing | .custom => some .policy

/-- An error `e` is detected by an operation. -/
def Reports (cfg : Config) (s : RegState) : LibOp → Err → Prop
  | .init E n p, e => (1 < n ∧ e = .odrViolation) ∨ (n ≤ 1 ∧ ∃ s', initRegistry E p s = .ok { state := s', result := .error e })
  | .call m args types, e => OpenMethod.call cfg s m args types = .err e
  | .virtualPtr t, e => makeVirtualPtr cfg s t = .err e
  | .finalVirtualPtr poly st v q, e => VirtualPtr.final cfg s poly st v q = .err e
  | .final _, _ => False
  | .setHandler _, _ => False

/-- An operation has undefined behaviour. -/
def Undefined (cfg : Config) (s : RegState) : LibOp → Prop
  | .init E n p => n ≤ 1 ∧ initRegistry E p s = .ub
  | .call m args types => OpenMethod.call cfg s m args types = .ub
  | .virtualPtr t => makeVirtualPtr cfg s t = .ub
  | .finalVirtualPtr poly st v q => VirtualPtr.final cfg s poly st v q = .ub
  | .final _ => False
  | .setHandler _ => False

/-- An operation ends normally, with a value and a state of the registry. -/
def Yields (cfg : Config) (s : RegState) (f : Option Fn) : LibOp → LibVal → RegState → Prop
  | .init E n p, v, s' => n ≤ 1 ∧ ∃ r, v = .report r ∧ initRegistry E p s = .ok { state := s', result := .ok r }
  | .call m args types, v, s' => s' = s ∧ ∃ n, v = .entered n ∧ OpenMethod.call cfg s m args types = .ok n
  | .virtualPtr t, v, s' => s' = s ∧ ∃ b, v = .boxed b ∧ makeVirtualPtr cfg s t = .ok b
  | .finalVirtualPtr poly st var q, v, s' => s' = s ∧ ∃ w, v = .ptr w ∧ VirtualPtr.final cfg s poly st var q = .ok w
  | .final E, v, s' => v = .unit ∧ s' = finalize E s
  | .setHandler _, v, s' => v = .handler f ∧ s' = s

/-- An exception that the error handler throws when it is called with error `e`. -/
inductive Throws (S : Setup) (f : Option Fn) (log : List Event) (e : Err) : Exn → Prop
  | user {out n k} : S.policy = .default out → f = some (.user n) → S.user n e (log ++ [.called (.fn (.user n)) e]) = .throws k → Throws S f log e (.user k)
  /-- `std::function` itself -/
  | empty {out} : S.policy = .default out → f = none → Throws S f log e .badFunctionCall
  | library : S.policy = .throwing → Throws S f log e (.library e)
  | custom {k} : S.policy = .custom → S.custom e (log ++ [.called .policy e]) = .throws k → Throws S f log e (.user k)

/-- The error handler ends the program. -/
inductive Exits (S : Setup) (f : Option Fn) (log : List Event) (e : Err) : Prop
  | user {out n} : S.policy = .default out → f = some (.user n) → S.user n e (log ++ [.called (.fn (.user n)) e]) = .exits → Exits S f log e
  | custom : S.policy = .custom → S.custom e (log ++ [.called .policy e]) = .exits → Exits S f log e

/-- How control leaves the library after an error: never by returning. -/
def Leaves {α : Type} (S : Setup) (st : EffState) (e : Err) : Out α → Prop
  | .ret _ => False
  | .thrown x => Throws S st.handler st.log e x
  | .exited => Exits S st.handler st.log e
  | .aborted => (∀ x, ¬ Throws S st.handler st.log e x) ∧ ¬ Exits S st.handler st.log e
  | .ub => False

/-- A program that uses the library and catches exceptions: the operations, with their outcomes. -/
inductive LibRun (S : Setup) (cfg : Config) : EffState → List (LibOp × Out LibVal) → EffState → Prop
  | start (st) : LibRun S cfg st [] st
  | step {st st1 st2 l op o} : LibRun S cfg st l st1 → op.run S cfg st1 = (o, st2) → (∃ v, o = .ret v) ∨ (∃ x, o = .thrown x) → LibRun S cfg st (l ++ [(op, o)]) st2

/-- The function installed by a sequence of operations: the one most recently set. -/
def lastSet (f : Option Fn) (l : List (LibOp × Out LibVal)) : Option Fn :=
  match l.reverse.findSome? (fun x => match x.1 with | .setHandler g => some g | _ => none) with
  | some g => g
  | none => f

end OpenMethod

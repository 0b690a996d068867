import Verif.Model.Source

/-!
# Execution of programs (core.hpp 2222-2233, 2432-2450, 2568-2614, 2710-2728)

What runs after `initialize`: functions that call methods, the overriders that are entered, and what they do in turn.

The code of the user is represented by `Body`: a function of the values that it receives, with a state of any type. It can catch exceptions: the rest of the body is also given
those that a call throws. It cannot inspect the content of an error of the library (see C41). The registry does not change during the execution: no module is loaded or unloaded,
and `initialize` is not called again. Error handlers do not use the library, nor the state of the program; C43 shows that after they return, the program is aborted.
-/

namespace OpenMethod

/-- An exception, or the reason for which the program is aborted. -/
inductive Thrown where
  | user (n : Nat)
  | noOverrider
  | ambiguous
  | otherError
  deriving DecidableEq, Repr

def Err.thrown : Err → Thrown
  | .noOverrider _ _ => .noOverrider
  | .ambiguousCall _ _ => .ambiguous
  | _ => .otherError

/-- How a call ends. -/
inductive Reply where
  | value (r : Result)
  | threw (x : Thrown)
  deriving DecidableEq, Repr

/-- The code of a function: it returns or throws; reads or changes the state; uses `has_next` or `next` if it is an overrider; calls the method number `m` of the program. The arguments of
methods and of `next` are already converted to the types of the parameters of the method. -/
inductive Body (σ : Type) where
  | ret (r : Result)
  | throw (x : Thrown)
  | get (k : σ → Body σ)
  | set (x : σ) (k : Body σ)
  | hasNext (k : Bool → Body σ)
  | next (args : List Passed) (k : Reply → Body σ)
  | call (m : Nat) (args : List Passed) (k : Reply → Body σ)

/-- How a program ends. -/
inductive Ended (σ : Type) where
  | done (s : σ) (r : Reply)
  | aborted (x : Thrown)
  | badCast
  | ub
  deriving DecidableEq

/-- The overrider that runs. -/
structure Frame where
  method : MethodInfo
  overrider : OverriderInfo
  deriving DecidableEq, Repr

/-- The class to which the result of a function refers. -/
def CT.resultClass : CT → Option Cls
  | .cls c => some c
  | .lref t => t.resultClass
  | .cref t => t.resultClass
  | .rref t => t.resultClass
  | .ptr t => t.resultClass
  | .smart _ t => t.resultClass
  | .virt t => t.resultClass
  | .vptr t _ => t.resultClass
  | _ => none

/-- The thunk with address `pf`, of method number `k`, converts the result of its overrider (core.hpp 2723). -/
def Source.result (S : Source) (k pf : Nat) (r : Result) : Res Result := do
  let M ← Res.ofOption S.methods[k]?
  let o ← Res.ofOption (M.overriders.find? (·.pf = pf))
  match M.ret, o.ret with
  | some t, some u => returned S.cpp.hier (S.cpp.bindsTemporary u t) t.resultClass u.resultClass r
  | _, _ => returned S.cpp.hier false none none r

/-- `next<Fn>(args…)` in overrider `o` (core.hpp 2222-2233), until the overrider is entered. -/
def nextThunk (H : Hier) (r : Rtti) (s : RegState) (m : MethodInfo) (o : OverriderInfo) (args : List Passed) (types : List TypeId) : Res Entered := do
  let f ← Res.ofOption (s.next o.next)
  let n ← enter f types
  enterThunk H r m args n

/-- A program that is running: its declarations, the content of its records, the registry after `initialize`, the dynamic types reported by errors, whether error handlers throw, and the
code of the overriders, given by the addresses of their thunks. -/
structure Machine (σ : Type) where
  cfg : Config
  src : Source
  prog : Program
  reg : RegState
  types : List Passed → List TypeId
  throws : Bool
  code : Nat → List Passed → Body σ

namespace Machine

variable {σ : Type} (X : Machine σ)

/-- An error is reported. -/
def fail (x : Thrown) (s : σ) : Ended σ := if X.throws then .done s (.threw x) else .aborted x

/-- A thunk of method `m` was called, with this outcome: the overrider runs, and its result is converted. -/
def run (exec : Option Frame → Body σ → σ → Option (Ended σ)) (m : MethodInfo) (s : σ) : Res Entered → Option (Ended σ)
  | .ub => some .ub
  | .err e => some (X.fail e.thrown s)
  | .ok .badCast => some .badCast
  | .ok (.entered o as) =>
    match exec (some ⟨m, o⟩) (X.code o.pf as) s with
    | some (.done s' (.value r)) =>
      match X.src.result m.id o.pf r with
      | .ok r' => some (.done s' (.value r'))
      | _ => some .ub
    | e => e

/-- Runs a function; `exec` runs the overriders that it enters. -/
def body (exec : Option Frame → Body σ → σ → Option (Ended σ)) (f : Option Frame) : Body σ → σ → Option (Ended σ)
  | .ret r, s => some (.done s (.value r))
  | .throw x, s => some (.done s (.threw x))
  | .get k, s => body exec f (k s) s
  | .set x k, _ => body exec f k x
  | .hasNext k, s =>
    match f with
    | none => some .ub
    | some f' => body exec f (k (OpenMethod.hasNext f'.method.id (X.reg.next f'.overrider.next))) s
  | .next args k, s =>
    match f with
    | none => some .ub
    | some f' =>
      match X.run exec f'.method s (nextThunk X.src.cpp.hier X.src.rtti X.reg f'.method f'.overrider args (X.types args)) with
      | some (.done s' r) => body exec f (k r) s'
      | e => e
  | .call m args k, s =>
    match X.prog.methods.find? (·.id = m) with
    | none => some .ub
    | some m' =>
      match X.run exec m' s (callThunk X.cfg X.src.cpp.hier X.src.rtti X.reg m' args (X.types args)) with
      | some (.done s' r) => body exec f (k r) s'
      | e => e

/-- Runs a function, with at most `n` nested calls; `none` if there are more. -/
def exec : Nat → Option Frame → Body σ → σ → Option (Ended σ)
  | 0, _, _, _ => none
  | n + 1, f, b, s => X.body (exec n) f b s

end Machine

end OpenMethod

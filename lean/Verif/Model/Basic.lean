/-!
# Basic vocabulary of the model

Type ids, class identities, errors, and the result of running a piece of library code.
-/

namespace OpenMethod

/-- `type_id` (preamble.hpp 40-66): an opaque pointer-sized value. 64-bit targets only. -/
abbrev TypeId := BitVec 64

/-- Identity of a class: the value of `rtti::type_index` (preamble.hpp, rtti policy; initialize.hpp 542-544).
Simplification: `class_*` pointers of the compiler are identified with the type index that `class_map`
(initialize.hpp 556) associates to them, which is a bijection. -/
abbrev Cls := Nat

/-- Identity of a global variable such as `registry::static_vptr<Class>`. -/
abbrev VarId := Nat

/-- Errors passed to the error handler (preamble.hpp 76-283, fast_perfect_hash.hpp 55-67). -/
inductive Err where
  | missingClass (type : TypeId)
  | missingBase (base derived : TypeId)
  | notInitialized
  | searchError (attempts buckets : Nat)
  | noOverrider (arity : Nat) (types : List TypeId)
  | ambiguousCall (arity : Nat) (types : List TypeId)
  | finalError (static dynamic : TypeId)
  | odrViolation
  deriving DecidableEq, Repr

/-- Outcome of running library code: a value, an error handed to the error handler (after which control never
returns to the caller, see `Verif.Model.ErrorHandler`), or undefined behaviour. -/
inductive Res (α : Type) where
  | ok (a : α)
  | err (e : Err)
  | ub
  deriving DecidableEq, Repr

namespace Res

/-- Sequencing: errors and undefined behaviour stop the computation. -/
def bind {α β : Type} : Res α → (α → Res β) → Res β
  | ok a, f => f a
  | err e, _ => err e
  | ub, _ => ub

instance : Monad Res where
  pure := ok
  bind := bind

/-- Reading through a pointer or an index that may be invalid: absence is undefined behaviour. -/
def ofOption {α : Type} : Option α → Res α
  | some a => ok a
  | none => ub

@[simp] theorem pure_eq {α : Type} (a : α) : (pure a : Res α) = ok a := rfl
@[simp] theorem ok_bind {α β : Type} (a : α) (f : α → Res β) : (ok a >>= f) = f a := rfl
@[simp] theorem err_bind {α β : Type} (e : Err) (f : α → Res β) : (err e >>= f) = err e := rfl
@[simp] theorem ub_bind {α β : Type} (f : α → Res β) : ((ub : Res α) >>= f) = ub := rfl
@[simp] theorem ofOption_some {α : Type} (a : α) : ofOption (some a) = ok a := rfl
@[simp] theorem ofOption_none {α : Type} : ofOption (none : Option α) = ub := rfl

theorem bind_eq_ok {α β : Type} {x : Res α} {f : α → Res β} {b : β} :
    (x >>= f) = ok b ↔ ∃ a, x = ok a ∧ f a = ok b := by
  cases x <;> simp

theorem bind_eq_err {α β : Type} {x : Res α} {f : α → Res β} {e : Err} :
    (x >>= f) = err e ↔ x = err e ∨ ∃ a, x = ok a ∧ f a = err e := by
  cases x <;> simp

theorem bind_eq_ub {α β : Type} {x : Res α} {f : α → Res β} :
    (x >>= f) = ub ↔ x = ub ∨ ∃ a, x = ok a ∧ f a = ub := by
  cases x <;> simp

@[simp] theorem ofOption_eq_ok {α : Type} {x : Option α} {a : α} : ofOption x = ok a ↔ x = some a := by
  cases x <;> simp

end Res

end OpenMethod

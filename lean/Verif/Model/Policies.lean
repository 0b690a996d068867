import Mathlib.Data.List.Basic

/-!
# Policy lists (preamble.hpp 808-862, 971-1006)

The type-level functions on lists of policies. A policy is a class; what matters is which classes are bases of which others
(`std::is_base_of`, a class being its own base) and the nested alias `category`.
-/

namespace OpenMethod.Policies

/-- Classes used as policies and categories. -/
structure Universe (α : Type) where
  /-- `std::is_base_of<b, d>` -/
  isBase : α → α → Bool
  /-- `typename Policy::category` -/
  category : α → α

variable {α : Type} [DecidableEq α] (U : Universe α)

/-- `with_aux::replace` (preamble.hpp 834-838), `mp_replace_if_q`. -/
def replace (ps : List α) (p : α) : List α := ps.map fun q => if U.isBase (U.category p) q then p else q

/-- `with_aux::replace_or_add` (preamble.hpp 839-841). -/
def replaceOrAdd (ps : List α) (p : α) : List α := if replace U ps p = ps then ps ++ [p] else replace U ps p

/-- `registry::with` (preamble.hpp 824-843, 993-995). -/
def withPolicies (ps : List α) (new : List α) : List α := new.foldl (replaceOrAdd U) ps

/-- `registry::without` (preamble.hpp 845-862, 1003-1006). -/
def withoutPolicies (ps : List α) (cs : List α) : List α := cs.foldl (fun ps c => ps.filter fun q => !U.isBase (U.category c) q) ps

/-- `registry::policy` (preamble.hpp 808-819, 979-985); `none` stands for `void`. -/
def policy (ps : List α) (c : α) : Option α := ps.find? fun q => U.isBase c q

end OpenMethod.Policies

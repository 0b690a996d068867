import Verif.Model.Basic
import Mathlib.Data.List.Sort

/-!
# Unspecified behaviour of the standard library

Theorems quantify over all platforms, so that nothing depends on a particular standard library or address layout.
-/

namespace OpenMethod

/-- Choices the C++ standard leaves open.

* `sort key l` is a result of `std::sort` by decreasing `key` (initialize.hpp 623-627): a sorted permutation; elements
  with equal keys may be in any order.
* `iter owner l` is the iteration order of the `std::unordered_set<class_*>` of class `owner` holding the elements `l`
  (`transitive_derived`, initialize.hpp 101): any permutation. -/
structure Platform where
  sort : (Cls → Nat) → List Cls → List Cls
  sort_perm : ∀ key l, (sort key l).Perm l
  sort_sorted : ∀ key l, (sort key l).Pairwise (fun a b => key b ≤ key a)
  iter : Cls → List Cls → List Cls
  iter_perm : ∀ owner l, (iter owner l).Perm l

/-- A concrete platform used in examples: insertion sort, insertion order. -/
def Platform.std : Platform where
  sort key l := l.insertionSort (fun a b => key b ≤ key a)
  sort_perm key l := List.perm_insertionSort _ l
  sort_sorted key l := by
    have : Std.Total (fun a b : Cls => key b ≤ key a) := ⟨fun a b => Nat.le_total _ _⟩
    have : IsTrans Cls (fun a b : Cls => key b ≤ key a) := ⟨fun a b c h1 h2 => Nat.le_trans h2 h1⟩
    exact List.pairwise_insertionSort _ l
  iter _ l := l
  iter_perm _ l := List.Perm.refl l

end OpenMethod

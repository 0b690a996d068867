import Verif.SpecRegistry

/-! # Specification: the cost of a call -/

namespace OpenMethod.Spec

/-- What it takes to find the v-table pointer of an object, or the variable that contains it: its type, then the search in the map; or the address of the vector and one of its elements, after the hash function
(two factors), if any. With `runtime_checks`: `initialized`; the limits of the hash function, the control table and one of its elements; or the size of the vector. -/
def lookupCost (cfg : Config) : Nat :=
  if cfg.vector then
    match cfg.typeHash, cfg.checks with
    | true, true => 10
    | true, false => 5
    | false, true => 5
    | false, false => 3
  else if cfg.checks then 3 else 2

/-- What it takes to obtain the v-table pointer of an argument; with `indirect_vptr`, one more step. -/
def argCost (cfg : Config) : Arg → Nat
  | .obj _ => lookupCost cfg + if cfg.indirect then 1 else 0
  | .vptr (.direct _) => 0
  | .vptr (.indirect _) => 1

/-- The virtual arguments. -/
def virtualArgs : List Bool → List Arg → List Arg
  | true :: ks, a :: as => a :: virtualArgs ks as
  | false :: ks, _ :: as => virtualArgs ks as
  | _, _ => []

/-- The cost of a call with these virtual arguments: with one, the slot of the method and an element of the v-table. With several: for each, the slot, the element of the v-table and, except for the first one, the
stride; then the element of the dispatch table. -/
def callCost (cfg : Config) (as : List Arg) : Nat :=
  (if cfg.checks then 1 else 0) + (as.map (argCost cfg)).sum + if as.length = 1 then 2 else 3 * as.length

/-- The call selects a function: an overrider, or one that reports that there is none, or that the call is ambiguous. -/
def Selects (r : Res Nat) : Prop := (∃ n, r = .ok n) ∨ (∃ a ts, r = .err (.noOverrider a ts)) ∨ ∃ a ts, r = .err (.ambiguousCall a ts)

/-- Virtual arguments: objects of registered classes, or `virtual_ptr`s made from such objects. `xs` are their classes. -/
inductive Provided (cfg : Config) (p : Program) (s : RegState) : List Bool → List Arg → List Cls → Prop
  | nil : Provided cfg p s [] [] []
  | obj {ks as xs} (t : TypeId) : p.HasId t → Provided cfg p s ks as xs → Provided cfg p s (true :: ks) (.obj t :: as) (p.rtti.ti t :: xs)
  | vptr {ks as xs} (t : TypeId) {b : Boxed} : p.HasId t → makeVirtualPtr cfg s t = .ok b → Provided cfg p s ks as xs → Provided cfg p s (true :: ks) (.vptr b :: as) (p.rtti.ti t :: xs)
  | other {ks as xs} (a : Arg) : Provided cfg p s ks as xs → Provided cfg p s (false :: ks) (a :: as) xs

end OpenMethod.Spec

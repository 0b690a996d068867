import Mathlib.Data.List.Forall2
import Verif.Model.Ownership

/-!
# Specification of ownership

Code that respects the types of its variables, without mention of its execution; and states in which objects exist as long as they have owners.
-/

namespace OpenMethod.Ownership

/-- Smart pointers are owners; references and plain pointers are not. -/
def Own.isOwner (o : Own) : Bool := o = .shared || o = .unique

/-- The type of the parameter of the call operator, for a variable of type `o`. -/
inductive Arg.Typed : Arg → Own → Own → Prop
  | object {i o} : Typed (.object i) o .raw
  | ref {i o} : o = .shared ∨ o = .ref → Typed (.ref i) o .ref
  | copy {i o} : o = .shared ∨ o = .ref → Typed (.copy i) o .shared
  | move {i o} : o.isOwner = true → Typed (.move i) o o

/-- The type of the parameter of the overrider, for a parameter of the method of type `o`. A `std::unique_ptr` can only be moved, and passing a `const` reference to the same pointer does not involve a
cast. -/
inductive Mode.Typed : Mode → Own → Own → Prop
  | object : Typed .object .raw .raw
  | same : Typed .same .ref .ref
  | temporary : Typed .temporary .ref .shared
  | copied : Typed .copied .shared .shared
  | moved {o} : o.isOwner = true → Typed .moved o o

/-- An argument that a caller with variables of types `os` can pass, for a parameter of the overrider of type `o`. -/
def Param.Typed (os : List Own) (p : Param) (o : Own) : Prop := ∃ x y, os[p.arg.var]? = some x ∧ p.arg.Typed x y ∧ p.mode.Typed y o

/-- In a call, a variable that is moved is not used otherwise. -/
def MovedOnce (ps : List Param) : Prop := ∀ p ∈ ps, ∀ i, p.arg = .move i → (ps.map fun q => q.arg.var).count i = 1

/-- Code with variables of types `os`, that returns an owner of type `r`. -/
inductive Code.Typed : List Own → Option Own → Code → Prop
  | ret {os} : Typed os none (.ret none)
  | retOwner {os i o} : os[i]? = some o → o.isOwner = true → Typed os (some o) (.ret (some i))
  | throw {os r} : Typed os r .throw
  | use {os r i o k} : os[i]? = some o → Typed os r k → Typed os r (.use i k)
  | keep {os r i o k} : os[i]? = some o → o = .shared ∨ o = .ref → Typed os r k → Typed os r (.keep i k)
  | take {os r i o k} : os[i]? = some o → o.isOwner = true → Typed os r k → Typed os r (.take i k)
  | reset {os r i o k} : os[i]? = some o → o.isOwner = true → Typed os r k → Typed os r (.reset i k)
  | forget {os r j k} : Typed os r k → Typed os r (.forget j k)
  | make {os r o k} : o.isOwner = true → Typed (os ++ [o]) r k → Typed os r (.make o k)
  | fails {os r ps os' k h} : List.Forall₂ (Param.Typed os) ps os' → MovedOnce ps → Typed os r h → Typed os r (.call ps none k h)
  | call {os r ps os' r' c k h} : List.Forall₂ (Param.Typed os) ps os' → MovedOnce ps → Typed os' r' c → Typed (os ++ r'.toList) r k → Typed os r h → Typed os r (.call ps (some c) k h)

/-- The number of owners of an object among these variables. -/
def hold (a : Nat) (xs : List Slot) : Nat := xs.countP fun x => x.own.isOwner && x.obj == some a

/-- The counts are right: `T` are the owners other than global variables. -/
structure Good (s : Store) (T : Nat → Nat) : Prop where
  count : ∀ a, s.count a = T a + hold a s.globals
  gone : ∀ a, a ∈ s.gone ↔ a < s.next ∧ s.count a = 0
  nodup : s.gone.Nodup
  fresh : ∀ a, s.next ≤ a → s.count a = 0

/-- Variables refer to objects of the right kind; those that are not owners refer to objects that have other owners, `ext`. -/
def FOk (s : Store) (ext : Nat → Nat) (F : List Slot) : Prop :=
  ∀ x ∈ F, ∀ a, x.obj = some a → (x.own.isOwner = false → 0 < ext a) ∧ (x.own = .shared ∨ x.own = .ref → s.uniq a = false) ∧ a < s.next

end OpenMethod.Ownership

import Verif.SpecThunk
import Verif.Model.UseClasses

/-!
# Specification in terms of C++ inheritance

The documented dispatch rule, stated on the inheritance of the C++ program, without reference to what is registered.
-/

namespace OpenMethod

open Spec

/-- `d` is `b`, or derives from it, directly or not, virtually or not. -/
def Hier.Inherits (H : Hier) : Cls → Cls → Prop := Relation.ReflTransGen fun d b => ∃ v, H.Base d b v

/-- Class `c` is named in one of the `use_classes`. -/
def Named (us : List UseClasses) (c : Cls) : Prop := ∃ u ∈ us, c ∈ u.classes

/-- `c` and `b` are named in the same `use_classes`. -/
def Together (us : List UseClasses) (c b : Cls) : Prop := ∃ u ∈ us, c ∈ u.classes ∧ b ∈ u.classes

/-- The documented requirement: "A class and its direct bases must be listed together in one or more instantiations of `use_classes`." -/
def DirectTogether (H : Hier) (us : List UseClasses) : Prop := ∀ c b v, Named us c → H.Base c b v → Together us c b

/-- More than is required: a class and all its bases are listed together. -/
def AllTogether (H : Hier) (us : List UseClasses) : Prop := ∀ c b, Named us c → Named us b → H.Inherits c b → Together us c b

/-- The classes of the program are those registered by `us`, in any order. Type ids identify classes; the classes are defined. -/
structure Registers (H : Hier) (us : List UseClasses) (p : Program) : Prop where
  wf : H.WF
  defined : ∀ c, Named us c → H.Defined c
  ids : ∀ u ∈ us, ∀ c ∈ u.classes, p.rtti.ti (u.ids c) = c
  records : ∃ rs, allRecords H us = some rs ∧ p.classes.Perm rs

namespace Spec

variable (D : Cls → Cls → Prop)

/-! The definitions of `Verif.Spec`, for a given inheritance relation. -/

def ApplicableBy (p : Program) (o : OverriderInfo) (args : List Cls) : Prop := List.Forall₂ (fun q a => D a q) (classesOf p o.vp) args

def MoreSpecificBy (p : Program) (a b : OverriderInfo) : Prop :=
  (∃ (i : Nat) (x y : Cls), (classesOf p a.vp)[i]? = some x ∧ (classesOf p b.vp)[i]? = some y ∧ D x y ∧ x ≠ y) ∧
  (∀ (i : Nat) (x y : Cls), (classesOf p a.vp)[i]? = some x → (classesOf p b.vp)[i]? = some y → ¬ (D y x ∧ y ≠ x))

def ApplicableAtBy (p : Program) (m : MethodInfo) (args : List Cls) (i : Nat) : Prop :=
  ∃ o, m.overriders[i]? = some o ∧ ApplicableBy D p o args

def DominatesBy (p : Program) (m : MethodInfo) (i j : Nat) : Prop :=
  ∃ a b, m.overriders[i]? = some a ∧ m.overriders[j]? = some b ∧ MoreSpecificBy D p a b

def UndominatedBy (p : Program) (m : MethodInfo) (args : List Cls) (i : Nat) : Prop :=
  ApplicableAtBy D p m args i ∧ ∀ j, ApplicableAtBy D p m args j → ¬ DominatesBy D p m j i

def ExpectedBy (p : Program) (m : MethodInfo) (args : List Cls) : Outcome → Prop
  | .run i => UndominatedBy D p m args i ∧ ∀ j, UndominatedBy D p m args j → j = i
  | .noOverrider => ∀ i, ¬ ApplicableAtBy D p m args i
  | .ambiguous => (∃ i, ApplicableAtBy D p m args i) ∧ ¬ ∃ i, UndominatedBy D p m args i ∧ ∀ j, UndominatedBy D p m args j → j = i

/-- Among the overriders that are applicable, being more specific is transitive. It always is, except with multiple inheritance and several virtual parameters. -/
def TransitiveBy (p : Program) (m : MethodInfo) (args : List Cls) : Prop :=
  ∀ i j k, ApplicableAtBy D p m args i → ApplicableAtBy D p m args j → ApplicableAtBy D p m args k →
    DominatesBy D p m i j → DominatesBy D p m j k → DominatesBy D p m i k

def SettledBy (p : Program) (m : MethodInfo) (args : List Cls) : Prop := SettledOn (ApplicableAtBy D p m args) (DominatesBy D p m)

end Spec

/-- The bases of `x` form a chain. -/
def Hier.Chain (H : Hier) (x : Cls) : Prop := ∀ a b, H.Inherits x a → H.Inherits x b → H.Inherits a b ∨ H.Inherits b a

/-- A call has the documented outcome, and the overrider, if there is one, receives the arguments. -/
def Behaves (H : Hier) (p : Program) (s : RegState) (m : MethodInfo) (args : List Passed) (xs : List Cls) (r : Res Entered) : Outcome → Prop
  | .run i => ∃ o as, m.overriders[i]? = some o ∧ r = .ok (.entered o as) ∧ PassedFor H p s (classesOf p o.vp) m.params as xs ∧ List.Forall₂ SamePassed args as
  | .noOverrider => ∃ arity ts, r = .err (.noOverrider arity ts)
  | .ambiguous => ∃ arity ts, r = .err (.ambiguousCall arity ts)

end OpenMethod

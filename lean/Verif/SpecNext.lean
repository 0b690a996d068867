import Verif.SpecChange
import Verif.SpecCall

/-! # Specification: `next` -/

namespace OpenMethod

open Spec

/-- The overriders of a program have distinct thunks and distinct `next` variables: both are templates instantiated for a
method and a function, and `override_impl` (core.hpp 2733-2782) registers a function once in a method. -/
structure Program.Distinct (p : Program) : Prop where
  pf : ((p.methods.flatMap (·.overriders)).map (·.pf)).Nodup
  next : ((p.methods.flatMap (·.overriders)).map (·.next)).Nodup

/-- `p'` is `p` without overrider `o` of method `m`, which becomes `m'`. -/
structure Removes (p p' : Program) (m m' : MethodInfo) (o : OverriderInfo) : Prop where
  rtti : p'.rtti = p.rtti
  classes : p'.classes = p.classes
  without : Extended m' m o
  methods : ∃ pre post, p.methods = pre ++ m :: post ∧ p'.methods = pre ++ m' :: post

/-- When a call runs an overrider, all other overriders that accept the arguments also accept the parameter classes of this overrider. -/
def Spec.Covered (p : Program) (m : MethodInfo) : Prop :=
  ∀ ys, Callable p m ys → TransitiveAt p m ys ∧ ∀ i o, m.overriders[i]? = some o → Expected p m ys (.run i) →
    ∀ o' ∈ m.overriders, Applicable p o' ys → Accepts p (classesOf p o'.vp) (classesOf p o.vp)

/-- Of two overriders that accept the same arguments, if one is more specific, the other accepts its parameter classes. -/
def Spec.Nested (p : Program) (m : MethodInfo) : Prop :=
  ∀ ys, Callable p m ys → ∀ o ∈ m.overriders, ∀ o' ∈ m.overriders, Applicable p o ys → Applicable p o' ys → MoreSpecific p o o' →
    Accepts p (classesOf p o'.vp) (classesOf p o.vp)

/-- The documented rule, for a choice among the overriders in `A`. -/
def Spec.Best (A : Nat → Prop) (more : Nat → Nat → Prop) : Outcome → Prop
  | .run i => (A i ∧ ∀ j, A j → ¬ more j i) ∧ ∀ k, A k → (∀ j, A j → ¬ more j k) → k = i
  | .noOverrider => ∀ i, ¬ A i
  | .ambiguous => (∃ i, A i) ∧ ¬ ∃ i, (A i ∧ ∀ j, A j → ¬ more j i) ∧ ∀ k, A k → (∀ j, A j → ¬ more j k) → k = i

/-- The next most specialised overrider after overrider number `i`, among those that accept the arguments. -/
def Spec.NextExpected (p : Program) (m : MethodInfo) (xs : List Cls) (i : Nat) : Outcome → Prop :=
  Best (fun j => ApplicableAt p m xs j ∧ Dominates p m i j) (Dominates p m)

/-- From `o`, `next` leads to `o'`. -/
def NextIs (img : Image) (o o' : OverriderInfo) : Prop := nextAt img o.next = some (.user o'.pf)

/-- The overriders of `m` that a call enters, directly and by `next`. -/
inductive Reaches (gen : Nat) (img : Image) (m : MethodInfo) (args : List (Res Ptr)) (types : List TypeId) : OverriderInfo → Prop
  | call {o : OverriderInfo} : o ∈ m.overriders → callMethod gen img m args types = .ok o.pf → Reaches gen img m args types o
  | next {o o' : OverriderInfo} : Reaches gen img m args types o → o' ∈ m.overriders → NextIs img o o' → Reaches gen img m args types o'

/-- Following `next` from `o` leads through overriders of `m` to one of the two error functions of `m`; at most `steps`
pointers are followed. -/
inductive Ends (img : Image) (m : MethodInfo) : Nat → OverriderInfo → Prop
  | error {o : OverriderInfo} {f : Pf} (n : Nat) : nextAt img o.next = some f → f = .notImplemented m.id ∨ f = .ambiguous m.id →
    Ends img m (n + 1) o
  | step {o o' : OverriderInfo} {n : Nat} : NextIs img o o' → o' ∈ m.overriders → Ends img m n o' → Ends img m (n + 1) o

end OpenMethod

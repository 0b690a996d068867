import Verif.Model.Input
import Mathlib.Logic.Relation
import Mathlib.Data.List.Forall2

/-!
# Specification

What the documentation promises, stated on the registered records only. Nothing here mentions the tables, slots,
groups or pointers built by `initialize`.
-/

namespace OpenMethod.Spec

/-- A class is registered when some record is about it. -/
def Registered (p : Program) (c : Cls) : Prop := ∃ cr ∈ p.classes, p.rtti.ti cr.type = c

/-- `d` was registered together with `b` as a proper base. -/
def DeclaredBase (p : Program) (d b : Cls) : Prop :=
  ∃ cr ∈ p.classes, p.rtti.ti cr.type = d ∧ ∃ t ∈ cr.bases, p.rtti.ti t = b ∧ d ≠ b

/-- `d` is `b` or a (direct or indirect) derived class of `b`. -/
def Derives (p : Program) : Cls → Cls → Prop := Relation.ReflTransGen (DeclaredBase p)

/-- `d` is a proper (direct or indirect) derived class of `b`. -/
def ProperlyDerives (p : Program) (d b : Cls) : Prop := Derives p d b ∧ d ≠ b

/-- Inheritance in C++ has no cycle. -/
def Acyclic (p : Program) : Prop := ∀ a b, Derives p a b → Derives p b a → a = b

/-- `d` was registered together with `b` as a proper base in one of the given records. -/
def DeclaredIn (p : Program) (recs : List ClassInfo) (d b : Cls) : Prop :=
  ∃ cr ∈ recs, p.rtti.ti cr.type = d ∧ ∃ t ∈ cr.bases, p.rtti.ti t = b ∧ d ≠ b

/-- Class `x` was registered together with all its bases, direct or not: the normal case when all the classes of a
hierarchy are given to a single `use_classes`. -/
def ListsAncestors (p : Program) (x : Cls) : Prop := ∀ b, ProperlyDerives p x b → DeclaredBase p x b

/-- When `x`, or a class from which it derives, is registered with a base, everything about the bases of that base was
registered before. -/
def BasesFirst (p : Program) (x : Cls) : Prop :=
  ∀ pre cr post, p.classes = pre ++ cr :: post → Derives p x (p.rtti.ti cr.type) →
    ∀ t ∈ cr.bases, p.rtti.ti cr.type ≠ p.rtti.ti t → ∀ b, DeclaredBase p (p.rtti.ti t) b → DeclaredIn p pre (p.rtti.ti t) b

/-- Given the records `recs` in their order, `b` can be found as a base of `x` at the time `x` is registered: a record of `x`
names a base from which `b` is reached through records that come before it. -/
def FoundIn (p : Program) (recs : List ClassInfo) (x b : Cls) : Prop :=
  ∃ pre cr post, recs = pre ++ cr :: post ∧ p.rtti.ti cr.type = x ∧
    ∃ t ∈ cr.bases, x ≠ p.rtti.ti t ∧ Relation.ReflTransGen (DeclaredIn p pre) (p.rtti.ti t) b

/-- All the bases of `x`, direct or not, can be found at a time `x` is registered. `ListsAncestors` and `BasesFirst` are two simple ways
of achieving it. -/
def AllFound (p : Program) (x : Cls) : Prop := ∀ b, ProperlyDerives p x b → FoundIn p p.classes x b

/-- The classes of the virtual parameters of a method or overrider. -/
def classesOf (p : Program) (vp : List TypeId) : List Cls := vp.map p.rtti.ti

/-- `c` is the class of a virtual parameter. -/
def ParamClass (p : Program) (c : Cls) : Prop := ∃ m ∈ p.methods, c ∈ classesOf p m.vp

/-- `x` and the classes above it find at most one base each: single inheritance, each class being registered with its direct base, and
before the bases of that base. -/
def OneFound (p : Program) (x : Cls) : Prop :=
  ∀ y, Derives p x y → ∀ b c, FoundIn p p.classes y b → FoundIn p p.classes y c → b = c

/-- All the virtual parameters that accept `x` are of the same class, whatever the number of methods. -/
def OneParam (p : Program) (x : Cls) : Prop :=
  ∀ b c, ParamClass p b → ParamClass p c → Derives p x b → Derives p x c → b = c

/-- The order of registration is not a problem for parameters of classes `b` and `c`: `c` derives from `b`, or `c` can be found as a base of a
class derived from `b`, or `c` is above `b` and the classes between them find only `c` and classes derived from it as bases. -/
def Separated (p : Program) (b c : Cls) : Prop :=
  Derives p c b ∨ (∃ z, Derives p z b ∧ FoundIn p p.classes z c) ∨
  (Derives p b c ∧ ∀ z w, Derives p b z → ProperlyDerives p z c → FoundIn p p.classes z w → Derives p w c)

/-- The order of registration of the classes above `x` is not a problem, for any two classes of virtual parameters. `AllFound`, `OneFound` and
`OneParam` are simple ways of achieving it. -/
def OrderSafe (p : Program) (x : Cls) : Prop :=
  ∀ b c, ParamClass p b → ParamClass p c → Derives p x b → Derives p x c → Separated p b c

/-- The order of registration is not a problem for an argument of class `x` passed to a virtual parameter of class `b`, whatever it is for the
other parameters that accept `x`. -/
def ArgSafe (p : Program) (b x : Cls) : Prop :=
  ∀ c, ParamClass p c → Derives p x c → Separated p b c ∧ Separated p c b

/-- The order of registration is not a problem for a call with arguments of classes `xs` passed to virtual parameters of classes `params`. -/
def ArgsSafe (p : Program) (params xs : List Cls) : Prop := List.Forall₂ (ArgSafe p) params xs

/-- A tuple of argument classes is accepted by a tuple of parameter classes. -/
def Accepts (p : Program) (params args : List Cls) : Prop := List.Forall₂ (fun q a => Derives p a q) params args

/-- An overrider is applicable to a tuple of argument classes. -/
def Applicable (p : Program) (o : OverriderInfo) (args : List Cls) : Prop := Accepts p (classesOf p o.vp) args

/-- Documentation (multiple_dispatch.adoc): overrider `a` is more specialised than `b` if at least one of its virtual
parameters is more specialised than the corresponding parameter of `b`, and none of the virtual parameters of `b` is
more specialised than the corresponding parameter of `a`. -/
def MoreSpecific (p : Program) (a b : OverriderInfo) : Prop :=
  (∃ (i : Nat) (x y : Cls), (classesOf p a.vp)[i]? = some x ∧ (classesOf p b.vp)[i]? = some y ∧ ProperlyDerives p x y) ∧
  (∀ (i : Nat) (x y : Cls), (classesOf p a.vp)[i]? = some x → (classesOf p b.vp)[i]? = some y → ¬ ProperlyDerives p y x)

/-- Index `i` designates an overrider of `m` that is applicable to `args`. -/
def ApplicableAt (p : Program) (m : MethodInfo) (args : List Cls) (i : Nat) : Prop :=
  ∃ o, m.overriders[i]? = some o ∧ Applicable p o args

/-- Overrider number `i` dominates overrider number `j`. -/
def Dominates (p : Program) (m : MethodInfo) (i j : Nat) : Prop :=
  ∃ a b, m.overriders[i]? = some a ∧ m.overriders[j]? = some b ∧ MoreSpecific p a b

/-- An applicable overrider that no other applicable overrider dominates. -/
def Undominated (p : Program) (m : MethodInfo) (args : List Cls) (i : Nat) : Prop :=
  ApplicableAt p m args i ∧ ∀ j, ApplicableAt p m args j → ¬ Dominates p m j i

/-- What a call does. -/
inductive Outcome where
  /-- overrider number `i` of the method runs -/
  | run (i : Nat)
  | noOverrider
  | ambiguous
  deriving DecidableEq, Repr

/-- The documented rule (multiple_dispatch.adoc): form the set of applicable overriders; if it is empty, the call is not
implemented; remove the overriders dominated by others in the set; if exactly one remains call it; otherwise the call
is ambiguous. -/
def Expected (p : Program) (m : MethodInfo) (args : List Cls) : Outcome → Prop
  | .run i => Undominated p m args i ∧ ∀ j, Undominated p m args j → j = i
  | .noOverrider => ∀ i, ¬ ApplicableAt p m args i
  | .ambiguous => (∃ i, ApplicableAt p m args i) ∧ ¬ ∃ i, Undominated p m args i ∧ ∀ j, Undominated p m args j → j = i

/-- The tuples of classes with which a method can be called: registered classes, accepted by the method itself. -/
def Callable (p : Program) (m : MethodInfo) (args : List Cls) : Prop :=
  Accepts p (classesOf p m.vp) args ∧ ∀ a ∈ args, Registered p a

/-- Among the overriders that accept the arguments, being more specific is transitive. -/
def TransitiveAt (p : Program) (m : MethodInfo) (xs : List Cls) : Prop :=
  ∀ i j k, ApplicableAt p m xs i → ApplicableAt p m xs j → ApplicableAt p m xs k →
    Dominates p m i j → Dominates p m j k → Dominates p m i k

/-- A choice among the members of `A` is settled by direct comparisons: there are none, or two of them are beaten by no other, or one of them beats all others. -/
def SettledOn (A : Nat → Prop) (more : Nat → Nat → Prop) : Prop :=
  (∀ i, ¬ A i) ∨
  (∃ i j, i ≠ j ∧ (A i ∧ ∀ k, A k → ¬ more k i) ∧ (A j ∧ ∀ k, A k → ¬ more k j)) ∨
  ∃ i, A i ∧ ∀ j, A j → j ≠ i → more i j

/-- The choice among the overriders that accept the arguments is settled by direct comparisons. -/
def Settled (p : Program) (m : MethodInfo) (xs : List Cls) : Prop := SettledOn (ApplicableAt p m xs) (Dominates p m)

/-- The overriders that accept the arguments, and are dominated by another one, are dominated by one that is not dominated. -/
def Founded (p : Program) (m : MethodInfo) (xs : List Cls) : Prop :=
  ∀ j, ApplicableAt p m xs j → Undominated p m xs j ∨ ∃ i, Undominated p m xs i ∧ Dominates p m i j

/-- The overriders of the method are compared by their return types under option `n2216`: the return class of the method
is registered and is not `void`. -/
def CovariantReturn (p : Program) (m : MethodInfo) : Prop := p.rtti.ti m.ret ≠ p.rtti.ti p.rtti.void ∧ Registered p (p.rtti.ti m.ret)

/-- The documented rule is deterministic. -/
theorem Expected.unique {p : Program} {m : MethodInfo} {args : List Cls} {r s : Outcome}
    (hr : Expected p m args r) (hs : Expected p m args s) : r = s := by
  cases r <;> cases s <;> simp only [Expected, Outcome.run.injEq, reduceCtorEq] at *
  · exact hs.2 _ hr.1
  · exact hs _ hr.1.1
  · exact hs.2 ⟨_, hr⟩
  · exact hr _ hs.1.1
  · exact hs.1.elim hr
  · exact hr.2 ⟨_, hs⟩
  · exact hr.1.elim hs

end OpenMethod.Spec

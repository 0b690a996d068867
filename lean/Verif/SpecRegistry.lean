import Verif.SpecCall
import Verif.Model.Memory

/-! # Specification of registries over time -/

namespace OpenMethod

open Spec

/-- Distinct classes have distinct `static_vptr` variables: the variable is a template instantiated with the class. -/
def Program.VarsOk (p : Program) : Prop :=
  ∀ a ∈ p.classes, ∀ b ∈ p.classes, a.staticVptr = b.staticVptr → p.rtti.ti a.type = p.rtti.ti b.type

/-- A class was registered with this type id. -/
def Program.HasId (p : Program) (t : TypeId) : Prop := ∃ cr ∈ p.classes, cr.type = t

/-- With `vptr_vector`, the largest value is not a valid type id. -/
def IdsOk (cfg : Config) (p : Program) : Prop := cfg.vector = true → ¬ p.HasId noType

/-- What the C++ compiler and linker guarantee, in a registry with the given policies. -/
structure Program.Good (p : Program) (cfg : Config) : Prop where
  valid : p.Valid
  vars : p.VarsOk
  ids : IdsOk cfg p

/-- Arguments of a call: objects of registered classes for virtual parameters, anything for the others. `xs` are the
classes of the virtual arguments. -/
inductive Objects (p : Program) : List Bool → List Arg → List Cls → Prop
  | nil : Objects p [] [] []
  | virt {ks as xs} (t : TypeId) : p.HasId t → Objects p ks as xs → Objects p (true :: ks) (.obj t :: as) (p.rtti.ti t :: xs)
  | other {ks as xs} (a : Arg) : Objects p ks as xs → Objects p (false :: ks) (a :: as) xs

/-- Arguments of a call among which there are objects of classes that are not registered; `ts` are their type ids. Such an
argument takes the place of an object of class `x`. -/
inductive Mixed (p : Program) : List Bool → List Arg → List Cls → List TypeId → Prop
  | nil : Mixed p [] [] [] []
  | virt {ks as xs ts} (t : TypeId) : p.HasId t → Mixed p ks as xs ts → Mixed p (true :: ks) (.obj t :: as) (p.rtti.ti t :: xs) ts
  | unregistered {ks as xs ts} (t : TypeId) (x : Cls) : ¬ p.HasId t → Mixed p ks as xs ts →
      Mixed p (true :: ks) (.obj t :: as) (x :: xs) (t :: ts)
  | other {ks as xs ts} (a : Arg) : Mixed p ks as xs ts → Mixed p (false :: ks) (a :: as) xs ts

/-- The `static_vptr` variable of a class: that of its first record. -/
def Program.StaticVar (p : Program) (x : Cls) (v : VarId) : Prop := (p.classes.find? (fun cr => p.rtti.ti cr.type = x)).map (·.staticVptr) = some v

/-- `initialize` succeeds. -/
def Initializes (E : Env) (p : Program) (s s' : RegState) (rep : Report) : Prop :=
  initRegistry E p s = .ok { state := s', result := .ok rep }

/-- `initialize` reports an error. -/
def FailsWith (E : Env) (p : Program) (s s' : RegState) (e : Err) : Prop :=
  initRegistry E p s = .ok { state := s', result := .error e }

/-- `initialize` throws `std::bad_alloc`, because some allocation fails. -/
def Exhausts (E : Env) (p : Program) (s s' : RegState) : Prop := ∃ trace f, initFault E trace p s f = .ok (some s')

/-- What can happen to a registry with policies `cfg`, from state `s` to state `s'`: successful and failed calls to
`initialize`, with any registrations, options and platform, also when memory is exhausted; calls to `finalize`. -/
inductive Steps (cfg : Config) (s : RegState) : RegState → Prop
  | refl : Steps cfg s s
  | ok {s1 s2 E p rep} : Steps cfg s s1 → E.cfg = cfg → Initializes E p s1 s2 rep → Steps cfg s s2
  | failed {s1 s2 E p e} : Steps cfg s s1 → E.cfg = cfg → FailsWith E p s1 s2 e → Steps cfg s s2
  | exhausted {s1 s2 E p} : Steps cfg s s1 → E.cfg = cfg → Exhausts E p s1 s2 → Steps cfg s s2
  | final {s1 E} : Steps cfg s s1 → E.cfg = cfg → Steps cfg s (finalize E s1)

/-- The states of a registry since the program started. The boolean tells if there was a successful `initialize` since the start
and since the last `finalize`. -/
inductive History (cfg : Config) : RegState → Bool → Prop
  | start : History cfg .init false
  | ok {s s' b E p rep} : History cfg s b → E.cfg = cfg → Initializes E p s s' rep → History cfg s' true
  | failed {s s' b E p e} : History cfg s b → E.cfg = cfg → FailsWith E p s s' e → History cfg s' b
  | exhausted {s s' b E p} : History cfg s b → E.cfg = cfg → Exhausts E p s s' → History cfg s' b
  | final {s b E} : History cfg s b → E.cfg = cfg → History cfg (finalize E s) false

/-- The vptr policy, with runtime_checks, knows all type ids that were not registered: not `vptr_vector` without hash. -/
structure Detects (cfg : Config) : Prop where
  checks : cfg.checks = true
  policy : cfg.vector = true → cfg.typeHash = true

/-- Corresponding virtual arguments in two states of a registry: the same object, of a registered class, or of a class
detected as unregistered; or `virtual_ptr`s created from the same object. -/
inductive SameObject (cfg : Config) (p : Program) (s s' : RegState) : Arg → Arg → Prop
  | obj (t : TypeId) : p.HasId t → SameObject cfg p s s' (.obj t) (.obj t)
  | unregistered (t : TypeId) : ¬ p.HasId t → Detects cfg → (cfg.vector = true → t ≠ noType) → SameObject cfg p s s' (.obj t) (.obj t)
  | vptr (t : TypeId) {b b' : Boxed} : p.HasId t → makeVirtualPtr cfg s t = .ok b → makeVirtualPtr cfg s' t = .ok b' →
      SameObject cfg p s s' (.vptr b) (.vptr b')

/-- Corresponding arguments; those of non-virtual parameters do not matter. -/
inductive SameObjects (cfg : Config) (p : Program) (s s' : RegState) : List Bool → List Arg → List Arg → Prop
  | nil : SameObjects cfg p s s' [] [] []
  | virt {ks as bs a b} : SameObject cfg p s s' a b → SameObjects cfg p s s' ks as bs → SameObjects cfg p s s' (true :: ks) (a :: as) (b :: bs)
  | other {ks as bs} (a b : Arg) : SameObjects cfg p s s' ks as bs → SameObjects cfg p s s' (false :: ks) (a :: as) (b :: bs)

end OpenMethod

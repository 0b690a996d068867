import Verif.SpecCpp
import Verif.SpecReturns
import Verif.SpecRegistrars
import Verif.SpecNext
import Verif.Model.Source

/-!
# Specification of programs as they are written
-/

namespace OpenMethod

open Spec

/-- Decides `CT.IsVirtualParam`. -/
def CT.marked : CT → Bool
  | .virt _ => true
  | .vptr _ _ => true
  | .cref (.vptr _ _) => true
  | _ => false

/-- The classes of the parameters of a function, at the positions of the virtual parameters of the method. -/
def virtualClasses (method params : List CT) : List Cls :=
  (List.zip method params).filterMap fun pq => if pq.1.marked then pq.2.class? else none

def MethodDecl.classes (m : MethodDecl) : List Cls := virtualClasses m.params m.params

def MethodDecl.kinds (m : MethodDecl) : List Bool := m.params.map CT.marked

def OverrideDecl.classes (o : OverrideDecl) (m : MethodDecl) : List Cls := virtualClasses m.params o.params

/-- A method or an overrider returns, polymorphically, an object of class `c`. -/
def Source.ReturnsClass (S : Source) (t : Option CT) (c : Cls) : Prop := ∃ u, t = some u ∧ u.ReturnsClass S.cpp.reg c

/-- What the language and the linker guarantee, and the documentation requires, that the library does not check: `virtual_ptr<T>&` is not used in methods; the `virtual_ptr`s in methods have the
registry of the method; for parameters marked with `virtual_`, the forms of the overriders' go together with them, and their classes are derived from those of the method; a class and its direct bases are listed together. -/
structure Source.Ok (S : Source) (cfg : Config) : Prop where
  wf : S.cpp.hier.WF
  proper : ∀ m ∈ S.methods, (∀ t ∈ m.params, t.Proper) ∧ ∀ o ∈ m.overriders, ∀ t ∈ o.params, t.Proper
  properRet : ∀ m ∈ S.methods, (∀ t ∈ m.ret, t.Proper) ∧ ∀ o ∈ m.overriders, ∀ t ∈ o.ret, t.Proper
  noRef : ∀ m ∈ S.methods, ∀ t ∈ m.params, ∀ u r, t ≠ .lref (.vptr u r)
  registry : ∀ m ∈ S.methods, ∀ t n, .cref (.vptr t (.reg n)) ∈ m.params → n = S.cpp.reg
  virt : ∀ m ∈ S.methods, ∀ o ∈ m.overriders, List.Forall₂ (CT.Related S.cpp.hier) m.params o.params
  together : DirectTogether S.cpp.hier S.uses
  defined : ∀ c, Named S.uses c → S.cpp.hier.Defined c
  /-- virtual parameters have complete types -/
  complete : ∀ m ∈ S.methods, ∀ c ∈ m.classes, S.cpp.hier.Defined c
  completeRet : ∀ m ∈ S.methods, (∀ c, S.ReturnsClass m.ret c → S.cpp.hier.Defined c) ∧
    ∀ o ∈ m.overriders, ∀ c, S.ReturnsClass o.ret c → S.cpp.hier.Defined c
  /-- type ids identify classes, and distinguish them from other types -/
  ids : ∀ c, S.cpp.hier.Defined c → S.rtti.ti (S.ids (some (.cls c))) = c
  otherIds : ∀ t, (∀ c, t ≠ some (.cls c)) → ¬ S.cpp.hier.Defined (S.rtti.ti (S.ids t))
  void : S.ids none = S.rtti.void
  useIds : ∀ u ∈ S.uses, ∀ c ∈ u.classes, S.rtti.ti (u.ids c) = c ∧ (cfg.vector = true → u.ids c ≠ noType)
  /-- distinct classes have distinct `static_vptr`s -/
  vars : ∀ u ∈ S.uses, ∀ v ∈ S.uses, ∀ c ∈ u.classes, ∀ d ∈ v.classes, u.vars c = v.vars d → c = d
  /-- addresses of functions and variables -/
  pf : ((S.methods.flatMap (·.overriders)).map (·.pf)).Nodup
  next : ((S.methods.flatMap (·.overriders)).map (·.next)).Nodup

/-- All the static objects of the program are alive, and no others. -/
structure Source.Loaded (S : Source) (rs : List ClassInfo) (L : Alive) : Prop where
  classes : (L.classes.map (·.1)).Perm (List.range rs.length)
  methods : (L.methods.map (·.1)).Perm (List.range S.methods.length)
  overriders : ∀ (k : Nat) (m : MethodDecl), S.methods[k]? = some m → ((L.overriders k).map (·.1)).Perm (List.range m.overriders.length)

/-- All classes used by methods and overriders are listed in a `use_classes`: those of virtual parameters, and those that overriders return if that of the method is
listed. -/
def Source.Listed (S : Source) : Prop :=
  ∀ m ∈ S.methods, (∀ c ∈ m.classes, Named S.uses c) ∧
    ∀ o ∈ m.overriders, (∀ c ∈ o.classes m, Named S.uses c) ∧
      ∀ c, S.ReturnsClass m.ret c → Named S.uses c → ∃ d, S.ReturnsClass o.ret d ∧ Named S.uses d

namespace Spec

/-! The documented rule, for overriders given by the classes of their parameters. -/

section

variable (D : Cls → Cls → Prop) (css : List (List Cls))

def MoreSpecificIn (as bs : List Cls) : Prop :=
  (∃ (i : Nat) (x y : Cls), as[i]? = some x ∧ bs[i]? = some y ∧ D x y ∧ x ≠ y) ∧
  (∀ (i : Nat) (x y : Cls), as[i]? = some x → bs[i]? = some y → ¬ (D y x ∧ y ≠ x))

def ApplicableIn (xs : List Cls) (i : Nat) : Prop := ∃ cs, css[i]? = some cs ∧ List.Forall₂ (fun q a => D a q) cs xs

def UndominatedIn (xs : List Cls) (i : Nat) : Prop :=
  ApplicableIn D css xs i ∧ ∀ j, ApplicableIn D css xs j → ¬ ∃ as bs, css[j]? = some as ∧ css[i]? = some bs ∧ MoreSpecificIn D as bs

def ExpectedIn (xs : List Cls) : Outcome → Prop
  | .run i => UndominatedIn D css xs i ∧ ∀ j, UndominatedIn D css xs j → j = i
  | .noOverrider => ∀ i, ¬ ApplicableIn D css xs i
  | .ambiguous => (∃ i, ApplicableIn D css xs i) ∧ ¬ ∃ i, UndominatedIn D css xs i ∧ ∀ j, UndominatedIn D css xs j → j = i

/-- Among the applicable overriders, being more specific is transitive. -/
def TransitiveIn (xs : List Cls) : Prop :=
  ∀ as ∈ css, ∀ bs ∈ css, ∀ cs ∈ css, List.Forall₂ (fun q a => D a q) as xs → List.Forall₂ (fun q a => D a q) bs xs → List.Forall₂ (fun q a => D a q) cs xs →
    MoreSpecificIn D as bs → MoreSpecificIn D bs cs → MoreSpecificIn D as cs

/-- The choice among the applicable overriders is settled by direct comparisons. -/
def SettledIn (xs : List Cls) : Prop :=
  SettledOn (ApplicableIn D css xs) fun i j => ∃ as bs, css[i]? = some as ∧ css[j]? = some bs ∧ MoreSpecificIn D as bs

end

end Spec

/-- The documented outcome of a call. -/
def Source.Expected (S : Source) (m : MethodDecl) (xs : List Cls) : Outcome → Prop :=
  ExpectedIn S.cpp.hier.Inherits (m.overriders.map fun o => o.classes m) xs

/-- Being more specific is transitive, among the overriders that are applicable. -/
def Source.Transitive (S : Source) (m : MethodDecl) (xs : List Cls) : Prop :=
  TransitiveIn S.cpp.hier.Inherits (m.overriders.map fun o => o.classes m) xs

/-- The choice among the overriders that are applicable is settled by direct comparisons. -/
def Source.Settled (S : Source) (m : MethodDecl) (xs : List Cls) : Prop :=
  SettledIn S.cpp.hier.Inherits (m.overriders.map fun o => o.classes m) xs

/-- A call has this outcome; the overrider, if there is one, receives the arguments. -/
def Source.Behaves (S : Source) (p : Program) (s : RegState) (m : MethodDecl) (args : List Passed) (xs : List Cls) (r : Res Entered) : Outcome → Prop
  | .run i => ∃ d o as, m.overriders[i]? = some d ∧ o.pf = d.pf ∧ r = .ok (.entered o as) ∧
      PassedFor S.cpp.hier p s (d.classes m) m.kinds as xs ∧ List.Forall₂ SamePassed args as
  | .noOverrider => ∃ arity ts, r = .err (.noOverrider arity ts)
  | .ambiguous => ∃ arity ts, r = .err (.ambiguousCall arity ts)

end OpenMethod

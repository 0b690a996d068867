import Verif.SpecMacroProgram
import Verif.SpecCpp
import Verif.Model.Lookup

/-!
# Specification of macros in namespaces

"`BOOST_OPENMETHOD_OVERRIDE` works *across* namespaces. Overriders are not required to be in the same namespace as the method they override. The macro adds the overrider to a method that can be called with
the same arguments as the overrider, possibly located via argument dependent lookup." "Overrider containers are added to the current namespace." (namespaces.adoc)
-/

namespace OpenMethod

namespace Ns

/-- The nearest namespace that contains both: all those that contain both contain it. -/
def Nearest (a b e : Ns) : Prop := e <:+ a ∧ e <:+ b ∧ ∀ e', e' <:+ a → e' <:+ b → e' <:+ e

/-- Namespace `b` is nominated in `a`, or in a namespace that is nominated there, and so on. -/
def Nominated (ds : List (Ns × Ns)) : Ns → Ns → Prop := Relation.TransGen fun a b => (a, b) ∈ ds

variable {α : Type}

/-- Used in namespace `s`, a name denotes entity `x` in namespace `e`: it is declared there; or in a namespace nominated in one that encloses `s`, and `e` is the nearest namespace that contains both. -/
def Shows (D : Ns → α → Prop) (ds : List (Ns × Ns)) (s e : Ns) (x : α) : Prop := D e x ∨ ∃ a b, a <:+ s ∧ Nominated ds a b ∧ Nearest a b e ∧ D b x

/-- Used in namespace `s`, a name denotes entity `x`: in a namespace that encloses `s`, or `s` itself, and nothing hides it, in a nearer one. -/
def Visible (D : Ns → α → Prop) (ds : List (Ns × Ns)) (s : Ns) (x : α) : Prop :=
  ∃ e, e <:+ s ∧ Shows D ds s e x ∧ ∀ e', e' <:+ s → e.length < e'.length → ∀ y, ¬ Shows D ds s e' y

end Ns

/-- A namespace is associated with a type. -/
inductive Spaces.Associated (A : Spaces) (H : Hier) : CT → Ns → Prop
  | cls {c b} : H.Inherits c b → Associated A H (.cls c) (A.cls b)
  | reg {r n} : n ∈ A.reg r → Associated A H (.reg r) n
  | other {t n} : n ∈ A.other t → Associated A H (.other t) n
  | lref {t n} : Associated A H t n → Associated A H (.lref t) n
  | cref {t n} : Associated A H t n → Associated A H (.cref t) n
  | rref {t n} : Associated A H t n → Associated A H (.rref t) n
  | ptr {t n} : Associated A H t n → Associated A H (.ptr t) n
  | smart {k t n} : Associated A H t n → Associated A H (.smart k t) n
  | virt {t n} : Associated A H t n → Associated A H (.virt t) n
  | vptr {t r n} : Associated A H t n → Associated A H (.vptr t r) n
  | registry {t r n} : Associated A H r n → Associated A H (.vptr t r) n
  | inSmart {k t n} : n ∈ A.smart k → Associated A H (.smart k t) n
  | inVirt {t n} : n ∈ A.vptr → Associated A H (.virt t) n
  | inVptr {t r n} : n ∈ A.vptr → Associated A H (.vptr t r) n

namespace NsSource

variable (P : NsSource)

/-- Method `k` is declared in namespace `n`, with this name, or introduced there by a `using` declaration. -/
def Declares (C : Context) (us : List (Ns × Nat)) (name : Ident) (n : Ns) (k : Nat) : Prop :=
  ∃ m, P.methods[k]? = some m ∧ m.name = name ∧ (k ∈ C.methods ∧ m.ns = n ∨ (n, k) ∈ us)

/-- Name lookup from namespace `s`, with arguments of types `as`, finds method `k`. -/
def Finds (C : Context) (us : List (Ns × Nat)) (s : Ns) (name : Ident) (as : List CT) (k : Nat) : Prop :=
  Ns.Visible (P.Declares C us name) C.directives s k ∨ ∃ a ∈ as, ∃ n, P.spaces.Associated P.cpp.hier a n ∧ P.Declares C us name n k

/-- Namespace `n` has a container: a method, or an overrider, was declared there. -/
def HasContainer (C : Context) (name : Ident) (n : Ns) : Prop := (∃ k ∈ C.methods, ∃ m, P.methods[k]? = some m ∧ m.name = name ∧ m.ns = n) ∨ ∃ g, (n, name, g) ∈ C.overriders

/-- The container of namespace `s` clashes with that of another namespace, nominated in `s`, or in a namespace that encloses it: the nearest namespace that contains both is `s`. -/
def Clashes (C : Context) (name : Ident) (s : Ns) : Prop := ∃ a b, a <:+ s ∧ Ns.Nominated C.directives a b ∧ Ns.Nearest a b s ∧ b ≠ s ∧ P.HasContainer C name b

/-- Among the methods that satisfy `F`, method `k` is the only one that can be called with arguments of types `as`. -/
def OnlyOne (F : Nat → Prop) (as : List CT) (k : Nat) : Prop :=
  F k ∧ (∃ m, P.methods[k]? = some m ∧ P.cpp.callable m.decl.params as = true) ∧ ∀ k', F k' → ∀ m', P.methods[k']? = some m' → P.cpp.callable m'.decl.params as = true → k' = k

end NsSource

end OpenMethod

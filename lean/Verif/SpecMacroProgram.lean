import Verif.SpecSource
import Verif.SpecMacros
import Verif.Model.MacroProgram

/-!
# Specification of programs written with macros
-/

namespace OpenMethod

open Spec

namespace MacroSource

variable (P : MacroSource)

/-- Among the methods found by a name, overload resolution selects method number `k` for arguments of types `as`, as for ordinary functions. -/
def Reaches (found : List Nat) (as : List CT) (k : Nat) : Prop :=
  k ∈ found ∧ ∃ m, P.methods[k]? = some m ∧ P.cpp.callable m.params as = true ∧
    ∀ k' ∈ found, ∀ m', P.methods[k']? = some m' → P.cpp.callable m'.params as = true → k' = k ∨ CT.Better m.params m'.params as

/-- `S` has the methods of `P`; and each method has the overriders that reach it, in the order in which they are written. -/
structure Written (S : Source) : Prop where
  cpp : S.cpp = P.cpp
  rtti : S.rtti = P.rtti
  ids : S.ids = P.ids
  uses : S.uses = P.uses
  length : S.methods.length = P.methods.length
  methods : ∀ (k : Nat) m M, P.methods[k]? = some m → S.methods[k]? = some M → M.params = m.params ∧ M.ret = m.ret ∧ M.overriders.Sublist (P.overriders.map (·.decl)) ∧
    ∀ o ∈ P.overriders, o.decl ∈ M.overriders ↔ P.Reaches o.found o.decl.params k

/-- As `Source.Ok`, without the condition on the forms and classes of overriders for parameters marked with `virtual_`, except that rvalue references are to classes. -/
structure Ok (cfg : Config) : Prop where
  wf : P.cpp.hier.WF
  proper : (∀ m ∈ P.methods, ∀ t ∈ m.params, t.Proper) ∧ ∀ o ∈ P.overriders, ∀ t ∈ o.decl.params, t.Proper ∧ t.InHier P.cpp.hier
  properRet : (∀ m ∈ P.methods, ∀ t ∈ m.ret, t.Proper) ∧ ∀ o ∈ P.overriders, ∀ t ∈ o.decl.ret, t.Proper
  noRef : ∀ m ∈ P.methods, ∀ t ∈ m.params, ∀ u r, t ≠ .lref (.vptr u r)
  /-- rvalue references are to classes -/
  rvalues : ∀ o ∈ P.overriders, ∀ u, .rref u ∈ o.decl.params → ∃ c, u = .cls c
  registry : ∀ m ∈ P.methods, ∀ t n, .cref (.vptr t (.reg n)) ∈ m.params → n = P.cpp.reg
  together : DirectTogether P.cpp.hier P.uses
  defined : ∀ c, Named P.uses c → P.cpp.hier.Defined c
  complete : ∀ m ∈ P.methods, ∀ c ∈ virtualClasses m.params m.params, P.cpp.hier.Defined c
  completeRet : (∀ m ∈ P.methods, ∀ t ∈ m.ret, ∀ c, t.ReturnsClass P.cpp.reg c → P.cpp.hier.Defined c) ∧
    ∀ o ∈ P.overriders, ∀ t ∈ o.decl.ret, ∀ c, t.ReturnsClass P.cpp.reg c → P.cpp.hier.Defined c
  typeIds : ∀ c, P.cpp.hier.Defined c → P.rtti.ti (P.ids (some (.cls c))) = c
  otherIds : ∀ t, (∀ c, t ≠ some (.cls c)) → ¬ P.cpp.hier.Defined (P.rtti.ti (P.ids t))
  void : P.ids none = P.rtti.void
  useIds : ∀ u ∈ P.uses, ∀ c ∈ u.classes, P.rtti.ti (u.ids c) = c ∧ (cfg.vector = true → u.ids c ≠ noType)
  vars : ∀ u ∈ P.uses, ∀ v ∈ P.uses, ∀ c ∈ u.classes, ∀ d ∈ v.classes, u.vars c = v.vars d → c = d
  pf : (P.overriders.map (·.decl.pf)).Nodup
  next : (P.overriders.map (·.decl.next)).Nodup

end MacroSource

end OpenMethod

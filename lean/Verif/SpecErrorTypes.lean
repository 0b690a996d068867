import Verif.SpecCpp
import Verif.Model.ErrorTypes

/-! # Specification of the classes of errors -/

namespace OpenMethod.ErrorTypes

/-- Classes of the program, in addition to those of the library: `more`. -/
def Extends (H : Hier) : Prop := H.WF ∧ ∃ more, H = more ++ stock

/-- Of the classes in the list, `d` is the one closest to `e`: it is there once, is `e` or an unambiguous base of it, and a class derived from all others of which this can be said. -/
def Closest (H : Hier) (V : List Cls) (e d : Cls) : Prop :=
  V.count d = 1 ∧ H.Unambiguous e d ∧ ∀ c ∈ V, H.Unambiguous e c → H.Inherits d c

/-- The policies tell which errors they report: no two of them the same, and none of those that the library reports itself. -/
structure Lists {α : Type} (errors : α → Option (List Cls)) (policies : List α) : Prop where
  nodup : ∀ p ∈ policies, ∀ es, errors p = some es → es.Nodup
  others : ∀ p ∈ policies, ∀ es, errors p = some es → ∀ e ∈ es, e ∉ always
  apart : ∀ p ∈ policies, ∀ q ∈ policies, ∀ es fs, errors p = some es → errors q = some fs → p ≠ q → ∀ e ∈ es, e ∉ fs

/-- The errors that can be reported: those of the library, and those listed by a policy. -/
def Reported {α : Type} (errors : α → Option (List Cls)) (policies : List α) (e : Cls) : Prop := e ∈ always ∨ ∃ p ∈ policies, ∃ es, errors p = some es ∧ e ∈ es

end OpenMethod.ErrorTypes

import Verif.Model.ErrorHandler
import Mathlib.Data.List.Dedup

/-!
# Detection of inconsistent definitions of a registry (preamble.hpp 99-114, default_registry.hpp 35-63, initialize.hpp 1613-1622)

Which translation units are in a program, and in the shared libraries that it loads. Each of them that includes default_registry.hpp defines
`default_registry` with or without `runtime_checks`, and has an object of class `odr_check<default_registry>`, whose constructor refers to
`odr_check<default_registry>::inc<R>`, where `R` is the base `registry<...>` of `default_registry`. As `default_registry` has the same name in all units, there is one
variable `count`, and one `inc<R>` for each `R`; the initializer of `inc<R>` increments `count`. Initializers run when the module is loaded, before `main` for the program: calls to
`initialize` during the initialization of other static variables are not represented.
-/

namespace OpenMethod

/-- A base `registry<...>` of `default_registry`: with or without `runtime_checks`, or anything if the header is changed. -/
abbrev RegDef := Nat

/-- The program or a shared library: the definitions of `default_registry` in its translation units, those that include the header. -/
structure LinkUnit where
  defs : List RegDef
  deriving DecidableEq, Repr

/-- The modules that are loaded, in the order in which they were, and the value of `count`. -/
structure Linked where
  loaded : List LinkUnit
  count : Nat
  deriving DecidableEq, Repr

def Linked.start : Linked := { loaded := [], count := 0 }

/-- Some unit of the modules has definition `d`: `inc<d>` exists. -/
def hasDef (l : List LinkUnit) (d : RegDef) : Bool := l.any fun m => m.defs.contains d

/-- The variables `inc` that do not exist yet are created and initialized. -/
def Linked.load (s : Linked) (m : LinkUnit) : Linked :=
  { loaded := s.loaded ++ [m], count := s.count + (m.defs.dedup.filter fun d => !hasDef s.loaded d).length }

/-- Unloading a module. It may stay, when other modules use its variables, or always, as with GCC on Linux, where static members of templates are unique symbols. `count` goes
with the last module that uses it. -/
def Linked.unload (s : Linked) (i : Nat) (stays : Bool) : Linked :=
  if stays then s
  else
    let l := s.loaded.eraseIdx i
    { loaded := l, count := if l.all (fun m => m.defs.isEmpty) then 0 else s.count }

inductive LinkOp where
  | load (m : LinkUnit)
  | unload (i : Nat) (stays : Bool)
  deriving DecidableEq, Repr

def LinkOp.run (s : Linked) : LinkOp → Linked
  | .load m => s.load m
  | .unload i stays => s.unload i stays

def Linked.run (ops : List LinkOp) : Linked := ops.foldl LinkOp.run .start

/-- The registries of default_registry.hpp, and those of the user. -/
inductive RegName where
  | default
  /-- `indirect_registry` -/
  | indirect
  | user (n : Nat)
  deriving DecidableEq, Repr

/-- `odr_check<Registry>::count`: only `odr_check<default_registry>` has objects (default_registry.hpp 52). -/
def Linked.countOf (s : Linked) : RegName → Nat
  | .default => s.count
  | _ => 0

/-- On platforms where modules do not share variables, each module has its own `count`. -/
def LinkUnit.ownCount (m : LinkUnit) : Nat := m.defs.dedup.length

/-- `initialize` detects an inconsistency (initialize.hpp 1613). -/
def odrDetected (count : Nat) : Bool := 1 < count

end OpenMethod

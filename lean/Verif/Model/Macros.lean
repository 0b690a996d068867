import Verif.Model.Source

/-!
# Macros (macros.hpp 15-23, 65-99, 125-130)

`BOOST_OPENMETHOD(NAME, …)` defines two function templates: `NAME`, which forwards to the method, and `NAME_boost_openmethod_guide`, by which `BOOST_OPENMETHOD_OVERRIDE(NAME, …)` finds the
method. Both accept any arguments with which the method can be called (`enable_forwarder`).

Name lookup is represented in `Lookup`; here, `ms` are the methods of this name that are found where the macro is used, in the scope or by argument dependent lookup. Braced lists, and names of
overloaded functions, which no template accepts, are not represented as arguments.
-/

namespace OpenMethod

namespace Cpp

/-- An argument of type `a` can be passed to a parameter of type `p`. These are the conversions of `return` statements. -/
def passes (E : Cpp) (p a : CT) : Bool := E.returnOk (some p) (some a)

/-- `Method::fn(std::declval<A>()…)` is well-formed (macros.hpp 15-23); the parameters of the call operator have no `virtual_` (core.hpp 2432-2437). -/
def callable (E : Cpp) : List CT → List CT → Bool
  | [], [] => true
  | p :: ps, a :: as => E.passes p.removeVirtual a && E.callable ps as
  | _, _ => false

/-- The templates that take part in overload resolution: substitution fails in the others. -/
def candidates (E : Cpp) (ms : List (List CT)) (as : List CT) : List Nat := (List.range ms.length).filter fun m => (ms[m]?.map fun ps => E.callable ps as) = some true

/-- Overload resolution among the templates. All have the parameters `ForwarderParameters&&…`, so none is better, and none is more specialised: it fails unless there is a single candidate. -/
def locate (E : Cpp) (ms : List (List CT)) (as : List CT) : Option Nat :=
  match E.candidates ms as with
  | [m] => some m
  | _ => none

/-- `BOOST_OPENMETHOD_OVERRIDE` with parameters `qs` (macros.hpp 84-99, 125-130): the method to which the overrider is added; `none` if it is rejected. -/
def overrides (E : Cpp) (ms : List (List CT)) (qs : List CT) : Option Nat := do
  let m ← E.locate ms qs
  let ps ← ms[m]?
  if E.validOverrider ps qs then some m else none

end Cpp

end OpenMethod

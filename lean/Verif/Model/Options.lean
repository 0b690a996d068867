import Verif.Model.Trace

/-!
# Options of `initialize` (initialize.hpp 394-443, 503-516, 1611-1629, fast_perfect_hash.hpp 166-175)

`initialize` has a parameter pack `Options&&...`, and instantiates `compiler<Options...>` with the types that are deduced for it. Simplifications: options are objects of type
`trace`, `n2216`, or of another type, that nothing looks at; `volatile` is not represented. `odr_check` is in `Odr`.
-/

namespace OpenMethod

/-- The class of an object passed to `initialize`. -/
inductive OptClass
  | trace | n2216 | other (k : Nat)
  deriving DecidableEq, Repr

/-- An argument of `initialize`: an object of class `cls`, constant or not, an lvalue (as a variable) or an rvalue. `on` is the member of that name, if it is a `trace`. -/
structure OptArg where
  cls : OptClass
  on : Bool
  const : Bool
  lvalue : Bool
  deriving DecidableEq, Repr

/-- A template argument in `Options`: a class, `const` or not, a reference or not. -/
structure OptType where
  cls : OptClass
  const : Bool
  ref : Bool
  deriving DecidableEq, Repr

/-- Deduction for a parameter `Option&&`: a reference type for an lvalue; `const` is kept ([temp.deduct.call]). -/
def OptArg.deduced (a : OptArg) : OptType := { cls := a.cls, const := a.const, ref := a.lvalue }

/-- `mp_contains<mp_list<Options...>, Option>` (initialize.hpp 434-436, fast_perfect_hash.hpp 172), for a class. -/
def hasOption (os : List OptType) (c : OptClass) : Bool := os.contains { cls := c, const := false, ref := false }

/-- `std::get<trace>(options)` (initialize.hpp 512): the only element of type `trace`; ill-formed if there are several. `none`: does not compile. -/
def getTrace (as : List OptArg) : Option OptArg :=
  match as.filter fun a => a.deduced == { cls := .trace, const := false, ref := false } with
  | [a] => some a
  | _ => none

/-- `tr.on`, if `has_trace` (initialize.hpp 503-516). `none`: does not compile. -/
def traceOpt (as : List OptArg) : Option (Option Bool) :=
  if hasOption (as.map OptArg.deduced) .trace then (getTrace as).map fun a => some a.on else some none

/-- `initialize(options...)` (initialize.hpp 1611-1629) in a registry with or without an `output` policy; `none`: does not compile. `Registry::output::os` is used if `has_trace` (initialize.hpp
210, 325, 363, fast_perfect_hash.hpp 174). Field `n2216` of the environment is not used. -/
def initOptions (E : Env) (output : Bool) (p : Program) (s : RegState) (as : List OptArg) : Option (List Tok × Res InitOut) :=
  if hasOption (as.map OptArg.deduced) .trace && !output then none
  else (traceOpt as).map fun t => initRegistryT { E with n2216 := hasOption (as.map OptArg.deduced) .n2216 } p s t

end OpenMethod

import Verif.Model.Macros

/-!
# Programs written with macros (macros.hpp 15-150)

A program in which methods are declared with `BOOST_OPENMETHOD` and overriders with `BOOST_OPENMETHOD_OVERRIDE`: overriders and calls give the name of a method; the compiler chooses the method.

Name lookup is represented in `Lookup`; here, each overrider and each call has the list of the methods that are found by its name, as numbers in the list of methods.
-/

namespace OpenMethod

/-- `BOOST_OPENMETHOD(NAME, (params), ret)`. -/
structure MacroMethod where
  params : List CT
  ret : Option CT

/-- `BOOST_OPENMETHOD_OVERRIDE(NAME, (params), ret)`; `found` are the methods called `NAME` that name lookup finds. -/
structure MacroOverride where
  found : List Nat
  decl : OverrideDecl

structure MacroSource where
  cpp : Cpp
  rtti : Rtti
  ids : Option CT → TypeId
  uses : List UseClasses
  methods : List MacroMethod
  overriders : List MacroOverride

namespace MacroSource

variable (P : MacroSource)

/-- The parameters of the methods that are found. -/
def parameters (found : List Nat) : Option (List (List CT)) := found.mapM fun k => P.methods[k]?.map (·.params)

/-- The method called by `NAME(args…)`, with arguments of types `as` (macros.hpp 65-82); `none` if the call is rejected. -/
def lookup (found : List Nat) (as : List CT) : Option Nat := do
  let ms ← P.parameters found
  let i ← P.cpp.locate ms as
  found[i]?

/-- The method to which an overrider is added (macros.hpp 84-99, 125-130); `none` if it is rejected. -/
def target (o : MacroOverride) : Option Nat := do
  let ms ← P.parameters o.found
  let i ← P.cpp.overrides ms o.decl.params
  o.found[i]?

/-- The overriders of method number `k`. -/
def overridersOf (ts : List Nat) (k : Nat) : List OverrideDecl := (List.zip ts P.overriders).filterMap fun u => if u.1 = k then some u.2.decl else none

/-- The program, with overriders attached to methods; `none` if it is rejected. -/
def elaborate : Option Source := do
  let ts ← P.overriders.mapM P.target
  some { cpp := P.cpp, rtti := P.rtti, ids := P.ids, uses := P.uses, methods := P.methods.mapIdx fun k m => ⟨m.params, m.ret, P.overridersOf ts k⟩ }

end MacroSource

end OpenMethod

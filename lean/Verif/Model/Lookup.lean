import Verif.Model.MacroProgram

/-!
# Macros in namespaces (macros.hpp 47-150)

The macros declare, in the namespace where they are used: a function `NAME`, a guide, and a class template that contains the overriders (the container). Overriders and calls find methods by name lookup:
in the namespaces that enclose them ([basic.lookup.unqual]), through `using` directives and declarations, and in the namespaces associated with the types of the arguments ([basic.lookup.argdep]). This is
the part of the language that is represented here. Simplifications: inline namespaces, and entities of the same names that are not
introduced by the macros, are not represented; `using` declarations name the functions that they introduce, and there are none for containers.
-/

namespace OpenMethod

/-- A namespace: its name, then those of the namespaces that enclose it. `[]` is the global namespace. -/
abbrev Ns := List Nat

/-- `NAME`. The first three are those of the members of overriders (macros.hpp 107-110). -/
inductive Ident where
  | fn
  | next
  | hasNext
  | other (n : Nat)
  deriving DecidableEq, Repr

/-- The class of an overrider has a member of this name. -/
def Ident.isMember : Ident → Bool
  | .other _ => false
  | _ => true

namespace Ns

/-- The nearest namespace that encloses both, or is one of them and encloses the other. -/
def common : Ns → Ns → Ns
  | [], _ => []
  | n :: a, b => if (n :: a).isSuffixOf b then n :: a else common a b

variable {α : Type}

/-- `b` is `a`, or is nominated by directives, from namespace to namespace. -/
def reaches : List (Ns × Ns) → Ns → Ns → Bool
  | [], a, b => decide (a = b)
  | d :: ds, a, b => reaches ds a b || (reaches ds a d.1 && reaches ds d.2 b)

/-- What lookup finds in namespace `e`, for a name used in namespace `s`: the declarations `D e`; and those of the namespaces nominated in the namespaces that enclose `s`, as if they were in the nearest
namespace that contains the directive and the nominated namespace. The directives in a nominated namespace are taken as if they were also where it is nominated ([namespace.udir]). -/
def within (D : Ns → List α) (ds : List (Ns × Ns)) (s e : Ns) : List α :=
  D e ++ s.tails.flatMap fun a => ds.flatMap fun d => if reaches ds a d.1 && decide (common a d.2 = e) then D d.2 else []

/-- The declarations in the first of these namespaces that has any. -/
def firstOf (D : Ns → List α) (ds : List (Ns × Ns)) (s : Ns) : List Ns → List α
  | [] => []
  | e :: es =>
    match within D ds s e with
    | [] => firstOf D ds s es
    | l => l

/-- Unqualified name lookup, from namespace `s` outwards. -/
def unqualified (D : Ns → List α) (ds : List (Ns × Ns)) (s : Ns) : List α := firstOf D ds s s.tails

end Ns

/-- The namespaces of classes, and those associated with registries, with other types, and with the templates `virtual_ptr` and `virtual_` and the smart pointers. -/
structure Spaces where
  cls : Cls → Ns
  reg : Nat → List Ns
  other : Nat → List Ns
  vptr : List Ns
  smart : Smart → List Ns

/-- The namespaces associated with a type: for a class, its namespace and those of its bases; for a template, also those associated with its arguments. -/
def Spaces.associated (A : Spaces) (H : Hier) : CT → List Ns
  | .cls c => A.cls c :: ((H.subs c).filterMap (·.getLast?)).map A.cls
  | .reg n => A.reg n
  | .other n => A.other n
  | .lref t => A.associated H t
  | .cref t => A.associated H t
  | .rref t => A.associated H t
  | .ptr t => A.associated H t
  | .smart k t => A.smart k ++ A.associated H t
  | .virt t => A.vptr ++ A.associated H t
  | .vptr t r => A.vptr ++ (A.associated H t ++ A.associated H r)
  | .var _ => []
  | .uniq _ => []

/-- The type of an overrider: it is the argument of the container (macros.hpp 104-106). -/
abbrev Sig := List CT × Option CT

/-- The declarations that precede a macro, or a call, in its translation unit. `directives`: in the first namespace, `using namespace` with the second. `guides` and `names`: in a namespace, a `using`
declaration of the guide, or of the function, of a method. -/
structure Context where
  methods : List Nat
  directives : List (Ns × Ns)
  guides : List (Ns × Nat)
  names : List (Ns × Nat)
  overriders : List (Ns × Ident × Sig)

/-- `BOOST_OPENMETHOD`, used in a namespace. -/
structure NsMethod where
  ns : Ns
  name : Ident
  decl : MacroMethod

/-- `BOOST_OPENMETHOD_OVERRIDE`, used in a namespace. -/
structure NsOverride where
  ns : Ns
  name : Ident
  decl : OverrideDecl
  ctx : Context

def NsOverride.sig (o : NsOverride) : Sig := (o.decl.params, o.decl.ret)

/-- What precedes the specialisation of the container: its declaration is the first in the macro (macros.hpp 102-103). -/
def NsOverride.inner (o : NsOverride) : Context := { o.ctx with overriders := (o.ns, o.name, o.sig) :: o.ctx.overriders }

structure NsSource where
  cpp : Cpp
  rtti : Rtti
  ids : Option CT → TypeId
  uses : List UseClasses
  spaces : Spaces
  methods : List NsMethod
  overriders : List NsOverride

namespace NsSource

variable (P : NsSource)

/-- Method `k` was declared with this name. -/
def isNamed (name : Ident) (k : Nat) : Bool := (P.methods[k]?.map (·.name)) = some name

/-- The methods declared, or introduced by `using` declarations `us`, in a namespace. -/
def declared (C : Context) (us : List (Ns × Nat)) (name : Ident) (n : Ns) : List Nat :=
  (C.methods.filter fun k => P.isNamed name k && decide ((P.methods[k]?.map (·.ns)) = some n)) ++ (us.filter fun u => decide (u.1 = n) && P.isNamed name u.2).map (·.2)

/-- The containers declared in a namespace: that of the namespace, once a method or an overrider was declared (macros.hpp 81-82, 102-103). -/
def containers (C : Context) (name : Ident) (n : Ns) : List Ns :=
  if (C.methods.any fun k => P.isNamed name k && decide ((P.methods[k]?.map (·.ns)) = some n)) || C.overriders.any fun o => decide (o.1 = n) && decide (o.2.1 = name) then [n] else []

/-- Argument dependent lookup: the directives are ignored. -/
def byArguments (D : Ns → List Nat) (as : List CT) : List Nat := (as.flatMap (P.spaces.associated P.cpp.hier)).flatMap D

/-- The methods whose guides are found for an overrider with parameters `qs` (macros.hpp 84-99). The guide is looked up in a class, of which it is not a member. -/
def foundGuides (C : Context) (s : Ns) (name : Ident) (qs : List CT) : List Nat :=
  let D := P.declared C C.guides name
  (Ns.unqualified D C.directives s ++ P.byArguments D qs).dedup

/-- The methods that are found for a call `NAME(args…)`, by a function in namespace `s` or, if `body`, by an overrider. The members of the overrider are found first; there is then no argument dependent
lookup. -/
def foundNames (C : Context) (s : Ns) (body : Bool) (name : Ident) (as : List CT) : List Nat :=
  if body && name.isMember then [] else
  let D := P.declared C C.names name
  (Ns.unqualified D C.directives s ++ P.byArguments D as).dedup

/-- The container named in namespace `s`; `none` if there is none, or the name is ambiguous. -/
def container (C : Context) (s : Ns) (name : Ident) : Option Ns :=
  match (Ns.unqualified (P.containers C name) C.directives s).dedup with
  | [n] => some n
  | _ => none

/-- `BOOST_OPENMETHOD_OVERRIDER(NAME, …)` (macros.hpp 55-56): the namespace of the overrider; `none` if it is rejected. -/
def overriderNamed (C : Context) (s : Ns) (name : Ident) (g : Sig) : Option Ns :=
  match P.container C s name with
  | some n => if (n, name, g) ∈ C.overriders then some n else none
  | none => none

/-- The container can be specialised (macros.hpp 102-111): the name denotes the container of this namespace, and there is no such specialisation already. -/
def placed (o : NsOverride) : Bool := decide (P.container o.inner o.ns o.name = some o.ns) && decide ((o.ns, o.name, o.sig) ∉ o.ctx.overriders)

/-- The program, with the methods found by name lookup. -/
def macros : MacroSource where
  cpp := P.cpp
  rtti := P.rtti
  ids := P.ids
  uses := P.uses
  methods := P.methods.map (·.decl)
  overriders := P.overriders.map fun o => ⟨P.foundGuides o.ctx o.ns o.name o.decl.params, o.decl⟩

/-- The method to which an overrider is added; `none` if it is rejected. -/
def target (o : NsOverride) : Option Nat :=
  if P.placed o then P.macros.target ⟨P.foundGuides o.ctx o.ns o.name o.decl.params, o.decl⟩ else none

/-- The method that is called; `none` if the call is rejected. -/
def called (C : Context) (s : Ns) (body : Bool) (name : Ident) (as : List CT) : Option Nat := P.macros.lookup (P.foundNames C s body name as) as

/-- The program, with overriders attached to methods; `none` if it is rejected. -/
def elaborate : Option Source := if P.overriders.all P.placed then P.macros.elaborate else none

end NsSource

end OpenMethod

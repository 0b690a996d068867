/-!
# The names the macros declare

`include/boost/openmethod/macros.hpp`: the macros paste names together and
declare, at the scope where they are used, a handful of entities.  A name is
modelled as its list of characters.

* `idName`, `overridersName`, `guideName`, `gensym` — lines 45, 50, 52-53 and
  58-59;
* `expandUse` — the declarations of each macro at the scope where it is used:
  `BOOST_OPENMETHOD` (67-85), `BOOST_OPENMETHOD_DECLARE_OVERRIDER` (104-124),
  `BOOST_OPENMETHOD_DEFINE_OVERRIDER` (134-137, through
  `BOOST_OPENMETHOD_DETAIL_REGISTER_OVERRIDER`, 126-132),
  `BOOST_OPENMETHOD_OVERRIDE` (139-141), `BOOST_OPENMETHOD_INLINE_OVERRIDE`
  (143-147), `BOOST_OPENMETHOD_CLASSES` (149-150) and a direct use of
  `BOOST_OPENMETHOD_REGISTER` (47-48).

Simplifications.  One translation unit, all of whose macros are used in one
scope; `__COUNTER__` is a natural number that grows by one with each expansion,
and other code may expand it as well (`Use.counter`).  `NAME` is a single
identifier, not itself a macro.  The declarations that the macros place inside a
class are not modelled (`Lookup` deals with what they look up).
-/

namespace OpenMethod.Names

abbrev Name := List Char

/-- `_boost_openmethod` (50). -/
def idSuffix : Name :=
  ['_', 'b', 'o', 'o', 's', 't', '_', 'o', 'p', 'e', 'n', 'm', 'e', 't', 'h', 'o', 'd']

/-- `_overriders` (53). -/
def overridersSuffix : Name :=
  ['_', 'o', 'v', 'e', 'r', 'r', 'i', 'd', 'e', 'r', 's']

/-- `_guide` (59). -/
def guideSuffix : Name := ['_', 'g', 'u', 'i', 'd', 'e']

/-- `openmethod_gensym_` (45). -/
def gensymPrefix : Name :=
  ['o', 'p', 'e', 'n', 'm', 'e', 't', 'h', 'o', 'd', '_', 'g', 'e', 'n', 's', 'y', 'm', '_']

/-- `BOOST_OPENMETHOD_ID` (50). -/
def idName (m : Name) : Name := m ++ idSuffix

/-- `BOOST_OPENMETHOD_OVERRIDERS` (52-53). -/
def overridersName (m : Name) : Name := idName m ++ overridersSuffix

/-- `BOOST_OPENMETHOD_GUIDE` (58-59). -/
def guideName (m : Name) : Name := idName m ++ guideSuffix

/-- A decimal digit. -/
def digit (d : Nat) : Char := Char.ofNat (48 + d)

/-- What the preprocessor replaces `__COUNTER__` by: the number in base ten,
without leading zeros. -/
def decimal (n : Nat) : Name :=
  if n < 10 then [digit n] else decimal (n / 10) ++ [digit (n % 10)]

/-- `BOOST_OPENMETHOD_GENSYM` (45), when the counter is `n`. -/
def gensym (n : Nat) : Name := gensymPrefix ++ decimal n

/-- The entities that the macros declare. -/
inductive Entity where
  /-- the function template that users call (74-83) -/
  | forwarder (m : Name)
  /-- the class that identifies the method (68) -/
  | id (m : Name)
  /-- the function template that overriders find the method with (69-73) -/
  | guide (m : Name)
  /-- the class template of the overriders (84-85, 105-106) -/
  | overriders (m : Name)
  /-- a static object whose constructor registers something (47-48); the number
  tells one from the other -/
  | registrar (k : Nat)
  deriving DecidableEq

structure Decl where
  name : Name
  entity : Entity
  deriving DecidableEq

/-- A use of a macro. -/
inductive Use where
  /-- `BOOST_OPENMETHOD(m, …)` -/
  | method (m : Name)
  /-- `BOOST_OPENMETHOD_DECLARE_OVERRIDER(m, …)` -/
  | declareOverrider (m : Name)
  /-- `BOOST_OPENMETHOD_DEFINE_OVERRIDER(m, …)` -/
  | defineOverrider (m : Name)
  /-- `BOOST_OPENMETHOD_OVERRIDE(m, …)` -/
  | override (m : Name)
  /-- `BOOST_OPENMETHOD_INLINE_OVERRIDE(m, …)` -/
  | inlineOverride (m : Name)
  /-- `BOOST_OPENMETHOD_CLASSES(…)` -/
  | classes
  /-- `BOOST_OPENMETHOD_REGISTER(…)`, used directly -/
  | register
  /-- another expansion of `__COUNTER__` -/
  | counter
  deriving DecidableEq

/-- `BOOST_OPENMETHOD_REGISTER` (47-48).  The object is told from others by the
place where it is declared, of which there is one for each `k`. -/
def registerDecl (c k : Nat) : Decl := ⟨gensym c, .registrar k⟩

def overridersDecl (m : Name) : Decl := ⟨overridersName m, .overriders m⟩

/-- The declarations of a use of a macro, and the counter afterwards; `k` is the
place of the use. -/
def expandUse (c k : Nat) : Use → List Decl × Nat
  | .method m =>
    ([⟨idName m, .id m⟩, ⟨guideName m, .guide m⟩, ⟨m, .forwarder m⟩, overridersDecl m], c)
  | .declareOverrider m => ([overridersDecl m], c)
  | .defineOverrider _ => ([registerDecl c k], c + 1)
  | .override m => ([overridersDecl m, registerDecl c k], c + 1)
  | .inlineOverride m => ([overridersDecl m, registerDecl c k], c + 1)
  | .classes => ([registerDecl c k], c + 1)
  | .register => ([registerDecl c k], c + 1)
  | .counter => ([], c + 1)

/-- The declarations of the macros of a translation unit, in order. -/
def expandFrom (c k : Nat) : List Use → List Decl
  | [] => []
  | u :: us => (expandUse c k u).1 ++ expandFrom (expandUse c k u).2 (k + 1) us

def expand (us : List Use) : List Decl := expandFrom 0 0 us

end OpenMethod.Names

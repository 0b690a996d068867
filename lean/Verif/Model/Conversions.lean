import Verif.Model.Params

/-!
# Construction and assignment of virtual pointers

The constructors of `virtual_ptr` with one parameter and its assignment operators (core.hpp 721-1075, 1225-1698), with their constraints, and overload resolution between them.

Simplifications. An expression has one of the types in `Given`, which lists what the constructors can tell apart: objects of class type, pointers to objects, the smart pointers that
the library supports, virtual pointers, `nullptr`, and anything else. There are no objects of classes that derive from a smart pointer or a `virtual_ptr`, and no classes with
conversion functions. `volatile` does not occur. A deleter or another argument of a smart pointer has its default value. `final_virtual_ptr` uses a private constructor with two
parameters (core.hpp 680-687, 1173-1183), which cannot be called with one argument.
-/

namespace OpenMethod

/-- A class, or the same class with `const`. -/
structure Elem where
  cls : Cls
  const : Bool
  deriving DecidableEq, Repr

/-- The template argument of a `virtual_ptr`: a class, or a smart pointer to it. -/
inductive Held where
  | plain (e : Elem)
  | smart (k : Smart) (e : Elem)
  deriving DecidableEq, Repr

/-- `virtual_ptr<T, R>::element_type` (core.hpp 694, 1187). -/
def Held.elem : Held → Elem
  | .plain e => e
  | .smart _ e => e

/-- The type of an expression, without reference and `const`. -/
inductive Given where
  | object (c : Cls)
  | pointer (e : Elem)
  | smart (k : Smart) (e : Elem)
  | vptr (h : Held) (r : Nat)
  | null
  | other (n : Nat)
  deriving DecidableEq, Repr

/-- The value category of an expression, and whether its type is `const`. -/
inductive Cat where
  | lvalue
  | constLvalue
  | rvalue
  | constRvalue
  deriving DecidableEq, Repr

def Cat.isConst : Cat → Bool
  | .constLvalue => true
  | .constRvalue => true
  | _ => false

def Cat.isLvalue : Cat → Bool
  | .lvalue => true
  | .constLvalue => true
  | _ => false

/-! ## Candidates -/

/-- The type of a parameter, without reference and `const`: `Other`, `Other*`, `virtual_ptr<Other, Registry>`, the class itself, or `std::nullptr_t`. The first three are those of
templates. -/
inductive ParamKind where
  | any
  | pointer
  | vptr
  | self
  | null
  deriving DecidableEq, Repr

def ParamKind.isTemplate : ParamKind → Bool
  | .self => false
  | .null => false
  | _ => true

inductive ParamRef where
  | value
  | lref
  | cref
  | rref
  deriving DecidableEq, Repr

/-- What `Other` stands for. -/
inductive Deduced where
  | type (t : Given) (const : Bool) (ref : Bool)
  | elem (e : Elem)
  | held (h : Held)
  deriving DecidableEq, Repr

/-- What is done with the argument. -/
inductive How where
  /-- Both pointers are set to null. -/
  | null
  /-- The v-table is looked up, and the object or the pointer is copied. -/
  | acquireCopy
  /-- The v-table is looked up, and the pointer is moved. -/
  | acquireMove
  /-- Both pointers are copied. -/
  | copy
  /-- The pointer to the v-table is copied, and the pointer to the object is moved. -/
  | move
  deriving DecidableEq, Repr

/-- A constructor or an assignment operator. -/
structure Overload where
  kind : ParamKind
  ref : ParamRef
  how : How
  «explicit» : Bool := false
  deleted : Bool := false
  cond : Deduced → Bool := fun _ => true

/-- Template argument deduction ([temp.deduct.call]) in a `virtual_ptr` with registry `r`. `Other&&` is a forwarding reference. -/
def deduceOther (r : Nat) : ParamKind → ParamRef → Given → Cat → Option Deduced
  | .any, .lref, t, c => if c = .rvalue then none else some (.type t c.isConst false)
  | .any, .rref, t, c => some (.type t c.isConst c.isLvalue)
  | .any, _, t, _ => some (.type t false false)
  | .pointer, .value, .pointer e, _ => some (.elem e)
  | .vptr, .cref, .vptr h s, _ => if s = r then some (.held h) else none
  | .vptr, .lref, .vptr h s, c => if s = r ∧ c = .lvalue then some (.held h) else none
  | .vptr, .rref, .vptr h s, c => if s = r ∧ c = .rvalue then some (.held h) else none
  | _, _, _, _ => none

/-! ## Overload resolution -/

/-- An argument is passed directly, or through a temporary made by a converting constructor. -/
inductive Handover where
  | direct
  | converted
  deriving DecidableEq, Repr

/-- The overload is viable for an argument. `own` is the type of the virtual pointer; `conv` says that a temporary can be made from the argument by a converting constructor. -/
def Overload.viable (own : Given) (r : Nat) (conv : Bool) (t : Given) (c : Cat) (o : Overload) : Option Handover :=
  match o.kind with
  | .self => if t = own then (if o.ref = .rref ∧ c ≠ .rvalue then none else some .direct) else if conv then some .converted else none
  | .null => if t = .null then some .direct else none
  | k =>
    match deduceOther r k o.ref t c with
    | some a => if o.cond a then some .direct else none
    | none => none

/-- The reference to which the parameter collapses: a forwarding reference to an lvalue is an lvalue reference. -/
def Overload.bound (o : Overload) (c : Cat) : ParamRef := if o.kind = .any ∧ o.ref = .rref ∧ c.isLvalue then .lref else o.ref

/-- The conversion for the first overload is better ([over.ics.rank]). -/
def betterConversion (c : Cat) (a b : Overload × Handover) : Bool :=
  match a.2, b.2 with
  | .direct, .converted => true
  | .converted, .direct => false
  | p, _ =>
    let c := if p = .converted then .rvalue else c
    match a.1.bound c, b.1.bound c with
    | .rref, .lref => !c.isLvalue
    | .rref, .cref => !c.isLvalue
    | .lref, .cref => !c.isConst
    | _, _ => false

/-- The first template is more specialised ([temp.func.order], [temp.deduct.partial]). -/
def moreSpecialised (a b : Overload) : Bool :=
  match a.kind, b.kind with
  | .any, .any | .vptr, .vptr =>
    match a.ref, b.ref with
    | .cref, .lref => true
    | .cref, .rref => true
    | .lref, .rref => true
    | _, _ => false
  | .any, _ => false
  | _, .any => true
  | _, _ => false

/-- The first overload is a better match ([over.match.best]). -/
def betterOverload (c : Cat) (a b : Overload × Handover) : Bool :=
  betterConversion c a b || (!betterConversion c b a &&
    ((!a.1.kind.isTemplate && b.1.kind.isTemplate) || (a.1.kind.isTemplate && b.1.kind.isTemplate && moreSpecialised a.1 b.1)))

/-- Overload resolution finds no function, two, a deleted one, or one. -/
inductive Resolved where
  | noMatch
  | ambiguous
  | deleted
  | found (o : How) (p : Handover)
  deriving DecidableEq, Repr

def Resolved.ok : Resolved → Bool
  | .found _ _ => true
  | _ => false

/-- The overloads that are better than all others. -/
def bestOverloads (c : Cat) (l : List (Overload × Handover)) : List (Overload × Handover) :=
  l.zipIdx.filterMap fun a => if l.zipIdx.all fun b => b.2 = a.2 || betterOverload c a.1 b.1 then some a.1 else none

/-- The best of the viable overloads. -/
def pickOverload (c : Cat) : List (Overload × Handover) → Resolved
  | [] => .noMatch
  | v =>
    match bestOverloads c v with
    | [a] => if a.1.deleted then .deleted else .found a.1.how a.2
    | _ => .ambiguous

def resolveOverload (own : Given) (r : Nat) (conv : Bool) (l : List Overload) (t : Given) (c : Cat) : Resolved :=
  pickOverload c (l.filterMap fun o => (o.viable own r conv t c).map (o, ·))

/-! ## Constraints -/

namespace Cpp

/-- `std::is_constructible_v<T*, U*>` and `std::is_assignable_v<T*&, U*>`: the class of `U` is that of `T`, or has it as an unambiguous base, and `const` is not lost. -/
def pointerFrom (E : Cpp) (t u : Elem) : Bool := E.hier.isConvertible u.cls t.cls && (!u.const || t.const)

/-- `std::is_constructible_v<K<T>, K<U>…>` and `std::is_assignable_v<K<T>, K<U>…>` for an argument of category `c`: `std::unique_ptr` can only be moved. -/
def smartFrom (E : Cpp) (k : Smart) (t u : Elem) (c : Cat) : Bool := E.pointerFrom t u && (k ≠ .unique || c = .rvalue)

/-- `IsPolymorphic<Other>` and `Class*` from `Other*` (core.hpp 762-767). -/
def fromObject (E : Cpp) (t : Elem) : Deduced → Bool
  | .type (.object c) const false => E.poly c && E.pointerFrom t ⟨c, const⟩
  | _ => false

/-- `IsPolymorphic<Class>` and `Class*` from `Other*` (core.hpp 924-929). -/
def fromObjectAssign (E : Cpp) (t : Elem) : Deduced → Bool
  | .type (.object c) const false => E.poly t.cls && E.pointerFrom t ⟨c, const⟩
  | _ => false

/-- `IsPolymorphic<Class>` and `Class*` from `Other*` (core.hpp 812-817, 974-979). -/
def fromPointer (E : Cpp) (t : Elem) : Deduced → Bool
  | .elem u => E.poly t.cls && E.pointerFrom t u
  | _ => false

/-- `Class*` from `virtual_ptr<Other>::element_type*` (core.hpp 877-880, 1042-1045). -/
def fromVirtual (E : Cpp) (t : Elem) : Deduced → Bool
  | .held h => E.pointerFrom t h.elem
  | _ => false

/-- `SameSmartPtr<K<T>, Other>`, `IsPolymorphic<Other::element_type>` and `K<T>` from `Other` (core.hpp 1269-1276, 1316-1323, 1366-1373, 1513-1519, 1553-1559). If `Other` is a
reference, it has no `element_type`; if it is `const`, it is not the type obtained from `rebind`. -/
def fromSmart (E : Cpp) (k : Smart) (t : Elem) (c : Cat) : Deduced → Bool
  | .type (.smart l u) false false => l = k && E.poly u.cls && E.smartFrom k t u c
  | _ => false

/-- `SameSmartPtr<K<T>, Other>` and `K<T>` from `Other` (core.hpp 1408-1413, 1448-1453, 1597-1602, 1641-1646, 1686-1691). -/
def fromSmartVirtual (E : Cpp) (k : Smart) (t : Elem) (c : Cat) : Deduced → Bool
  | .held (.smart l u) => l = k && E.smartFrom k t u c
  | _ => false

/-! ## The overload sets -/

/-- The constructors of a plain `virtual_ptr` (core.hpp 721-884). Its copy and move constructors are implicit. -/
def plainConstructors (E : Cpp) (t : Elem) : List Overload :=
  [{ kind := .null, ref := .value, how := .null, «explicit» := true },
   { kind := .any, ref := .lref, how := .acquireCopy, cond := E.fromObject t },
   { kind := .pointer, ref := .value, how := .acquireCopy, cond := E.fromPointer t },
   { kind := .vptr, ref := .cref, how := .copy, cond := E.fromVirtual t },
   { kind := .self, ref := .cref, how := .copy },
   { kind := .self, ref := .rref, how := .copy }]

/-- The assignment operators of a plain `virtual_ptr` (core.hpp 924-1075). Its copy and move assignment operators are implicit. -/
def plainAssignments (E : Cpp) (t : Elem) : List Overload :=
  [{ kind := .any, ref := .lref, how := .acquireCopy, cond := E.fromObjectAssign t },
   { kind := .pointer, ref := .value, how := .acquireCopy, cond := E.fromPointer t },
   { kind := .vptr, ref := .cref, how := .copy, cond := E.fromVirtual t },
   { kind := .null, ref := .value, how := .null },
   { kind := .self, ref := .cref, how := .copy },
   { kind := .self, ref := .rref, how := .copy }]

/-- The constructors of a smart `virtual_ptr` (core.hpp 1225-1459). The defaulted copy constructor is deleted if the smart pointer cannot be copied. -/
def smartConstructors (E : Cpp) (k : Smart) (t : Elem) : List Overload :=
  [{ kind := .null, ref := .value, how := .null, «explicit» := true },
   { kind := .self, ref := .cref, how := .copy, deleted := k = .unique },
   { kind := .self, ref := .rref, how := .move },
   { kind := .any, ref := .cref, how := .acquireCopy, cond := E.fromSmart k t .constLvalue },
   { kind := .any, ref := .lref, how := .acquireCopy, cond := E.fromSmart k t .lvalue },
   { kind := .any, ref := .rref, how := .acquireMove, cond := E.fromSmart k t .rvalue },
   { kind := .vptr, ref := .cref, how := .copy, cond := E.fromSmartVirtual k t .constLvalue },
   { kind := .vptr, ref := .rref, how := .move, cond := E.fromSmartVirtual k t .rvalue }]

/-- The assignment operators of a smart `virtual_ptr` (core.hpp 1482-1698). As it has a move constructor and a copy assignment operator of its own, there is no implicit move
assignment operator. -/
def smartAssignments (E : Cpp) (k : Smart) (t : Elem) : List Overload :=
  [{ kind := .null, ref := .value, how := .null },
   { kind := .any, ref := .cref, how := .acquireCopy, cond := E.fromSmart k t .constLvalue },
   { kind := .any, ref := .rref, how := .acquireMove, cond := E.fromSmart k t .rvalue },
   { kind := .vptr, ref := .lref, how := .copy, cond := E.fromSmartVirtual k t .lvalue },
   { kind := .self, ref := .cref, how := .copy, deleted := k = .unique },
   { kind := .vptr, ref := .cref, how := .copy, cond := E.fromSmartVirtual k t .constLvalue },
   { kind := .vptr, ref := .rref, how := .move, cond := E.fromSmartVirtual k t .rvalue }]

def constructors (E : Cpp) : Held → List Overload
  | .plain t => E.plainConstructors t
  | .smart k t => E.smartConstructors k t

def assignments (E : Cpp) : Held → List Overload
  | .plain t => E.plainAssignments t
  | .smart k t => E.smartAssignments k t

/-- `virtual_ptr<H, R> p = e;`, passing and returning. A `virtual_ptr` of the same type initializes `p` directly ([dcl.init]); so does everything else, for a temporary with which `p` is
then initialized. Explicit constructors are not considered. -/
def convert (E : Cpp) (h : Held) (r : Nat) (t : Given) (c : Cat) : Resolved :=
  resolveOverload (.vptr h r) r false ((E.constructors h).filter fun o => !o.explicit) t c

/-- `virtual_ptr<H, R> p(e);`. -/
def construct (E : Cpp) (h : Held) (r : Nat) (t : Given) (c : Cat) : Resolved :=
  resolveOverload (.vptr h r) r (E.convert h r t c).ok (E.constructors h) t c

/-- `p = e;`. -/
def assign (E : Cpp) (h : Held) (r : Nat) (t : Given) (c : Cat) : Resolved :=
  resolveOverload (.vptr h r) r (E.convert h r t c).ok (E.assignments h) t c

end Cpp

/-- The ways of giving a value to a virtual pointer: `virtual_ptr<T> p = e;`, `virtual_ptr<T> p(e);` and `p = e;`. -/
inductive Form where
  | convert
  | construct
  | assign
  deriving DecidableEq, Repr

/-- What the compiler finds. -/
def Cpp.resolved (E : Cpp) : Form → Held → Nat → Given → Cat → Resolved
  | .convert => E.convert
  | .construct => E.construct
  | .assign => E.assign

end OpenMethod

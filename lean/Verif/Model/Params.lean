import Verif.Model.UseClasses

/-!
# Checks of parameter types (core.hpp 153-189, 498-520, 1930-1968, 2007-2062, 2616-2728)

What the compiler does with the parameter types of methods and overriders: which partial specialisation of a template it selects, and whether
static assertions and casts are accepted. The `rtti` policy is `std_rtti`.

Types are terms. Not represented: cv-qualifiers, except in `const T&`; access control (inheritance is public); conversion functions; specialisations of
the templates for user-defined types.
-/

namespace OpenMethod

/-- The smart pointers for which the library specialises `virtual_traits`. -/
inductive Smart where
  | shared
  | intrusive
  | unique
  deriving DecidableEq, Repr

/-- Types. `other n` are types that are not classes, references or pointers. `var` and `uniq` do not occur in programs: `var n` is a template
parameter, in a pattern, and `uniq n` the unique type that stands for it when patterns are compared. -/
inductive CT where
  | var (n : Nat)
  | uniq (n : Nat)
  | other (n : Nat)
  | cls (c : Cls)
  | reg (n : Nat)
  | lref (t : CT)
  | cref (t : CT)
  | rref (t : CT)
  | ptr (t : CT)
  | smart (k : Smart) (t : CT)
  | virt (t : CT)
  | vptr (t r : CT)
  deriving DecidableEq, Repr

namespace CT

/-- Template argument deduction ([temp.deduct.type]): `p` is a pattern, `t` a type without template parameters, `σ` what was deduced before. -/
def deduce : CT → CT → List (Nat × CT) → Option (List (Nat × CT))
  | .var n, t, σ =>
    match σ.lookup n with
    | some u => if u = t then some σ else none
    | none => some ((n, t) :: σ)
  | .uniq a, .uniq b, σ => if a = b then some σ else none
  | .other a, .other b, σ => if a = b then some σ else none
  | .cls a, .cls b, σ => if a = b then some σ else none
  | .reg a, .reg b, σ => if a = b then some σ else none
  | .lref p, .lref t, σ => deduce p t σ
  | .cref p, .cref t, σ => deduce p t σ
  | .rref p, .rref t, σ => deduce p t σ
  | .ptr p, .ptr t, σ => deduce p t σ
  | .smart k p, .smart l t, σ => if k = l then deduce p t σ else none
  | .virt p, .virt t, σ => deduce p t σ
  | .vptr p q, .vptr t u, σ =>
    match deduce p t σ with
    | some σ' => deduce q u σ'
    | none => none
  | _, _, _ => none

/-- The arguments of a template are deduced from left to right. -/
def deduceAll : List CT → List CT → List (Nat × CT) → Option (List (Nat × CT))
  | [], [], σ => some σ
  | p :: ps, t :: ts, σ =>
    match deduce p t σ with
    | some σ' => deduceAll ps ts σ'
    | none => none
  | _, _, _ => none

/-- Template parameters are replaced by unique types. -/
def freeze : CT → CT
  | .var n => .uniq n
  | .lref t => .lref t.freeze
  | .cref t => .cref t.freeze
  | .rref t => .rref t.freeze
  | .ptr t => .ptr t.freeze
  | .smart k t => .smart k t.freeze
  | .virt t => .virt t.freeze
  | .vptr t r => .vptr t.freeze r.freeze
  | t => t

end CT

/-- A partial specialisation: its arguments, and the condition of the `enable_if`, if there is one. -/
structure Partial (α : Type) where
  pats : List CT
  cond : List CT → Bool
  body : α

/-- The arguments match the specialisation ([temp.spec.partial.match]). -/
def Partial.matches {α : Type} (s : Partial α) (args : List CT) : Bool := (CT.deduceAll s.pats args []).isSome && s.cond args

/-- `s` is at least as specialised as `t` ([temp.spec.partial.order], [temp.func.order]). An `enable_if` is a non-deduced context. -/
def Partial.atLeast {α : Type} (s t : Partial α) : Bool := (CT.deduceAll t.pats (s.pats.map CT.freeze) []).isSome

def Partial.moreSpecialised {α : Type} (s t : Partial α) : Bool := s.atLeast t && !t.atLeast s

/-- What the compiler selects. -/
inductive Selected (α : Type) where
  | primary
  | special (a : α)
  | ambiguous
  deriving DecidableEq, Repr

/-- The specialisations in `l` that are more specialised than all others in it. -/
def best {α : Type} (l : List (Partial α)) : List (Partial α) :=
  l.zipIdx.filterMap fun si =>
    if l.zipIdx.all fun tj => tj.2 = si.2 || si.1.moreSpecialised tj.1 then some si.1 else none

def select {α : Type} (l : List (Partial α)) (args : List CT) : Selected α :=
  match l.filter (·.matches args) with
  | [] => .primary
  | l =>
    match best l with
    | [s] => .special s.body
    | _ => .ambiguous

/-! ## Classification of parameters -/

namespace CT

/-- `is_virtual` (core.hpp 153-160, 498-506). -/
def isVirtual : CT → Bool
  | .virt _ => true
  | .vptr _ _ => true
  | .lref (.vptr _ _) => true
  | .cref (.vptr _ _) => true
  | _ => false

/-- `is_virtual_ptr` (core.hpp 508-520). -/
def isVirtualPtr : CT → Bool
  | .vptr _ _ => true
  | .cref (.vptr _ _) => true
  | _ => false

def isLref : CT → Bool
  | .lref _ => true
  | .cref _ => true
  | _ => false

def isRref : CT → Bool
  | .rref _ => true
  | _ => false

/-- `same_reference_category` (core.hpp 2621-2627). -/
def sameReferenceCategory (t u : CT) : Bool := t.isLref = u.isLref && t.isRref = u.isRref

/-- `remove_virtual_` (core.hpp 162-173). -/
def removeVirtual : CT → CT
  | .virt t => t
  | t => t

/-- `virtual_ptr<T, R>::element_type` (core.hpp 690, 1181): the class of a class or of a smart pointer. -/
def element : CT → Option Cls
  | .cls c => some c
  | .smart _ (.cls c) => some c
  | _ => none

/-- `virtual_type` (core.hpp 175-185), in the registry `r`: what `virtual_traits` gives (core.hpp 247-338, 1853-1925, std_shared_ptr.hpp 57-180,
std_unique_ptr.hpp 18-62, boost_intrusive_ptr.hpp 20-120). `none` is `void`. References to other types than classes are covered by the specialisation for
`Class&` or `Class&&`, with that type as the class. -/
def virtualType (r : Nat) : CT → Option CT
  | .ptr t => some t
  | .smart _ (.cls c) => some (.cls c)
  | .cref (.smart .shared (.cls c)) => some (.cls c)
  | .cref (.smart .intrusive (.cls c)) => some (.cls c)
  | .vptr t (.reg n) => if n = r then t.element.map .cls else none
  | .cref (.vptr t (.reg n)) => if n = r then t.element.map .cls else some (.vptr t (.reg n))
  | .lref t => some t
  | .cref t => some t
  | .rref t => some t
  | _ => none

end CT

/-- What the compiler knows: the classes, which of them are polymorphic, for which of them `boost_openmethod_vptr` can be called, whether it implements C++20,
and the registry of the method. -/
structure Cpp where
  hier : Hier
  poly : Cls → Bool
  vptrFn : Cls → Bool
  cpp20 : Bool
  reg : Nat

namespace Cpp

/-! ## Methods -/

/-- `validate_method_parameter` (core.hpp 2034-2062) and the specialisations in std_shared_ptr.hpp 34-50. The parameters of the second are not marked with
`virtual_`. -/
def validMethodParam (E : Cpp) : CT → Bool
  | .virt t =>
    match t.virtualType E.reg with
    | some (.cls c) => E.vptrFn c || E.poly c
    | _ => false
  | .vptr _ (.reg n) => n = E.reg
  | .lref (.smart .shared _) => false
  | .lref (.vptr (.smart .shared _) (.reg n)) => n ≠ E.reg
  | _ => true

/-- The static assertions in `method` (core.hpp 2270-2276). -/
def validMethod (E : Cpp) (ps : List CT) : Bool := ps.all E.validMethodParam && decide (0 < ps.countP CT.isVirtual)

/-! ## Overriders -/

/-- `std::is_convertible<virtual_ptr<T, R>, virtual_ptr<U, R>>` (core.hpp 741-778, 1373-1409): a plain one from any that points to a derived class; a smart one from
one that contains the same kind of smart pointer. -/
def convertible (E : Cpp) : CT → CT → Bool
  | t, .cls c => t = .cls c || match t.element with
    | some d => E.hier.isConvertible d c
    | none => false
  | .smart k (.cls d), .smart l (.cls c) => k = l && E.hier.isConvertible d c
  | t, u => t = u

/-- The static assertions in the specialisations for two `virtual_ptr`s (core.hpp 2671-2705): `mk` makes the type of the parameter from a `virtual_ptr`. -/
def validPair (E : Cpp) (mk : CT → CT) (t u r : CT) (r' : CT) : Bool :=
  match r with
  | .reg n =>
    r = r' &&
    (match (mk (.vptr t r)).virtualType n, (mk (.vptr u r)).virtualType n with
    | some (.cls c), some (.cls d) => E.hier.isBaseOf c d
    | _, _ => false) &&
    E.convertible u t
  | _ => false

/-- The specialisations of `validate_overrider_parameter` (core.hpp 2628-2705), in this order. The primary template is rejected. -/
inductive Check where
  | categories
  | notVirtualPtr
  | same
  | virtual
  | virtualTwice
  | sameValue
  | value
  | constRef
  | rvalueRef
  deriving DecidableEq, Repr

def always : List CT → Bool := fun _ => true

def checks : List (Partial Check) :=
  [⟨[.var 0, .var 1], fun
      | [p, q] => p.isVirtualPtr && q.isVirtualPtr && !p.sameReferenceCategory q
      | _ => false, .categories⟩,
   ⟨[.var 0, .var 1], fun
      | [p, q] => p.isVirtualPtr && !q.isVirtualPtr
      | _ => false, .notVirtualPtr⟩,
   ⟨[.var 0, .var 0], always, .same⟩,
   ⟨[.virt (.var 0), .var 1], always, .virtual⟩,
   ⟨[.virt (.var 0), .virt (.var 1)], always, .virtualTwice⟩,
   ⟨[.vptr (.var 0) (.var 1), .vptr (.var 0) (.var 1)], always, .sameValue⟩,
   ⟨[.vptr (.var 0) (.var 1), .vptr (.var 2) (.var 3)], always, .value⟩,
   ⟨[.cref (.vptr (.var 0) (.var 1)), .cref (.vptr (.var 2) (.var 3))], always, .constRef⟩,
   ⟨[.rref (.vptr (.var 0) (.var 1)), .rref (.vptr (.var 2) (.var 3))], always, .rvalueRef⟩]

/-- The static assertions in the specialisations. -/
def checkOk (E : Cpp) (p q : CT) : Check → Bool
  | .categories => false
  | .notVirtualPtr => false
  | .same => true
  | .virtual => true
  | .virtualTwice => false
  | .sameValue => true
  | .value => match p, q with
    | .vptr t r, .vptr u r' => E.validPair id t u r r'
    | _, _ => false
  | .constRef => match p, q with
    | .cref (.vptr t r), .cref (.vptr u r') => E.validPair .cref t u r r'
    | _, _ => false
  | .rvalueRef => match p, q with
    | .rref (.vptr t r), .rref (.vptr u r') => E.validPair .rref t u r r'
    | _, _ => false

/-- `validate_overrider_parameter` (core.hpp 2621-2706): true if it compiles, in which case its value is true too. -/
def validOverriderParam (E : Cpp) (p q : CT) : Bool :=
  match select checks [p, q] with
  | .special k => E.checkOk p q k
  | .primary => false
  | .ambiguous => false

/-- `static_cast` from class `c` to class `d` is accepted. -/
def staticOk (E : Cpp) (c d : Cls) : Bool := (E.hier.staticCast c d []).isSome

/-- `dynamic_cast` from class `c` to class `d` is accepted ([expr.dynamic.cast]): to a base if it is unambiguous, to another class if `c` is polymorphic. -/
def dynamicOk (E : Cpp) (c d : Cls) : Bool := if E.hier.isBaseOf d c then E.hier.isConvertible c d else E.poly c

/-- `optimal_cast` and its variants (core.hpp 128-148). -/
def optimalOk (E : Cpp) (c d : Cls) : Bool := E.staticOk c d || E.dynamicOk c d

/-- The `cast`s of the `virtual_traits` of smart pointers, by value, from one that contains a `c` to one that contains a `d` (std_shared_ptr.hpp 83-126,
boost_intrusive_ptr.hpp 46-58, std_unique_ptr.hpp 41-56). The one of `std::unique_ptr` asks whether a `static_cast` to a `std::unique_ptr` is possible. -/
def smartCastOk (E : Cpp) (c d : Cls) : Smart → Bool
  | .shared => E.optimalOk c d
  | .intrusive => E.optimalOk c d
  | .unique => E.dynamicOk c d

/-- `virtual_traits<T>::cast<Q>` is accepted, and its result can be passed to a parameter of type `Q`, for a `virtual_<T>`, if `Q` has the same form as `T`, or is a
`const` reference instead of a reference, or differs from `T` in that smart pointers are passed by value or by reference. The one of `const std::shared_ptr<C>&` asks whether a `static_cast` from a
pointer to a `std::shared_ptr` is possible (std_shared_ptr.hpp 177), which it is only to a base and by value. For other forms, see `strayCast`. -/
def virtCastOk (E : Cpp) : CT → CT → Bool
  | .lref (.cls c), .lref (.cls d) => E.optimalOk c d
  | .lref (.cls c), .cref (.cls d) => E.optimalOk c d
  | .cref (.cls c), .cref (.cls d) => E.optimalOk c d
  | .rref (.cls c), .rref (.cls d) => E.optimalOk c d
  | .ptr (.cls c), .ptr (.cls d) => E.optimalOk c d
  | .smart k (.cls c), .smart l (.cls d) => k = l && E.smartCastOk c d k
  | .smart .shared (.cls c), .cref (.smart .shared (.cls d)) => E.cpp20 && E.optimalOk c d
  | .cref (.smart .shared (.cls c)), .smart .shared (.cls d) => E.dynamicOk c d
  | .cref (.smart .shared (.cls c)), .cref (.smart .shared (.cls d)) => E.dynamicOk c d
  | .cref (.smart .intrusive (.cls c)), .smart .intrusive (.cls d) => E.optimalOk c d
  | .cref (.smart .intrusive (.cls c)), .cref (.smart .intrusive (.cls d)) => E.optimalOk c d
  | _, _ => false

/-- `virtual_ptr<T>::cast<D>` (core.hpp 1087-1097, 1711-1768): its result is a `virtual_ptr` of the same kind. `moved`: the one for rvalues is called; the others cannot move a
`std::unique_ptr`. -/
def vptrCast (E : Cpp) (moved : Bool) (t : CT) (d : Cls) : Option CT :=
  match t with
  | .cls c => if (E.hier.isBaseOf c d || E.hier.isBaseOf d c) && E.optimalOk c d then some (.cls d) else none
  | .smart k (.cls c) =>
    if (E.hier.isBaseOf c d || E.hier.isBaseOf d c) && E.smartCastOk c d k && (moved || k ≠ .unique) then some (.smart k (.cls d)) else none
  | _ => none

/-- `virtual_ptr::cast`, and the conversion of its result to `virtual_ptr<u>`. -/
def castPtr (E : Cpp) (moved : Bool) (t u : CT) (d : Cls) : Bool :=
  match E.vptrCast moved t d with
  | some v => E.convertible v u
  | none => false

/-- What the overrider receives from `virtual_traits<T>::cast<Q>`. -/
inductive Handed where
  /-- the object, in the form required by the overrider -/
  | object
  /-- a null pointer -/
  | null
  /-- nothing: `std::bad_cast` is thrown -/
  | nothing
  /-- a reference to a `virtual_ptr` that does not exist any more -/
  | dangling
  /-- a smart pointer that owns the object, in addition to those that own it already -/
  | twice
  /-- a pointer that does not own the object, which no other pointer owns any more -/
  | lost
  deriving DecidableEq, Repr

/-- The value, if the cast is accepted. -/
def Handed.when (h : Handed) (b : Bool) : Option Handed := if b then some h else none

/-- `optimal_cast` (core.hpp 141-148) from a `C&` to a reference to a `virtual_ptr`. If a `static_cast` is possible, it makes a temporary `virtual_ptr` (core.hpp 762-767). Otherwise, no object of a class
derived from `C` is a `virtual_ptr`. -/
def optimalToVptr (E : Cpp) (c : Cls) : CT → Option Handed
  | .cls d => if E.hier.isConvertible c d then Handed.dangling.when (E.poly c) else Handed.nothing.when (E.poly c)
  | _ => Handed.nothing.when (E.poly c)

/-- The `cast` of `boost::intrusive_ptr` (boost_intrusive_ptr.hpp 46-58, 91-112), to an object of type `Q`: either `Q` is made from a pointer, or the result is a `boost::intrusive_ptr`, which is
converted to `Q`. -/
def intrusiveCast (E : Cpp) (c : Cls) : CT → Option Handed
  | .smart .intrusive (.cls d) => Handed.object.when (E.optimalOk c d)
  | .smart _ (.cls d) => Handed.twice.when (!E.staticOk c d && E.dynamicOk c d)
  | .vptr (.cls d) _ => Handed.object.when (!E.staticOk c d && E.dynamicOk c d && E.poly d)
  | .vptr (.smart .intrusive (.cls d)) _ => Handed.object.when (E.staticOk c d && E.poly d)
  | _ => none

/-- The `cast` of `virtual_ptr`s (core.hpp 1868-1925). Their registries are that of the method. -/
def vptrHanded (E : Cpp) (moved : Bool) (t : CT) (n : Nat) (u : CT) (m : Nat) : Option Handed :=
  match u.element with
  | some d => Handed.object.when (n = E.reg && m = E.reg && E.castPtr moved t u d)
  | none => none

/-- `virtual_traits<T>::cast<Q>` for the other forms of `Q` that are accepted (core.hpp 247-338, 1868-1925, and the headers for smart pointers). `virtual_traits` of references and pointers accept any
reference or pointer, that of `std::unique_ptr` anything that can be made from a pointer. A `dynamic_cast` to a class that is not in the program is accepted if the source is polymorphic. -/
def strayCast (E : Cpp) : CT → CT → Option Handed
  | .lref (.cls c), .lref (.smart _ _) => Handed.nothing.when (E.poly c)
  | .lref (.cls c), .lref (.vptr _ _) => Handed.nothing.when (E.poly c)
  | .lref (.cls c), .cref (.smart _ _) => Handed.nothing.when (E.poly c)
  | .lref (.cls c), .cref (.vptr t _) => E.optimalToVptr c t
  | .cref (.cls c), .cref (.smart _ _) => Handed.nothing.when (E.poly c)
  | .cref (.cls c), .cref (.vptr _ _) => Handed.nothing.when (E.poly c)
  | .rref (.cls c), .rref (.smart _ _) => Handed.nothing.when (E.poly c)
  | .rref (.cls c), .rref (.vptr t _) => E.optimalToVptr c t
  | .ptr (.cls c), .ptr (.smart _ _) => Handed.null.when (E.poly c)
  | .ptr (.cls c), .ptr (.vptr _ _) => Handed.null.when (E.poly c)
  | .smart .shared (.cls c), .rref (.smart .shared (.cls d)) => Handed.object.when (E.cpp20 && E.optimalOk c d)
  | .cref (.smart .shared (.cls c)), .rref (.smart .shared (.cls d)) => Handed.object.when (E.dynamicOk c d)
  | .smart .intrusive (.cls c), q => E.intrusiveCast c q
  | .cref (.smart .intrusive (.cls c)), .cref q => E.intrusiveCast c q
  | .cref (.smart .intrusive (.cls c)), .rref q => E.intrusiveCast c q
  | .cref (.smart .intrusive (.cls c)), q => E.intrusiveCast c q
  | .smart .unique (.cls c), .smart _ (.cls d) => Handed.object.when (E.dynamicOk c d)
  | .smart .unique (.cls c), .vptr (.cls d) _ => Handed.lost.when (E.dynamicOk c d && E.poly d)
  | .vptr t (.reg n), .vptr u (.reg m) => E.vptrHanded true t n u m
  | .cref (.vptr t (.reg n)), .vptr u (.reg m) => E.vptrHanded false t n u m
  | .cref (.vptr t (.reg n)), .cref (.vptr u (.reg m)) => E.vptrHanded false t n u m
  | .cref (.vptr t (.reg n)), .rref (.vptr u (.reg m)) => E.vptrHanded false t n u m
  | _, _ => none

/-- The cast of an argument marked with `virtual_`. `none`: it is rejected. -/
def handed (E : Cpp) (t q : CT) : Option Handed := if E.virtCastOk t q then some .object else E.strayCast t q

/-- `parameter_traits<P>::cast<Q>` (core.hpp 247-338, 1868-1925, 2007-2030) is accepted, and its result can be passed to a parameter of type `Q`. In the primary template,
`return value` is not accepted when the return type is an rvalue reference (before C++23). -/
def castOk (E : Cpp) : CT → CT → Bool
  | .virt t, q => (E.handed t q).isSome
  | .vptr t (.reg n), q =>
    if n = E.reg then
      match q with
      | .vptr u _ =>
        match u.element with
        | some d => E.castPtr true t u d
        | none => false
      | _ => false
    else
      match q with
      | .vptr u (.reg m) => n = m && E.convertible t u
      | _ => false
  | .cref (.vptr t (.reg n)), q =>
    if n = E.reg then
      match q with
      | .cref (.vptr u _) =>
        match u.element with
        | some d => E.castPtr false t u d
        | none => false
      | _ => false
    else
      match q with
      | .cref (.vptr u (.reg m)) => n = m && E.convertible t u
      | _ => false
  | .rref _, _ => false
  | p, q => p = q

/-- `thunk::fn` compiles (core.hpp 2710-2728), as far as the parameters are concerned. -/
def validOverrider (E : Cpp) : List CT → List CT → Bool
  | [], [] => true
  | p :: ps, q :: qs => E.validOverriderParam p q && E.castOk p q && E.validOverrider ps qs
  | _, _ => false

/-- `select_overrider_virtual_type` (core.hpp 1933-1960). -/
def overriderVirtualType (E : Cpp) : CT → CT → Option CT
  | .virt _, q => q.virtualType E.reg
  | .vptr _ (.reg n), .vptr u (.reg m) =>
    if n = E.reg ∧ m = E.reg then (CT.vptr u (.reg m)).virtualType E.reg else none
  | .cref (.vptr _ (.reg n)), .cref (.vptr u (.reg m)) =>
    if n = E.reg ∧ m = E.reg then (CT.cref (.vptr u (.reg m))).virtualType E.reg else none
  | _, _ => none

/-- `overrider_virtual_types` (core.hpp 1962-1968). -/
def overriderVirtualTypes (E : Cpp) (ps qs : List CT) : List CT := (List.zipWith E.overriderVirtualType ps qs).filterMap id

/-- The virtual parameter types of a method (core.hpp 187-189, 2175-2176, 2419-2423): `virtual_type` of the `virtual_types`. -/
def methodVirtualTypes (E : Cpp) (ps : List CT) : List (Option CT) := ((ps.filter CT.isVirtual).map CT.removeVirtual).map (CT.virtualType E.reg)

/-- `method::Arity` (core.hpp 2270-2274). -/
def arity (ps : List CT) : Nat := ps.countP CT.isVirtual

/-- The ids in the record of a method (core.hpp 92-100, 2278, 2402-2403, 2419-2423). `ids` are the static types; `none` is `void`. -/
def methodVp (E : Cpp) (ids : Option CT → TypeId) (ps : List CT) : List TypeId := (E.methodVirtualTypes ps).map ids

/-- The ids in the record of an overrider (core.hpp 2350, 2778-2779, 2796-2797): an array of `Arity` elements, initially zero. -/
def overriderVp (E : Cpp) (ids : Option CT → TypeId) (ps qs : List CT) : List TypeId :=
  let l := (E.overriderVirtualTypes ps qs).map fun t => ids (some t)
  l ++ List.replicate (arity ps - l.length) 0

end Cpp

end OpenMethod

import Verif.Model.Params
import Verif.Model.Thunk

/-!
# Return types of overriders (core.hpp 2246-2262, 2412-2417, 2710-2728, 2790-2791)

`thunk::fn` returns the result of the overrider, implicitly converted to the return type of the method. The library checks nothing else. The records contain the classes to which the return
types refer.

Return types are `Option CT`; `none` is `void`. Not represented: conversions of types that are not classes, pointers or references to them, smart pointers or `virtual_ptr`s; `nullptr`; conversion
functions and constructors of the classes of the program. Classes can be copied.
-/

namespace OpenMethod

namespace Cpp

/-- The type of an expression of type `u`: without the reference. -/
def valueType : CT → CT
  | .lref t => t
  | .cref t => t
  | .rref t => t
  | t => t

/-- The source of a conversion can be moved: it is not an lvalue. -/
def isRvalue : CT → Bool
  | .lref _ => false
  | .cref _ => false
  | _ => true

def holdsUnique : CT → Bool
  | .smart .unique _ => true
  | _ => false

/-- Conversions of an object of type `v` to an object of type `t` ([over.ics.user], [conv], and the constructors of smart pointers and `virtual_ptr`, core.hpp 741-778,
1258-1409). `moved`: the source is an rvalue. A `std::unique_ptr` cannot be copied, but it can be moved to a `std::shared_ptr`. A `boost::intrusive_ptr`, and a plain `virtual_ptr`, can be made from a
pointer. -/
def toObject (E : Cpp) (moved : Bool) : CT → CT → Bool
  | .cls d, .cls c => E.hier.isConvertible d c
  | .smart k (.cls d), .smart l (.cls c) => (k = l || (k = .unique && l = .shared)) && (moved || k ≠ .unique) && E.hier.isConvertible d c
  | .smart k (.cls d), .vptr (.smart l (.cls c)) _ => k = l && (moved || k ≠ .unique) && E.poly d && E.hier.isConvertible d c
  | .vptr u r, .vptr t r' => r = r' && (moved || !holdsUnique t) && E.convertible u t
  | .ptr u, .ptr t => u = t || match u, t with
    | .cls d, .cls c => E.hier.isConvertible d c
    | _, _ => false
  | .ptr (.cls d), .smart .intrusive (.cls c) => E.hier.isConvertible d c
  | .ptr (.cls d), .vptr (.cls c) _ => E.poly c && E.hier.isConvertible d c
  | .other n, .other m => n = m
  | _, _ => false

/-- A plain `virtual_ptr` is made from an lvalue. -/
def fromLvalue (E : Cpp) : CT → CT → Bool
  | .lref (.cls d), .vptr (.cls c) _ => E.poly d && E.hier.isConvertible d c
  | _, _ => false

/-- A reference can be bound directly to the object to which the source refers, without a temporary ([dcl.init.ref]). -/
def bindsTo (E : Cpp) : CT → CT → Bool
  | .lref u, .lref t => same u t
  | .lref u, .cref t => same u t
  | .cref u, .cref t => same u t
  | .rref u, .cref t => same u t
  | .rref u, .rref t => same u t
  | _, _ => false
where
  same (u t : CT) : Bool := u = t || match u, t with
    | .cls d, .cls c => E.hier.isConvertible d c
    | _, _ => false

/-- The result of an overrider that returns a `u` can be converted to an object of type `t`. -/
def toValue (E : Cpp) (u t : CT) : Bool := E.fromLvalue u t || E.toObject (isRvalue u) (valueType u) t

/-- A reference is bound to a temporary, which does not outlive the `return` statement. -/
def bindsTemporary (E : Cpp) : CT → CT → Bool
  | u, .cref t => !E.bindsTo u (.cref t) && E.toValue u t
  | u, .rref t => !E.bindsTo u (.rref t) && E.toValue u t
  | _, _ => false

/-- An overrider that returns a `u` can be added to a method that returns a `t` (core.hpp 2710-2728). -/
def returnOk (E : Cpp) : Option CT → Option CT → Bool
  | none, none => true
  | some t, some u =>
    match t with
    | .lref _ => E.bindsTo u t
    | .cref _ => E.bindsTo u t || E.bindsTemporary u t
    | .rref _ => E.bindsTo u t || E.bindsTemporary u t
    | t => t = u || E.toValue u t
  | _, _ => false

/-- The type in the record of a method or overrider (core.hpp 2416-2417, 2790-2791): `none` is `void`. -/
def returnType (E : Cpp) (t : Option CT) : Option CT := t.bind (CT.virtualType E.reg)

end Cpp

/-- The result of an overrider: nothing, an argument of the caller or another object that is designated in the same way, or another value. -/
abbrev Result := Option Passed

/-- `return Overrider(…)` (core.hpp 2723): the result of the overrider, converted from the class of its return type to that of the method. `dangling`: a reference is bound to a temporary. -/
def returned (H : Hier) (dangling : Bool) (c d : Option Cls) : Result → Res Result
  | none => .ok none
  | some (.other v) => if dangling then .ub else .ok (some (.other v))
  | some (.virt a) =>
    if dangling then .ub else
    match c, d with
    | some c, some d => do
      let a' ← Res.ofOption (convertArg H d c a)
      .ok (some (.virt a'))
    | _, _ => .ub

end OpenMethod

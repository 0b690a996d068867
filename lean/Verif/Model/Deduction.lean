import Verif.Model.Conversions

/-!
# Virtual pointers whose type is deduced

The deduction guides of `virtual_ptr` (core.hpp 1788-1806) and `final_virtual_ptr` (core.hpp 583-622), which find the type of a virtual pointer from that of an argument.

Simplifications: as in `Verif.Model.Conversions`. Arguments are objects, pointers to objects, smart pointers and virtual pointers; `nullptr` and the arguments of other types are treated as
rejected. `rtti::is_polymorphic` is false for smart and virtual pointers.
-/

namespace OpenMethod

/-- A template argument of `virtual_ptr`: a class, a smart pointer, a pointer or a virtual pointer, the last three perhaps with `const`. -/
inductive TArg where
  | cls (e : Elem)
  | smart (k : Smart) (e : Elem) (const : Bool)
  | pointer (e : Elem) (const : Bool)
  | vptr (h : Held) (r : Nat) (const : Bool)
  deriving DecidableEq, Repr

/-- The type of an argument: what `Class` stands for in the guides, which both give the same (a forwarding reference to an lvalue is less specialised than `Class&`), and
`std::remove_reference_t<Arg>` in `final_virtual_ptr`. -/
def Given.targ : Given → Cat → Option TArg
  | .object o, c => some (.cls ⟨o, c.isConst⟩)
  | .smart k e, c => some (.smart k e c.isConst)
  | .pointer e, c => some (.pointer e c.isConst)
  | .vptr h r, c => some (.vptr h r c.isConst)
  | _, _ => none

/-- The virtual pointers that `Verif.Model.Conversions` describes. `IsSmartPtr` (core.hpp 427-434, 477) tells the two templates apart: `virtual_traits` has `rebind` for smart pointers without
`const` (std_shared_ptr.hpp 58-64, std_unique_ptr.hpp 19-61, boost_intrusive_ptr.hpp 19-25). Anything else is the argument of the main template. -/
def TArg.held : TArg → Option Held
  | .cls e => some (.plain e)
  | .smart k e false => some (.smart k e)
  | _ => none

namespace Cpp

/-- `virtual_ptr(e)`: the type, and what is done with the argument. For a virtual pointer, the copy deduction candidate is more specialised than the guides. The guides give the default
registry, `d`. The main template has no constructor for smart pointers and pointers, if those are its argument: they are not polymorphic. -/
def deduced (E : Cpp) (d : Nat) (g : Given) (c : Cat) : Option (Held × Nat × Resolved) :=
  match g with
  | .vptr h r => some (h, r, E.construct h r g c)
  | _ =>
    match (g.targ c).bind TArg.held with
    | some h => some (h, d, E.construct h d g c)
    | none => none

end Cpp

/-! ## final_virtual_ptr -/

/-- `virtual_traits<Arg>::virtual_type`, the class of which the v-table is used: a class, or a type that is not a class of the program. -/
inductive VClass where
  | cls (c : Cls)
  | targ (t : TArg)
  deriving DecidableEq, Repr

/-- `virtual_traits<Arg, Registry>::virtual_type` (core.hpp 246-339, 1850-1931, std_shared_ptr.hpp 58-67, 141-151, std_unique_ptr.hpp 19-22, boost_intrusive_ptr.hpp
19-28, 65-75), for a reference or
not. There are specialisations for references to `const std::shared_ptr` and `const boost::intrusive_ptr`, but not for the other references to smart pointers, to which that for `Class&`
applies. -/
def virtualType (r : Nat) : TArg → Bool → Option VClass
  | .cls e, true => some (.cls e.cls)
  | .cls _, false => none
  | .smart .unique e true, true => some (.targ (.smart .unique e false))
  | .smart _ e true, true => some (.cls e.cls)
  | .smart k e false, true => some (.targ (.smart k e false))
  | .smart _ e false, false => some (.cls e.cls)
  | .smart _ _ true, false => none
  | .pointer e _, true => some (.targ (.pointer e false))
  | .pointer e false, false => some (.cls e.cls)
  | .pointer _ true, false => none
  | .vptr h s true, true => if s = r then some (.cls h.elem.cls) else some (.targ (.vptr h s false))
  | .vptr h s false, true => some (.targ (.vptr h s false))
  | .vptr h s false, false => if s = r then some (.cls h.elem.cls) else none
  | .vptr _ _ true, false => none

/-- `static_assert(!std::is_pointer_v<Class>)` (core.hpp 590-593): the other assertions always hold. -/
def VClass.asserted : VClass → Bool
  | .targ (.pointer _ _) => false
  | _ => true

def TArg.isConst : TArg → Bool
  | .cls e => e.const
  | .smart _ _ k => k
  | .pointer _ k => k
  | .vptr _ _ k => k

/-- The private constructors (core.hpp 680-687, 1173-1183), for an argument of the type in the template argument. In the main template, it is bound to `Other&`. In the other one, `Other&` is more
specialised than `Arg&&` if the argument is an lvalue, and then initialises a smart pointer with the address of the argument, which is an error. -/
def TArg.privateConstructor (t : TArg) (lref : Bool) : Bool :=
  match t.held with
  | some (.smart _ _) => !lref
  | _ => lref || t.isConst

/-- `final_virtual_ptr<R>(e)` (core.hpp 583-622): the template argument of the result, and the class of which `static_vptr` is used. -/
def finalPtr (r : Nat) (g : Given) (c : Cat) : Option (TArg × VClass) :=
  match g.targ c with
  | none => none
  | some t =>
    match virtualType r t c.isLvalue with
    | none => none
    | some v => if v.asserted && t.privateConstructor c.isLvalue then some (t, v) else none

/-- `make_shared_virtual<Class>`, `make_unique_virtual<Class>` and `make_boost_intrusive_virtual<Class>` (std_shared_ptr.hpp 206-213, std_unique_ptr.hpp 82-89, boost_intrusive_ptr.hpp 135-142): the
argument is the value of a call or of a conversion. -/
def makeVirtual (k : Smart) (r : Nat) (e : Elem) : Option (TArg × VClass) := finalPtr r (.smart k e) .rvalue

end OpenMethod

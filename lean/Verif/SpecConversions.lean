import Verif.SpecThunk
import Verif.Model.Conversions

/-!
# Specification of the construction and assignment of virtual pointers

The documented requirements (core.hpp 735-1065, 1233-1691), for each kind of argument. "`Other*` must be constructible from `Class*`" is read as the converse, without which a
`virtual_ptr<Animal>` could not be made from a `Dog`.
-/

namespace OpenMethod

namespace Cpp

/-- A pointer to `u` can be converted to a pointer to `t`. -/
def PointerConv (E : Cpp) (u t : Elem) : Prop := E.hier.Unambiguous u.cls t.cls ∧ (u.const = true → t.const = true)

/-- What can be given to `virtual_ptr<h, r>`, according to the documentation. -/
inductive Permitted (E : Cpp) : Form → Held → Nat → Given → Cat → Prop
  /-- `nullptr`: the constructor is explicit. -/
  | null {f h r c} (hf : f ≠ .convert) : Permitted E f h r .null c
  /-- A reference to a polymorphic object of a derived class. -/
  | object {f t r o c} (hc : c = .lvalue ∨ c = .constLvalue) (hp : E.poly o = true) (hu : E.PointerConv ⟨o, decide (c = .constLvalue)⟩ t) :
      Permitted E f (.plain t) r (.object o) c
  /-- A pointer to a polymorphic object of a derived class. -/
  | pointer {f t r u c} (hp : E.poly u.cls = true) (hu : E.PointerConv u t) : Permitted E f (.plain t) r (.pointer u) c
  /-- Any virtual pointer to a derived class. -/
  | vptr {f t r h c} (hu : E.PointerConv h.elem t) : Permitted E f (.plain t) r (.vptr h r) c
  /-- A smart pointer of the same kind to a polymorphic derived class. A `std::unique_ptr` must be moved. -/
  | smart {f k t r u c} (hp : E.poly u.cls = true) (hu : E.PointerConv u t) (hk : k = .unique → c = .rvalue) : Permitted E f (.smart k t) r (.smart k u) c
  /-- A virtual pointer that contains a smart pointer of the same kind to a derived class. -/
  | smartVptr {f k t r u c} (hu : E.PointerConv u t) (hk : k = .unique → c = .rvalue) : Permitted E f (.smart k t) r (.vptr (.smart k u) r) c

/-- A class that derives from a polymorphic class is polymorphic. -/
def PolyInherited (E : Cpp) : Prop := ∀ c b, E.hier.Unambiguous c b → E.poly b = true → E.poly c = true

/-- What is done with the argument itself, also if a temporary is made from it. -/
def done (E : Cpp) (f : Form) (h : Held) (r : Nat) (t : Given) (c : Cat) : Option How :=
  match E.resolved f h r t c with
  | .found o .direct => some o
  | .found _ .converted =>
    match E.convert h r t c with
    | .found o _ => some o
    | _ => none
  | _ => none

end Cpp

/-- The v-table is that of the dynamic class of the object. -/
def How.acquires : How → Prop
  | .acquireCopy => True
  | .acquireMove => True
  | _ => False

/-- The argument loses the object. -/
def How.moves : How → Prop
  | .acquireMove => True
  | .move => True
  | _ => False

/-- The class of the object that an argument refers to, with `const` if the object cannot be changed through the argument. -/
def Given.elem : Given → Cat → Option Elem
  | .object o, c => some ⟨o, c.isConst⟩
  | .pointer u, _ => some u
  | .smart _ u, _ => some u
  | .vptr h _, _ => some h.elem
  | _, _ => none

/-- The type of an expression, as one of the types in the model of parameters and return types, where classes are not `const`. -/
inductive Given.Is : Given → CT → Prop
  | object {c} : Is (.object c) (.cls c)
  | pointer {c} : Is (.pointer ⟨c, false⟩) (.ptr (.cls c))
  | smart {k c} : Is (.smart k ⟨c, false⟩) (.smart k (.cls c))
  | plain {c n} : Is (.vptr (.plain ⟨c, false⟩) n) (.vptr (.cls c) (.reg n))
  | virtual {k c n} : Is (.vptr (.smart k ⟨c, false⟩) n) (.vptr (.smart k (.cls c)) (.reg n))
  | other {n} : Is (.other n) (.other n)

/-- The value of a call of a function with a return type, as an expression. -/
inductive Given.Returned : Given → Cat → CT → Prop
  | value {g u} : g.Is u → Returned g .rvalue u
  | lref {g u} : g.Is u → Returned g .lvalue (.lref u)
  | cref {g u} : g.Is u → Returned g .constLvalue (.cref u)
  | rref {g u} : g.Is u → Returned g .rvalue (.rref u)

end OpenMethod

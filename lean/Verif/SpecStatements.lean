import Verif.SpecPtr
import Verif.SpecCpp
import Verif.SpecDeduction
import Verif.Model.Statements

/-!
# Specification of the statements that give values to virtual pointers
-/

namespace OpenMethod

namespace PtrTypes

/-- An object of class `c`, or of a class that derives from it. -/
def Instance (T : PtrTypes) (o : Obj) (c : Cls) : Prop := ∃ d, T.id d = o.type ∧ T.cpp.hier.Inherits d c

/-- An object of a registered class that derives from `c`. -/
def Suits (T : PtrTypes) (p : Program) (o : Obj) (c : Cls) : Prop := p.HasId o.type ∧ T.Instance o c

/-- The `static_vptr` variables are those of the classes; classes are defined. -/
structure Fits (T : PtrTypes) (p : Program) : Prop where
  wf : T.cpp.hier.WF
  defined : ∀ i, T.cpp.hier.Defined (T.type i).elem.cls
  var : ∀ c, p.HasId (T.id c) → p.StaticVar (p.rtti.ti (T.id c)) (T.var c)

end PtrTypes

namespace Statement

def target : Statement → Nat
  | .give _ i _ _ => i
  | .final i _ _ => i

def operand : Statement → Operand
  | .give _ _ x _ => x
  | .final _ x _ => x

def cat : Statement → Cat
  | .give _ _ _ c => c
  | .final _ _ c => c

/-- A variable is not used in its own initialization. -/
def NotSelf : Statement → Prop
  | .give .assign _ _ _ => True
  | s => s.operand ≠ .vptr s.target

/-- The objects in the operand have the declared class, or one that derives from it. For `final_virtual_ptr`, they have the declared class. -/
def Typed (T : PtrTypes) (p : Program) : Statement → Prop
  | .give _ _ x _ =>
    match x with
    | .object c o => T.Suits p o c
    | .pointer e q => ∀ o ∈ q, T.Suits p o e.cls
    | .smart _ e q => ∀ o ∈ q, T.Suits p o e.cls
    | _ => True
  | .final _ x _ =>
    match x with
    | .object c o => p.HasId o.type ∧ o.type = T.id c
    | .smart _ e q => ∀ o ∈ q, p.HasId o.type ∧ o.type = T.id e.cls
    | _ => True

/-- There are no null pointers, except smart pointers from which virtual pointers are constructed or which are moved. -/
def NotNull : Statement → Prop
  | .give f _ x c =>
    match x with
    | .pointer _ q => q ≠ none
    | .smart _ _ q => f = .assign → c ≠ .rvalue → q ≠ none
    | _ => True
  | .final _ x _ =>
    match x with
    | .smart _ _ q => q ≠ none
    | _ => True

end Statement

/-- The object that an operand designates. -/
def Operand.designated (w : Ptrs) : Operand → ObjPtr
  | .object _ o => .to o
  | .pointer _ q => .ofOption q
  | .smart _ _ q => .ofOption q
  | .vptr j => (w j).obj
  | .null => .null

/-- The target now designates what the operand designated, and has property `C`; a virtual pointer that was moved to one that owns the object is null; no other variable has changed. -/
def GivesBy (C : VirtualPtr → Prop) (T : PtrTypes) (w w' : Ptrs) (n : Nat) (st : Statement) : Prop :=
  (w' st.target).obj = st.operand.designated w ∧ C (w' st.target) ∧
  ∀ k, k ≠ st.target → k ≠ n →
    (st.operand = .vptr k ∧ st.cat = .rvalue ∧ (∃ q t, T.type st.target = .smart q t) → w' k = { vp := .null, obj := .null }) ∧
    (¬ (st.operand = .vptr k ∧ st.cat = .rvalue ∧ ∃ q t, T.type st.target = .smart q t) → w' k = w k)

/-- The target also designates the v-table of the class of the object. -/
def Gives (T : PtrTypes) (p : Program) (s : RegState) (w w' : Ptrs) (n : Nat) (st : Statement) : Prop := GivesBy (Consistent p s) T w w' n st

/-- A variable that the statement does not mention, for a temporary of the type of the target. -/
def PtrTypes.Spare (T : PtrTypes) (st : Statement) (n : Nat) : Prop := n ≠ st.target ∧ st.operand ≠ .vptr n ∧ T.type n = T.type st.target

/-- The values of the variables of a program, all null at first, after statements that the compiler accepts. -/
inductive PtrTypes.Reach (T : PtrTypes) (cfg : Config) (p : Program) (s : RegState) : Ptrs → Prop
  | start : Reach T cfg p s fun _ => { vp := .null, obj := .null }
  | step {w w' st n l e} : Reach T cfg p s w → T.Spare st n → T.ops n st = some l → st.NotSelf → st.Typed T p → st.NotNull →
      runOps (T.env cfg) s w l = .ok (w', e) → Reach T cfg p s w'

end OpenMethod

import Verif.Model.Deduction
import Verif.Model.VirtualPtr

/-!
# Statements that give values to virtual pointers

The overload that the compiler selects (`Verif.Model.Conversions`) for each statement, and what it does (`Verif.Model.VirtualPtr`).

Simplifications: as in these modules. All virtual pointers have the same registry. Smart pointers that are not in virtual pointers are values: that they are null when they have been moved from is
not represented.
-/

namespace OpenMethod

/-- The variables of a program that are virtual pointers, with their types; and, for each class, a type id and the `static_vptr` variable. -/
structure PtrTypes where
  cpp : Cpp
  type : Nat → Held
  reg : Nat
  id : Cls → TypeId
  var : Cls → VarId

def Held.kind : Held → PtrKind
  | .plain _ => .plain
  | .smart .shared _ => .shared
  | .smart .intrusive _ => .intrusive
  | .smart .unique _ => .unique

/-- An expression: the class, as declared, of an object or of what a pointer points to, and its value; a virtual pointer; or `nullptr`. -/
inductive Operand where
  | object (c : Cls) (o : Obj)
  | pointer (e : Elem) (q : Option Obj)
  | smart (k : Smart) (e : Elem) (q : Option Obj)
  | vptr (j : Nat)
  | null
  deriving DecidableEq, Repr

/-- Its type. -/
def Operand.given (T : PtrTypes) : Operand → Given
  | .object c _ => .object c
  | .pointer e _ => .pointer e
  | .smart k e _ => .smart k e
  | .vptr j => .vptr (T.type j) T.reg
  | .null => .null

inductive Statement where
  /-- `virtual_ptr<T> i = x;`, `virtual_ptr<T> i(x);` or `i = x;` -/
  | give (f : Form) (i : Nat) (x : Operand) (c : Cat)
  /-- `auto i = final_virtual_ptr<R>(x);` -/
  | final (i : Nat) (x : Operand) (c : Cat)
  deriving DecidableEq, Repr

/-- What a constructor is called with. -/
def How.source : How → Operand → Option PtrSource
  | .null, .null => some .nullptr
  | .acquireCopy, .object _ o => some (.ref o)
  | .acquireCopy, .pointer _ q => some (.pointer q)
  | .acquireCopy, .smart _ _ q => some (.smart q)
  | .acquireMove, .smart _ _ q => some (.smart q)
  | .copy, .vptr j => some (.copy j)
  | .move, .vptr j => some (.move j)
  | _, _ => none

/-- What an assignment operator is called with. -/
def How.assigned : How → Operand → Option AssignSource
  | .null, .null => some .nullptr
  | .acquireCopy, .object _ o => some (.object (some o))
  | .acquireCopy, .pointer _ q => some (.object q)
  | .acquireCopy, .smart _ _ q => some (.smart q)
  | .acquireMove, .smart _ _ q => some (.smartMove q)
  | .copy, .vptr j => some (.copy j)
  | .move, .vptr j => some (.move j)
  | _, _ => none

def Form.op (f : Form) (i : Nat) (x : Operand) (o : How) : Option PtrOp :=
  match f with
  | .assign => (o.assigned x).map (.assign i)
  | _ => (o.source x).map (.construct i)

namespace PtrTypes

/-- The operations that a statement consists of. Variable `n` is the temporary, if there is one. -/
def ops (T : PtrTypes) (n : Nat) : Statement → Option (List PtrOp)
  | .give f i x c =>
    match T.cpp.resolved f (T.type i) T.reg (x.given T) c with
    | .found o .direct => (f.op i x o).map ([·])
    | .found o .converted =>
      match T.cpp.convert (T.type i) T.reg (x.given T) c with
      | .found a _ => do
        let a ← Form.convert.op n x a
        let b ← f.op i (.vptr n) o
        some [a, b]
      | _ => none
    | _ => none
  | .final i x c =>
    match finalPtr T.reg (x.given T) c with
    | some (t, .cls k) =>
      if t.held = some (T.type i) then
        match x with
        | .object _ o => some [.construct i (.final (some o) (T.cpp.poly k) (T.id k) (T.var k))]
        | .smart _ _ q => some [.construct i (.final q (T.cpp.poly k) (T.id k) (T.var k))]
        | _ => none
      else none
    | _ => none

/-- The model of values knows which smart pointer, if any, a variable contains. -/
def env (T : PtrTypes) (cfg : Config) : PtrEnv := { cfg := cfg, cxx20 := T.cpp.cpp20, kind := fun i => (T.type i).kind }

end PtrTypes

/-- Operations are executed one after the other, until there is an exception. -/
def runOps (X : PtrEnv) (s : RegState) (w : Ptrs) : List PtrOp → Res (Ptrs × VirtualPtr.End)
  | [] => .ok (w, .returned)
  | op :: ops => do
    let r ← op.run X s w
    if r.2 = .returned then runOps X s r.1 ops else .ok r

end OpenMethod

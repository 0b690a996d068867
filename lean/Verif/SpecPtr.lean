import Verif.SpecRegistry
import Verif.Model.VirtualPtr

/-! # Specification of virtual_ptr -/

namespace OpenMethod

/-- The v-table pointer of the class of an object: the content of its `static_vptr`. -/
def IsVptr (p : Program) (s : RegState) (t : TypeId) (q : Ptr) : Prop := ∃ v, p.StaticVar (p.rtti.ti t) v ∧ s.svptr v = some q

/-- A `virtual_ptr` that designates an object and the v-table of its class. -/
def Designates (p : Program) (s : RegState) (o : Obj) (w : VirtualPtr) : Prop :=
  ∃ b q, w = { vp := .boxed b, obj := .to o } ∧ unboxVptr s b = some q ∧ IsVptr p s o.type q

/-- Both pointers are null, or it designates an object of a registered class. -/
def Consistent (p : Program) (s : RegState) (w : VirtualPtr) : Prop := w = { vp := .null, obj := .null } ∨ ∃ o, p.HasId o.type ∧ Designates p s o w

/-- Arguments for which v-table pointers can be found, or errors are reported. -/
def Known (cfg : Config) (p : Program) (t : TypeId) : Prop := p.HasId t ∨ Detects cfg ∧ (cfg.vector = true → t ≠ noType)

/-- Null, or known. -/
def KnownPtr (cfg : Config) (p : Program) (q : Option Obj) : Prop := ∀ o ∈ q, Known cfg p o.type

/-- A registered class, with one of its ids and its `static_vptr` variable. -/
def ClassVar (p : Program) (st : TypeId) (v : VarId) : Prop := ∃ cr ∈ p.classes, cr.type = st ∧ cr.staticVptr = v

/-- `final_virtual_ptr` is told the class of the object, unless this is checked. -/
def FinalOk (cfg : Config) (p : Program) (poly : Bool) (st : TypeId) (q : Option Obj) : Prop :=
  ∀ o ∈ q, p.HasId o.type ∧ p.rtti.ti o.type = p.rtti.ti st ∨ cfg.checks = true ∧ poly = true

/-- `static_cast` to a derived class is only used when the object has that class. -/
def CastOk (c : VirtualPtr.Cast) : Prop := c.isInstance = true ∨ c.dynamic = true

/-- Operations that the C++ compiler accepts and that meet the documented requirements. A plain `virtual_ptr` is not default-constructed, as it
is then documented to be uninitialized. -/
def PtrOp.Legal (X : PtrEnv) (p : Program) : PtrOp → Prop
  | .construct i src =>
    match src with
    | .default => X.kind i ≠ .plain
    | .nullptr => True
    | .ref o => X.kind i = .plain ∧ Known X.cfg p o.type
    | .pointer q => X.kind i = .plain ∧ KnownPtr X.cfg p q
    | .smart q => X.kind i ≠ .plain ∧ KnownPtr X.cfg p q
    | .copy j => i ≠ j ∧ (X.kind i = .plain ∨ X.kind i = X.kind j ∧ X.kind i ≠ .unique)
    | .move j => i ≠ j ∧ X.kind i = X.kind j
    | .cast j c => i ≠ j ∧ X.kind i = X.kind j ∧ X.kind i ≠ .unique ∧ CastOk c
    | .castMove j c => i ≠ j ∧ X.kind i = X.kind j ∧ X.kind i ≠ .plain ∧ CastOk c
    | .final q poly st v => (X.kind i = .plain → q ≠ none) ∧ p.StaticVar (p.rtti.ti st) v ∧ p.HasId st ∧ FinalOk X.cfg p poly st q
  | .assign i src =>
    match src with
    | .nullptr => True
    | .object q => X.kind i = .plain ∧ KnownPtr X.cfg p q
    | .smart q => X.kind i ≠ .plain ∧ X.kind i ≠ .unique ∧ KnownPtr X.cfg p q
    | .smartMove q => X.kind i ≠ .plain ∧ KnownPtr X.cfg p q
    | .copy j => X.kind i = .plain ∨ X.kind i = X.kind j ∧ X.kind i ≠ .unique
    | .move j => X.kind i = X.kind j

/-- The cast accepts a null pointer. -/
def CastsNull (k : PtrKind) (c : VirtualPtr.Cast) : Prop := k = .shared ∨ k = .intrusive ∧ c.dynamic = false

/-- What must be avoided, besides. -/
def PtrOp.Safe (X : PtrEnv) (p : Program) (w : Ptrs) : PtrOp → Prop
  | .construct _ src =>
    match src with
    | .pointer q => q ≠ none
    | .cast j c => ((w j).obj = .null → CastsNull (X.kind j) c) ∧ (X.kind j = .shared → c.isInstance = true)
    | .castMove j c => ((w j).obj = .null → CastsNull (X.kind j) c) ∧ (X.kind j = .shared → c.isInstance = true ∧ X.cxx20 = false) ∧
        (X.kind j = .unique → c.isInstance = false)
    | .final q _ _ _ => q ≠ none
    | _ => True
  | .assign _ src =>
    match src with
    | .object q | .smart q => ∃ o, q = some o ∧ p.HasId o.type
    | _ => True

/-- States of the `virtual_ptr`s of a program, all null at first, after legal and safe operations. -/
inductive PtrReach (X : PtrEnv) (p : Program) (s : RegState) : Ptrs → Prop
  | start : PtrReach X p s fun _ => { vp := .null, obj := .null }
  | step {w w'} {op : PtrOp} {e} : PtrReach X p s w → op.Legal X p → op.Safe X p w → op.run X s w = .ok (w', e) → PtrReach X p s w'

/-- Chains of conversions that start from an object. -/
inductive Chain (cfg : Config) (p : Program) (s : RegState) (o : Obj) : VirtualPtr → Prop
  | ref {w} : VirtualPtr.ofRef cfg s o = .ok w → Chain cfg p s o w
  | smart {w} : VirtualPtr.ofSmart cfg s (some o) = .ok w → Chain cfg p s o w
  | final {w poly st v} : p.rtti.ti st = p.rtti.ti o.type → ClassVar p st v → VirtualPtr.final cfg s poly st v (some o) = .ok w → Chain cfg p s o w
  /-- copies, moves, conversions to a base -/
  | copy {w w'} : Chain cfg p s o w → w.copy = .ok w' → Chain cfg p s o w'
  | cast {w w' c k} : Chain cfg p s o w → c.isInstance = true → VirtualPtr.cast c k w = .ok (some w') → Chain cfg p s o w'

end OpenMethod

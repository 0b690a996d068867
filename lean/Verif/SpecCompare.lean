import Verif.SpecCpp
import Verif.Model.Compare

/-!
# Specification of comparisons of virtual pointers

"`true` if both `virtual_ptr`s point to the same object or both are `nullptr`, `false` otherwise" (core.hpp 1820-1821).
-/

namespace OpenMethod

namespace Hier

/-- The second of two subobjects of an object is the first one, or in it: steps from an object to its direct bases. A virtual base is that of the complete object. -/
inductive Contains (H : Hier) : Path → Path → Prop
  | self {ρ} : Contains H ρ ρ
  | base {ρ σ c b} : Contains H ρ σ → OfClass σ c → Base H c b false → Contains H ρ (σ ++ [b])
  | vbase {ρ σ c b} : Contains H ρ σ → OfClass σ c → Base H c b true → Contains H ρ [b]

end Hier

/-- The operand is null, or points to a subobject of the class of its type. The objects have classes `cls`. -/
def Comparand.Valid (H : Hier) (cls : Nat → Cls) (v : Comparand) : Prop :=
  v.value ≠ .indeterminate ∧ ∀ p, v.value = .part p → H.Subobject (cls p.obj) p.path ∧ Hier.OfClass p.path v.held.elem.cls

/-- The operands can be compared: they have the same registry, are both plain, or hold smart pointers of the same kind; a plain one can also be compared with one that holds a `boost::intrusive_ptr`.
One of the classes is the other, or an unambiguous base of it. -/
structure Comparand.Comparable (H : Hier) (l r : Comparand) : Prop where
  reg : l.reg = r.reg
  kinds : (∃ e f, l.held = .plain e ∧ r.held = .plain f) ∨ (∃ k e f, l.held = .smart k e ∧ r.held = .smart k f) ∨
    (∃ e f, l.held = .plain e ∧ r.held = .smart .intrusive f) ∨ (∃ e f, l.held = .smart .intrusive e ∧ r.held = .plain f)
  classes : H.Unambiguous l.held.elem.cls r.held.elem.cls ∨ H.Unambiguous r.held.elem.cls l.held.elem.cls

/-- Both are null, or point to parts of the same object. -/
inductive Comparand.SameObject : Pointer → Pointer → Prop
  | null : SameObject .null .null
  | parts {p q} : p.obj = q.obj → SameObject (.part p) (.part q)

/-- Both are null, or point to the same part of an object, or one to a part of what the other points to. -/
inductive Comparand.SamePart (H : Hier) : Pointer → Pointer → Prop
  | null : SamePart H .null .null
  | left {o ρ σ} : H.Contains ρ σ → SamePart H (.part ⟨o, σ⟩) (.part ⟨o, ρ⟩)
  | right {o ρ σ} : H.Contains ρ σ → SamePart H (.part ⟨o, ρ⟩) (.part ⟨o, σ⟩)

end OpenMethod

import Verif.SpecPtr
import Verif.Model.Thunk

/-!
# Specification of thunks

The subobjects of an object, as in the C++ standard, independently of the functions of `Verif.Model.Subobjects`.
-/

namespace OpenMethod

open Spec

namespace Hier

/-- `b` is a direct base of `c`, virtual if `v`. -/
def Base (H : Hier) (c b : Cls) (v : Bool) : Prop := ∃ bs, (c, bs) ∈ H ∧ (b, v) ∈ bs

def Defined (H : Hier) (c : Cls) : Prop := ∃ bs, (c, bs) ∈ H

/-- Classes are defined once, and after their bases. -/
def WF : Hier → Prop
  | [] => True
  | (c, bs) :: H => WF H ∧ ¬ Defined H c ∧ ∀ b ∈ bs, Defined H b.1

/-- Steps through direct non-virtual bases. -/
inductive IsPath (H : Hier) : Cls → Path → Prop
  | self {c} : Defined H c → IsPath H c [c]
  | base {c b σ} : Base H c b false → IsPath H b σ → IsPath H c (c :: σ)

/-- A direct or indirect base that is inherited virtually. -/
inductive VBase (H : Hier) : Cls → Cls → Prop
  | direct {c b} : Base H c b true → VBase H c b
  | step {c b w v} : Base H c b w → VBase H b v → VBase H c v

/-- `σ` is an object of class `c` or one of its base class subobjects: its virtual bases are present once, the others once for each path. -/
def Subobject (H : Hier) (c : Cls) (σ : Path) : Prop := IsPath H c σ ∨ ∃ v, VBase H c v ∧ IsPath H v σ

/-- The subobject has class `b`. -/
def OfClass (σ : Path) (b : Cls) : Prop := σ.getLast? = some b

/-- `b` is `c`, or an unambiguous base of it. -/
def Unambiguous (H : Hier) (c b : Cls) : Prop := ∃ σ, (H.Subobject c σ ∧ OfClass σ b) ∧ ∀ τ, H.Subobject c τ → OfClass τ b → τ = σ

/-- No repeated inheritance: an object of class `x` has at most one subobject of each class. -/
def NoRepeat (H : Hier) (x : Cls) : Prop := ∀ b σ τ, H.Subobject x σ → H.Subobject x τ → OfClass σ b → OfClass τ b → σ = τ

end Hier

/-- The registered classes are defined, and the bases with which they are registered are unambiguous bases: `is_unambiguous_accessible_base_of` (core.hpp
102-110) checks this. -/
structure Hier.Describes (H : Hier) (p : Program) : Prop where
  wf : H.WF
  defined : ∀ cr ∈ p.classes, H.Defined (p.rtti.ti cr.type)
  bases : ∀ cr ∈ p.classes, ∀ t ∈ cr.bases, H.Unambiguous (p.rtti.ti cr.type) (p.rtti.ti t)

/-- A virtual argument for a parameter of class `b`: it designates the `b` of an object of a registered class `x`, and the `virtual_ptr`, if it is one, has the
v-table pointer of the class. -/
def Refers (H : Hier) (p : Program) (s : RegState) (b : Cls) (a : VArg) (x : Cls) : Prop :=
  ∃ r, a.ref = some r ∧ p.HasId r.obj.type ∧ p.rtti.ti r.obj.type = x ∧ H.Subobject x r.path ∧ Hier.OfClass r.path b ∧
    ∀ v ∈ a.vp, Designates p s r.obj { vp := .boxed v, obj := .to r.obj }

/-- The arguments of a function with parameter kinds `ks`: objects of classes `xs` for its virtual parameters, of classes `bs`. -/
inductive PassedFor (H : Hier) (p : Program) (s : RegState) : List Cls → List Bool → List Passed → List Cls → Prop
  | nil : PassedFor H p s [] [] [] []
  | virt {bs ks as xs b a x} : Refers H p s b a x → PassedFor H p s bs ks as xs → PassedFor H p s (b :: bs) (true :: ks) (.virt a :: as) (x :: xs)
  | other {bs ks as xs} (v : Nat) : PassedFor H p s bs ks as xs → PassedFor H p s bs (false :: ks) (.other v :: as) xs

/-- The same argument, cast: it designates the same object. -/
inductive SamePassed : Passed → Passed → Prop
  | other (v : Nat) : SamePassed (.other v) (.other v)
  | virt {pass vp r r'} : r.obj = r'.obj → SamePassed (.virt ⟨pass, vp, some r⟩) (.virt ⟨pass, vp, some r'⟩)

/-- The overriders entered by a call, and their arguments: first the one selected by the call, then those to which `next` leads. -/
inductive Runs (cfg : Config) (H : Hier) (r : Rtti) (s : RegState) (m : MethodInfo) (args : List Passed) (types : List TypeId) :
    OverriderInfo → List Passed → Prop
  | call {o as} : callThunk cfg H r s m args types = .ok (.entered o as) → Runs cfg H r s m args types o as
  | next {o as o' as'} : Runs cfg H r s m args types o as → callNext H r s m o as types = some (.ok (.entered o' as')) →
      Runs cfg H r s m args types o' as'

/-- A call, or `next`, ends well: with an error of the library, or in an overrider that accepts the classes of the arguments, which receives them. -/
def Delivers (H : Hier) (p : Program) (s : RegState) (m : MethodInfo) (args : List Passed) (xs : List Cls) (r : Res Entered) : Prop :=
  (∃ arity ts, r = .err (.noOverrider arity ts) ∨ r = .err (.ambiguousCall arity ts)) ∨
  ∃ o ∈ m.overriders, ∃ as, r = .ok (.entered o as) ∧ Applicable p o xs ∧ PassedFor H p s (classesOf p o.vp) m.params as xs ∧ List.Forall₂ SamePassed args as

end OpenMethod

import Verif.Model.Basic
import Mathlib.Data.List.Dedup

/-!
# Subobjects and casts in C++

This is the part of the C++ language on which `optimal_cast` (core.hpp 128-148) and the `virtual_traits` rely: which base class subobjects an
object has, and what `static_cast` and `dynamic_cast` do with references to them ([class.mi], [conv.ptr], [expr.static.cast],
[expr.dynamic.cast] of the standard). All inheritance is public, and all classes are polymorphic.
-/

namespace OpenMethod

/-- Class definitions, the last one first. Each lists its direct bases, which were defined before, and tells which are virtual. -/
abbrev Hier := List (Cls × List (Cls × Bool))

/-- A base class subobject, or the complete object: a path from the complete object, or from one of its virtual bases, through non-virtual direct
bases. -/
abbrev Path := List Cls

namespace Hier

/-- The subobjects of an object of class `c` that are not in its virtual bases. -/
def paths : Hier → Cls → List Path
  | [], _ => []
  | (d, bs) :: H, c =>
    if c = d then [d] :: bs.flatMap fun b => if b.2 then [] else (paths H b.1).map (d :: ·)
    else paths H c

/-- The direct and indirect virtual bases of a class. -/
def vbases : Hier → Cls → List Cls
  | [], _ => []
  | (d, bs) :: H, c =>
    if c = d then bs.flatMap fun b => if b.2 then b.1 :: vbases H b.1 else vbases H b.1
    else vbases H c

/-- All the subobjects of an object of class `c`, and the object itself. -/
def subs (H : Hier) (c : Cls) : List Path := (H.paths c ++ (H.vbases c).flatMap H.paths).dedup

/-- The subobjects of class `b` of an object of class `c`. -/
def occ (H : Hier) (c b : Cls) : List Path := (H.subs c).filter fun σ => σ.getLast? = some b

/-- The subobject of class `b` of an object of class `c`, when there is exactly one: `b` is `c`, or an unambiguous base of it. -/
def only (H : Hier) (c b : Cls) : Option Path :=
  match H.occ c b with
  | [σ] => some σ
  | _ => none

/-- The subobject `τ` of the subobject `ρ` of an object. -/
def sub (ρ τ : Path) : Path := if τ.head? = ρ.getLast? then ρ ++ τ.tail else τ

/-- The object of class `d` of which `σ` is the subobject `τ`, when `τ` is not in a virtual base of `d`. -/
def container (τ σ : Path) : Option Path :=
  let ρ := σ.take (σ.length - τ.tail.length)
  if ρ.getLast? = τ.head? ∧ ρ ++ τ.tail = σ then some ρ else none

/-- `static_cast` of a reference to subobject `σ`, of class `b`, to class `d`: to an unambiguous base, or from an unambiguous base that is not virtual
and not in a virtual base. `none`: the compiler does not accept it. Undefined behaviour if `σ` is not in an object of class `d`. -/
def staticCast (H : Hier) (b d : Cls) (σ : Path) : Option (Res Path) :=
  match H.only b d with
  | some τ => some (.ok (sub σ τ))
  | none =>
    match H.only d b with
    | some τ => if τ.head? = some d then some (Res.ofOption (container τ σ)) else none
    | none => none

/-- `dynamic_cast` of a reference to subobject `σ`, of class `b`, of an object of class `x`, to class `d`. `none`: `std::bad_cast`. -/
def dynamicCast (H : Hier) (x b d : Cls) (σ : Path) : Option Path :=
  match H.only b d with
  | some τ => some (sub σ τ)
  | none =>
    match (H.occ x d).filter fun ρ => σ ∈ (H.subs d).map (sub ρ) with
    | [ρ] => some ρ
    | _ => H.only x d

/-- `optimal_cast` (core.hpp 128-148): `requires_dynamic_cast` is true when the `static_cast` is not accepted. `force`: the condition is tested on
types for which it is never accepted (std_unique_ptr.hpp 43, std_shared_ptr.hpp 177). -/
def optimalCast (H : Hier) (force : Bool) (x b d : Cls) (σ : Path) : Res (Option Path) :=
  match force, H.staticCast b d σ with
  | false, some r => do let ρ ← r; .ok (some ρ)
  | _, _ => .ok (H.dynamicCast x b d σ)

end Hier

end OpenMethod

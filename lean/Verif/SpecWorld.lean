import Verif.SpecRegistry
import Verif.Model.World

/-! # Specification of programs with several registries -/

namespace OpenMethod

/-- To which registry the variables and methods belong: they are static members of templates instantiated with the registry. -/
structure Owner where
  /-- `static_vptr` variables -/
  svptr : VarId → RegId
  /-- methods, by identity -/
  method : Nat → RegId
  /-- `next` variables -/
  next : VarId → RegId

/-- The registrations found in registry `r`. -/
structure Owner.Program (O : Owner) (r : RegId) (p : Program) : Prop where
  svptr : ∀ cr ∈ p.classes, O.svptr cr.staticVptr = r
  method : ∀ m ∈ p.methods, O.method m.id = r
  next : ∀ m ∈ p.methods, ∀ o ∈ m.overriders, O.next o.next = r

/-- Operations on registry `r`, whose policies are `cfg`. -/
inductive World.Step (O : Owner) (cfg : Config) (r : RegId) (w : World) : World → Prop
  | ok {E p s rep} : E.cfg = cfg → O.Program r p → p.Good cfg → Initializes E p (w.view r) s rep → World.Step O cfg r w (w.put r s)
  | failed {E p s e} : E.cfg = cfg → O.Program r p → p.Good cfg → FailsWith E p (w.view r) s e → World.Step O cfg r w (w.put r s)
  | final {E} : E.cfg = cfg → World.Step O cfg r w (w.put r (finalize E (w.view r)))

/-- The states of the world since the start, with any interleaving of operations on the registries. -/
inductive World.Reachable (O : Owner) (cfg : RegId → Config) : World → Prop
  | start : World.Reachable O cfg .init
  | step {w w' r} : World.Reachable O cfg w → World.Step O (cfg r) r w w' → World.Reachable O cfg w'

/-- Operations on registries other than `r`. -/
inductive World.Others (O : Owner) (cfg : RegId → Config) (r : RegId) (w : World) : World → Prop
  | refl : World.Others O cfg r w w
  | step {w1 w2 r'} : World.Others O cfg r w w1 → r' ≠ r → World.Step O (cfg r') r' w1 w2 → World.Others O cfg r w w2

/-- Arguments for a method of registry `r`: objects, and `virtual_ptr`s of this registry. -/
def Owner.Arg (O : Owner) (r : RegId) : OpenMethod.Arg → Prop
  | .vptr (.indirect v) => O.svptr v = r
  | _ => True

end OpenMethod

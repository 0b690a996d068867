import Verif.Model.Inplace

/-!
# Copies of objects that embed their v-table pointers (inplace_vptr.hpp)

`inplace_vptr_base` (120-157) and `inplace_vptr_derived` (194-273) declare a default constructor and a destructor, hence they have the copy
constructors and copy assignments that C++ defines, and no moves ([class.copy.ctor] 6 and 8, [class.copy.assign] 2 and 4): moving an object copies its mixins.
Those of `inplace_vptr_base` copy the member `boost_openmethod_vptr` (134-135), those of `inplace_vptr_derived`, which has no members, do nothing.

The copy constructor of a class copies its bases. It copies its mixin if it is implicit, defaulted, or says so. A user-written one that does not
mention its mixin uses the default constructor of the mixin ([class.base.init] 9). Likewise the copy assignment of a class assigns its bases, and its mixin if it is
implicit, defaulted, or says so. User-written constructors that do not copy the bases are not considered: for these bases they are ordinary
constructors.
-/

namespace OpenMethod

/-- How the classes are copied: `true` for those whose copy constructor uses the default constructor of the mixin, and those whose copy assignment
does not assign the mixin. -/
structure Copying where
  fresh : Cls → Bool
  keeps : Cls → Bool

/-- What a copy constructor does: the mixin, of subobject `σ`, from subobject `τ` of the source; and the body, where methods can be called. -/
inductive CopyStep where
  | mixin (c : Cls) (σ τ : Sub)
  | body (c : Cls) (σ : Sub)
  /-- the complete object exists -/
  | alive (c : Cls) (σ : Sub)
  deriving DecidableEq, Repr

/-- The v-table pointers of the source are `src`. -/
def CopyStep.run (H : Hierarchy) (K : Copying) (src : Embeds) (m : Embeds) : CopyStep → Embeds
  | .mixin c σ τ =>
    if K.fresh c then updateVptr H c c σ m
    else if H.bases c = [] then Function.update m σ (src τ)
    else m
  | _ => m

/-- Copy constructor of a subobject, except its virtual bases ([class.base.init] 13, [class.copy.ctor] 14). -/
def copySteps (H : Hierarchy) (c : Cls) (σ τ : Sub) : List CopyStep :=
  ((H.bases c).attach.filter (fun b => !b.1.2)).flatMap (fun b => copySteps H b.1.1 (b.1.1 :: σ) (b.1.1 :: τ)) ++ [.mixin c σ τ, .body c σ]
termination_by (c : Nat)
decreasing_by exact H.lt c b.1 b.2

/-- The construction of a complete object of class `c` as a copy of subobject `τ`, of the same class, of a complete object. -/
def copyLife (H : Hierarchy) (c : Cls) (τ : Sub) : List CopyStep :=
  (virtualBases H c).flatMap (fun v => copySteps H v [v] [v]) ++ copySteps H c [c] τ ++ [.alive c [c]]

def runCopy (H : Hierarchy) (K : Copying) (src m : Embeds) (steps : List CopyStep) : Embeds := steps.foldl (CopyStep.run H K src) m

/-- Copy assignment of a subobject ([class.copy.assign] 12): the bases, virtual or not, including the mixin. A virtual base may be assigned several times.
The v-table pointers of the source, which is in another object, are `src`. -/
def assignVptr (H : Hierarchy) (K : Copying) (src : Embeds) (c : Cls) (σ τ : Sub) (m : Embeds) : Embeds :=
  let m := (H.bases c).attach.foldl (fun m b => assignVptr H K src b.1.1 (baseSub σ b.1) (baseSub τ b.1) m) m
  if K.keeps c then m
  else if H.bases c = [] then Function.update m σ (src τ)
  else m
termination_by (c : Nat)
decreasing_by exact H.lt c b.1 b.2

/-- The same when the source is in the same object. -/
def assignWithin (H : Hierarchy) (K : Copying) (c : Cls) (σ τ : Sub) (m : Embeds) : Embeds :=
  let m := (H.bases c).attach.foldl (fun m b => assignWithin H K b.1.1 (baseSub σ b.1) (baseSub τ b.1) m) m
  if K.keeps c then m
  else if H.bases c = [] then Function.update m σ (m τ)
  else m
termination_by (c : Nat)
decreasing_by exact H.lt c b.1 b.2

end OpenMethod

import Verif.Model.Registry

/-!
# inplace_vptr (inplace_vptr.hpp)

Classes are numbered in the order of their definitions: the bases of a class are defined before it. All the classes use
`inplace_vptr_base`, if they have no bases, or `inplace_vptr_derived`, after their bases and with the list of these, as documented. The v-table
pointers embedded in an object are in the subobjects of root classes.
-/

namespace OpenMethod

/-- Direct bases of the classes, in the order of the base list; `true` for virtual bases. -/
structure Hierarchy where
  bases : Cls → List (Cls × Bool)
  lt : ∀ c, ∀ b ∈ bases c, b.1 < c
  /-- C++ does not allow a direct base twice -/
  nodup : ∀ c, ((bases c).map (·.1)).Nodup

/-- A subobject: its class, followed by the classes that contain it, up to the complete object or a virtual base. -/
abbrev Sub := List Cls

/-- The base subobject of a subobject. -/
def baseSub (σ : Sub) (b : Cls × Bool) : Sub := if b.2 then [b.1] else b.1 :: σ

/-- The class to which the v-table pointers in the root subobjects belong; `none`: null, or not constructed. -/
abbrev Embeds := Sub → Option Cls

/-- `boost_openmethod_update_vptr<target>` (inplace_vptr.hpp 27-48) on a subobject of class `c`. -/
def updateVptr (H : Hierarchy) (target : Cls) (c : Cls) (σ : Sub) (m : Embeds) : Embeds :=
  if H.bases c = [] then Function.update m σ (some target)
  else (H.bases c).attach.foldl (fun m b => updateVptr H target b.1.1 (baseSub σ b.1) m) m
termination_by (c : Nat)
decreasing_by exact H.lt c b.1 b.2

/-- What the constructor and the destructor of a class do, in so far as v-table pointers are concerned: the constructor or destructor of
the mixin, and the body, where methods can be called. -/
inductive LifeStep where
  | mixinCtor (c : Cls) (σ : Sub)
  | ctorBody (c : Cls) (σ : Sub)
  /-- the complete object exists -/
  | alive (c : Cls) (σ : Sub)
  | dtorBody (c : Cls) (σ : Sub)
  | mixinDtor (c : Cls) (σ : Sub)
  deriving DecidableEq, Repr

/-- inplace_vptr.hpp 148-156, 220-231, 256-273. -/
def LifeStep.run (H : Hierarchy) (m : Embeds) : LifeStep → Embeds
  | .mixinCtor c σ => updateVptr H c c σ m
  | .mixinDtor c σ =>
    if H.bases c = [] then Function.update m σ none
    else (H.bases c).foldl (fun m b => updateVptr H b.1 b.1 (baseSub σ b) m) m
  | _ => m

/-- Constructor of a subobject, except its virtual bases (C++17 [class.base.init] 13): non-virtual bases, including the mixin which comes last, then the
body. -/
def ctorSteps (H : Hierarchy) (c : Cls) (σ : Sub) : List LifeStep :=
  ((H.bases c).attach.filter (fun b => !b.1.2)).flatMap (fun b => ctorSteps H b.1.1 (b.1.1 :: σ)) ++ [.mixinCtor c σ, .ctorBody c σ]
termination_by (c : Nat)
decreasing_by exact H.lt c b.1 b.2

/-- Destructor of a subobject, except its virtual bases: the reverse order ([class.dtor] 14). -/
def dtorSteps (H : Hierarchy) (c : Cls) (σ : Sub) : List LifeStep :=
  [.dtorBody c σ, .mixinDtor c σ] ++ ((H.bases c).attach.filter (fun b => !b.1.2)).reverse.flatMap (fun b => dtorSteps H b.1.1 (b.1.1 :: σ))
termination_by (c : Nat)
decreasing_by exact H.lt c b.1 b.2

/-- Virtual bases of a class, in the order in which they are constructed: depth-first, left to right, bases before derived classes. -/
def virtualBases (H : Hierarchy) (c : Cls) : List Cls :=
  (H.bases c).attach.foldl (fun l b =>
    let l := (virtualBases H b.1.1).foldl (fun l v => if v ∈ l then l else l ++ [v]) l
    if b.1.2 && !(b.1.1 ∈ l) then l ++ [b.1.1] else l) []
termination_by (c : Nat)
decreasing_by exact H.lt c b.1 b.2

/-- The life of a complete object of class `c`. -/
def life (H : Hierarchy) (c : Cls) : List LifeStep :=
  (virtualBases H c).flatMap (fun v => ctorSteps H v [v]) ++ ctorSteps H c [c] ++ [.alive c [c]] ++
    dtorSteps H c [c] ++ (virtualBases H c).reverse.flatMap (fun v => dtorSteps H v [v])

def runLife (H : Hierarchy) (m : Embeds) (steps : List LifeStep) : Embeds := steps.foldl (LifeStep.run H) m

/-- The subobject where `boost_openmethod_vptr` finds the v-table pointer (inplace_vptr.hpp 137-144, 248-252): in the first base. -/
def vptrRoot (H : Hierarchy) (c : Cls) (σ : Sub) : Sub :=
  match (H.bases c).attach with
  | [] => σ
  | b :: _ => vptrRoot H b.1.1 (baseSub σ b.1)
termination_by (c : Nat)
decreasing_by exact H.lt c b.1 b.2

/-! ## The value of embedded pointers -/

/-- Member `boost_openmethod_vptr` (inplace_vptr.hpp 134-135). -/
inductive Embedded where
  | null
  | direct (p : Option Ptr)
  | indirect (v : VarId)
  deriving DecidableEq, Repr

/-- What `boost_openmethod_update_vptr` stores for a class whose `static_vptr` is `v` (inplace_vptr.hpp 40-44). -/
def embed (cfg : Config) (s : RegState) (v : VarId) : Embedded := if cfg.indirect then .indirect v else .direct (s.svptr v)

/-- `boost_openmethod_vptr` (inplace_vptr.hpp 137-144) returns the v-table pointer by value. -/
def Embedded.read (cfg : Config) (s : RegState) : Embedded → Res (Option Ptr)
  | .null => if cfg.indirect then .ub else .ok none
  | .direct p => .ok p
  | .indirect v => .ok (s.svptr v)

/-- `acquire_vptr` (core.hpp 528-537) for an object that embeds its v-table pointer. -/
def acquireEmbedded (cfg : Config) (s : RegState) (e : Embedded) : Res (Option Ptr) := do
  requireInitialized cfg s
  e.read cfg s

/-- The v-table pointer in a `virtual_ptr` created from such an object: `box_vptr` (core.hpp 539-546) returns its argument, or the address of its
argument; the latter is the temporary that holds the value returned by `acquire_vptr`, and is destroyed at the end of the full-expression. -/
inductive TempBoxed where
  | direct (p : Option Ptr)
  | temporary
  deriving DecidableEq, Repr

def boxEmbedded (cfg : Config) (p : Option Ptr) : TempBoxed := if cfg.indirect then .temporary else .direct p

/-- Creating a `virtual_ptr` (core.hpp 762-772). -/
def virtualPtrOfEmbedded (cfg : Config) (s : RegState) (e : Embedded) : Res TempBoxed := do
  let p ← acquireEmbedded cfg s e
  .ok (boxEmbedded cfg p)

/-- The v-table pointer that a call obtains from the object (core.hpp 2475-2482). -/
def embeddedPtr (cfg : Config) (s : RegState) (e : Embedded) : Res Ptr := do
  let p ← acquireEmbedded cfg s e
  Res.ofOption p

/-- The v-table pointer that a later call obtains from the `virtual_ptr`: a temporary that no longer exists is read. -/
def TempBoxed.ptr : TempBoxed → Res Ptr
  | .direct p => Res.ofOption p
  | .temporary => .ub

end OpenMethod

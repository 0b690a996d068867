import Verif.Model.Classes

/-!
# `augment_methods`: methods and overriders in terms of classes (initialize.hpp 700-859)
-/

namespace OpenMethod

/-- `generic_compiler::overrider` (initialize.hpp 127-134). `next`, `method_index` and `spec_index` are not stored: the
first is in `Verif.Model.Dispatch`, the others are positions in lists. -/
structure Ovr where
  info : OverriderInfo
  vp : List Cls
  /-- `covariant_return_type`, null when absent -/
  ret : Option Cls
  deriving DecidableEq, Repr

/-- `generic_compiler::method` (initialize.hpp 155-172): the fields filled by `augment_methods`. -/
structure Meth where
  info : MethodInfo
  vp : List Cls
  ret : Option Cls
  overriders : List Ovr
  deriving DecidableEq, Repr

/-- Lookup in `class_map` followed by the null test (initialize.hpp 727-740, 788-801). Classes created by
`augment_classes` are the non-null values of the map. -/
def findClass (r : Rtti) (L : Lattice) (t : TypeId) : Res Cls :=
  if r.ti t ∈ L.order then .ok (r.ti t) else .err (.missingClass t)

/-- The loops that fill `vp` (initialize.hpp 726-743, 784-805). -/
def findClasses (r : Rtti) (L : Lattice) : List TypeId → Res (List Cls)
  | [] => .ok []
  | t :: ts => do
    let c ← findClass r L t
    let cs ← findClasses r L ts
    return c :: cs

/-- `covariant_return_type` of a method (initialize.hpp 746-755): its return class, if it is not `void` and is registered. -/
def methodRet (r : Rtti) (L : Lattice) (t : TypeId) : Option Cls :=
  if r.ti t ≠ r.ti r.void ∧ r.ti t ∈ L.order then some (r.ti t) else none

/-- One iteration of the overrider loop (initialize.hpp 772-828). -/
def augmentOverrider (r : Rtti) (L : Lattice) (mret : Option Cls) (o : OverriderInfo) : Res Ovr := do
  let vp ← findClasses r L o.vp
  match mret with
  | none => return { info := o, vp := vp, ret := none }
  | some _ => do
    let c ← findClass r L o.ret
    return { info := o, vp := vp, ret := some c }

/-- The loop over the overriders of a method. -/
def augmentOverriders (r : Rtti) (L : Lattice) (mret : Option Cls) : List OverriderInfo → Res (List Ovr)
  | [] => .ok []
  | o :: os => do
    let o' ← augmentOverrider r L mret o
    let os' ← augmentOverriders r L mret os
    return o' :: os'

/-- One iteration of the first loop of `augment_methods` (initialize.hpp 711-832). -/
def augmentMethod (r : Rtti) (L : Lattice) (m : MethodInfo) : Res Meth := do
  let vp ← findClasses r L m.vp
  let ret := methodRet r L m.ret
  let os ← augmentOverriders r L ret m.overriders
  return { info := m, vp := vp, ret := ret, overriders := os }

/-- The first loop of `augment_methods`. -/
def augmentMethods (r : Rtti) (L : Lattice) : List MethodInfo → Res (List Meth)
  | [] => .ok []
  | m :: ms => do
    let m' ← augmentMethod r L m
    let ms' ← augmentMethods r L ms
    return m' :: ms'

/-- Body of the innermost loop of the check (initialize.hpp 839-853). `overrider.vp[param_index]` and `type_ids[0]` are
unchecked vector accesses. The fields of the error are swapped with respect to their names, as in the code. -/
def checkOverrider (L : Lattice) (vp : Cls) (k : Nat) (o : Ovr) : Res Unit := do
  let c ← Res.ofOption o.vp[k]?
  if c = vp then return ()
  else if c ∈ L.td vp then return ()
  else do
    let base ← Res.ofOption (L.typeIds c)[0]?
    let derived ← Res.ofOption (L.typeIds vp)[0]?
    .err (.missingBase base derived)

/-- The check for one virtual parameter (initialize.hpp 838-854). -/
def checkParam (L : Lattice) (os : List Ovr) (vk : Cls × Nat) : Res Unit :=
  os.foldlM (fun _ o => checkOverrider L vk.1 vk.2 o) ()

/-- The check for one method (initialize.hpp 834-857). -/
def checkMethod (L : Lattice) (m : Meth) : Res Unit :=
  m.vp.zipIdx.foldlM (fun _ vk => checkParam L m.overriders vk) ()

/-- The second loop of `augment_methods` (initialize.hpp 834-858). -/
def checkMethods (L : Lattice) (ms : List Meth) : Res Unit :=
  ms.foldlM (fun _ m => checkMethod L m) ()

/-- All pairs (method index, parameter index), in the order in which they are pushed in `used_by_vp` (initialize.hpp
856), with the class of the parameter. -/
def allParams (ms : List Meth) : List ((Nat × Nat) × Cls) :=
  ms.zipIdx.flatMap fun mi => mi.1.vp.zipIdx.map fun vk => ((mi.2, vk.2), vk.1)

/-- `used_by_vp` of a class (initialize.hpp 102, 856). Simplification: computed as a selection instead of by successive
`push_back`, which gives the same list. -/
def usedByVp (ms : List Meth) (c : Cls) : List (Nat × Nat) :=
  ((allParams ms).filter (fun x => x.2 = c)).map (·.1)

/-- `augment_methods` (initialize.hpp 700-859). -/
def augment (r : Rtti) (L : Lattice) (ms : List MethodInfo) : Res (List Meth) := do
  let ms ← augmentMethods r L ms
  checkMethods L ms
  return ms

end OpenMethod

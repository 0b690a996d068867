import Verif.Model.Input
import Verif.Model.Platform
import Mathlib.Logic.Function.Basic

/-!
# `augment_classes`: the inheritance lattice (initialize.hpp 519-696)
-/

namespace OpenMethod

/-- The fields of `generic_compiler::class_` (initialize.hpp 95-125) that describe inheritance, for all classes, plus the
list of classes in order of creation (`classes`, a deque). Fields are functions of the class identity; they are
meaningful for the classes in `order`. `used_by_vp`, slots and v-tables are in `Verif.Model.Slots`. -/
structure Lattice where
  order : List Cls
  typeIds : Cls → List TypeId
  isAbstract : Cls → Bool
  staticVptr : Cls → VarId
  /-- `transitive_bases` -/
  tb : Cls → List Cls
  /-- `direct_bases` -/
  db : Cls → List Cls
  /-- `direct_derived` -/
  dd : Cls → List Cls
  /-- `transitive_derived`, an unordered set, as a list without duplicates -/
  td : Cls → List Cls

def Lattice.empty : Lattice where
  order := []
  typeIds _ := []
  isAbstract _ := false
  staticVptr _ := 0
  tb _ := []
  db _ := []
  dd _ := []
  td _ := []

/-- One iteration of the first loop (initialize.hpp 545-569): create the class on its first record, which also supplies
`is_abstract` and `static_vptr`; remember the type id if it is new. -/
def addClass (r : Rtti) (s : Lattice) (cr : ClassInfo) : Lattice :=
  let c := r.ti cr.type
  let s :=
    if c ∈ s.order then s
    else { s with
      order := s.order ++ [c]
      isAbstract := Function.update s.isAbstract c cr.isAbstract
      staticVptr := Function.update s.staticVptr c cr.staticVptr }
  if cr.type ∈ s.typeIds c then s
  else { s with typeIds := Function.update s.typeIds c (s.typeIds c ++ [cr.type]) }

/-- `collect_transitive_bases` (initialize.hpp 519-531). Because the mark is fresh (595), the marked classes are exactly
the ones pushed by this traversal, which `acc` holds. `fuel` bounds the recursion depth; `collect_fuel` in
`Verif.Proof.Classes` shows that the bound used below is never reached.
Simplification: the recursion reads the bases of classes as they were before the traversal; only the bases of the class
being completed change, and inheritance being acyclic they are not read. -/
def collect (tb : Cls → List Cls) : Nat → List Cls → Cls → List Cls
  | 0, acc, _ => acc
  | fuel + 1, acc, b => if b ∈ acc then acc else (tb b).foldl (collect tb fuel) (acc ++ [b])

/-- Body of the inner loop of the second loop (initialize.hpp 578-598). -/
def addBase (r : Rtti) (c : Cls) (s : Lattice) (t : TypeId) : Res Lattice :=
  let b := r.ti t
  if b ∉ s.order then .err (.missingClass t)
  else if c = b then .ok s
  else .ok { s with tb := Function.update s.tb c (s.tb c ++ collect s.tb (s.order.length + 1) [] b) }

/-- Body of the second loop (initialize.hpp 575-599). -/
def addBases (r : Rtti) (s : Lattice) (cr : ClassInfo) : Res Lattice :=
  cr.bases.foldlM (addBase r (r.ti cr.type)) s

/-- Removal of duplicates by marks, keeping first occurrences (initialize.hpp 606-618). -/
def dedup (l : List Cls) : List Cls :=
  l.foldl (fun out b => if b ∈ out then out else out ++ [b]) []

/-- Selection of the direct bases among the sorted transitive bases (initialize.hpp 635-645). The state is the set of
marked classes and the direct bases found so far. -/
def directScan (tb : Cls → List Cls) (l : List Cls) : List Cls × List Cls :=
  l.foldl (fun s b => if b ∈ s.1 then s else (s.1 ++ tb b, s.2 ++ [b])) ([], [])

/-- Inversion of the direct base relation (initialize.hpp 648-652). -/
def directDerived (order : List Cls) (db : Cls → List Cls) : Cls → List Cls :=
  order.foldl (fun dd c => (db c).foldl (fun dd b => Function.update dd b (dd b ++ [c])) dd) (fun _ => [])

/-- Insertion of a range in an unordered set (initialize.hpp 690-694). -/
def insertAll (s l : List Cls) : List Cls :=
  l.foldl (fun out x => if x ∈ out then out else out ++ [x]) s

/-- `calculate_transitive_derived` (initialize.hpp 677-696), with its memoisation: the state maps each class to its
`transitive_derived`. `fuel` bounds the recursion depth and is never exhausted on acyclic inheritance. -/
def calcDerived (pl : Platform) (dd : Cls → List Cls) : Nat → (Cls → List Cls) → Cls → (Cls → List Cls)
  | 0, td, _ => td
  | fuel + 1, td, c =>
    if td c ≠ [] then td
    else
      (dd c).foldl
        (fun td d =>
          let td := if td d = [] then calcDerived pl dd fuel td d else td
          Function.update td c (insertAll (td c) (pl.iter d (td d))))
        (Function.update td c [c])

/-- `augment_classes` (initialize.hpp 535-673). -/
def augmentClasses (pl : Platform) (r : Rtti) (classes : List ClassInfo) : Res Lattice := do
  let s := classes.foldl (addClass r) Lattice.empty
  let s ← classes.foldlM (addBases r) s
  -- 601-618
  let tb := fun c => dedup (s.tb c)
  -- 620-646
  let tb' := fun c => pl.sort (fun x => (tb x).length) (tb c)
  let db := fun c => (directScan tb' (tb' c)).2
  let dd := directDerived s.order db
  let td := s.order.foldl (calcDerived pl dd (s.order.length + 1)) (fun _ => [])
  return { s with tb := tb', db := db, dd := dd, td := td }

end OpenMethod

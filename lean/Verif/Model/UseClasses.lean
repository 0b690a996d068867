import Verif.Model.Input
import Verif.Model.Subobjects

/-!
# use_classes (core.hpp 60-123, 343-418)

What `use_classes` derives from the C++ classes. The registry is given; `extract_registry` is not represented.
-/

namespace OpenMethod

/-- `std::is_base_of`, for classes: also true for a class and itself. -/
def Hier.isBaseOf (H : Hier) (b d : Cls) : Bool := H.occ d b ≠ []

/-- `std::is_convertible_v<D&, B&>`: `b` is an unambiguous base (inheritance is public). -/
def Hier.isConvertible (H : Hier) (d b : Cls) : Bool := (H.only d b).isSome

/-- `is_unambiguous_accessible_base_of` (core.hpp 102-110). `none`: the static assertion fails. -/
def Hier.isUnambiguousBase (H : Hier) (b d : Cls) : Option Bool :=
  if H.isBaseOf b d = H.isConvertible d b then some (H.isBaseOf b d) else none

/-- `mp_filter_q` with that predicate. -/
def Hier.basesIn (H : Hier) (c : Cls) : List Cls → Option (List Cls)
  | [] => some []
  | b :: bs => do
    let r ← H.isUnambiguousBase b c
    let l ← H.basesIn c bs
    some (if r then b :: l else l)

/-- `inheritance_map` (core.hpp 118-123), with `cs` twice: the classes that remain to be treated, and all of them. -/
def Hier.inheritanceMap (H : Hier) (all : List Cls) : List Cls → Option (List (Cls × List Cls))
  | [] => some []
  | c :: cs => do
    let l ← H.basesIn c all
    let r ← H.inheritanceMap all cs
    some ((c, l) :: r)

/-- A `use_classes` object, in a translation unit in which classes have given type ids and `static_vptr` variables. -/
structure UseClasses where
  classes : List Cls
  ids : Cls → TypeId
  isAbstract : Cls → Bool
  vars : Cls → VarId

/-- `use_classes_tuple_type` and `use_class_aux` (core.hpp 346-391): the records. They are registered in the order in which the members of the `std::tuple` are
constructed, which is not specified. -/
def UseClasses.records (H : Hier) (u : UseClasses) : Option (List ClassInfo) :=
  (H.inheritanceMap u.classes u.classes).map fun l => l.map fun cb =>
    { type := u.ids cb.1, bases := cb.2.map u.ids, isAbstract := u.isAbstract cb.1, staticVptr := u.vars cb.1 }

/-- The records of several `use_classes` objects. `none`: the compiler does not accept one of them. -/
def allRecords (H : Hier) : List UseClasses → Option (List ClassInfo)
  | [] => some []
  | u :: us => do
    let r ← u.records H
    let rs ← allRecords H us
    some (r ++ rs)

end OpenMethod

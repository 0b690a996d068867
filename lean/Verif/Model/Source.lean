import Verif.Model.Returns
import Verif.Model.Registrars

/-!
# Declarations (core.hpp 343-398, 2270-2280, 2350, 2393-2424, 2733-2800)

A program as it is written: classes, `use_classes`, methods and overriders with their parameter and return types. What the compiler makes of it: the static objects, and
the content of their records.
-/

namespace OpenMethod

/-- An overrider: `pf` and `next` are the addresses of its thunk and of its `next` variable. -/
structure OverrideDecl where
  params : List CT
  ret : Option CT
  pf : Nat
  next : VarId

structure MethodDecl where
  params : List CT
  ret : Option CT
  overriders : List OverrideDecl

/-- `ids` are the static type ids of all types; `none` is `void`. Static objects are numbered: those of `use_classes` in the order in which the classes are listed, and
methods and overriders in the order of their declarations. This is not the order of construction. -/
structure Source where
  cpp : Cpp
  rtti : Rtti
  ids : Option CT → TypeId
  uses : List UseClasses
  methods : List MethodDecl

/-- The static assertions hold, and the casts and conversions in the thunks are accepted. -/
def Source.accepts (S : Source) : Bool :=
  S.methods.all fun m => S.cpp.validMethod m.params && m.overriders.all fun o => S.cpp.validOverrider m.params o.params && S.cpp.returnOk m.ret o.ret

/-- The class records; `none` if the program is rejected. -/
def Source.compile (S : Source) : Option (List ClassInfo) := if S.accepts then allRecords S.cpp.hier S.uses else none

/-- What is fixed in the records. The zeros are for numbers that are not those of objects of the program. -/
def Source.decls (S : Source) (rs : List ClassInfo) : Decls where
  staticVptr c := (rs[c]?.map (·.staticVptr)).getD 0
  isAbstract c := (rs[c]?.map (·.isAbstract)).getD false
  params m := (S.methods[m]?.map (·.params.map CT.isVirtual)).getD []
  pf m o := ((S.methods[m]?.bind (·.overriders[o]?)).map (·.pf)).getD 0
  next m o := ((S.methods[m]?.bind (·.overriders[o]?)).map (·.next)).getD 0

/-- The type ids in the records. -/
def Source.static (S : Source) (rs : List ClassInfo) : Ids where
  cls c := (rs[c]?.map (·.type)).getD 0
  bases c := (rs[c]?.map (·.bases)).getD []
  vp m := (S.methods[m]?.map fun d => S.cpp.methodVp S.ids d.params).getD []
  ret m := (S.methods[m]?.map fun d => S.ids (S.cpp.returnType d.ret)).getD 0
  ovp m o := (S.methods[m]?.bind fun d => d.overriders[o]?.map fun e => S.cpp.overriderVp S.ids d.params e.params).getD []
  oret m o := ((S.methods[m]?.bind (·.overriders[o]?)).map fun e => S.ids (S.cpp.returnType e.ret)).getD 0

end OpenMethod

import Verif.Model.Basic

/-!
# What the program registers

The records that `use_classes`, `method` and `override` objects put in the lists of a registry, before `initialize`.
-/

namespace OpenMethod

/-- `class_info` (preamble.hpp 308-325, filled by `use_class_aux`, core.hpp 346-379): a class and the bases it was
registered with. As `inheritance_map` (core.hpp 118-123) does, `bases` normally contains the class itself. -/
structure ClassInfo where
  type : TypeId
  bases : List TypeId
  isAbstract : Bool
  /-- address of `registry::static_vptr<Class>` (core.hpp 356) -/
  staticVptr : VarId
  deriving DecidableEq, Repr

/-- A function pointer `void (*)()`: either a function of the program (thunk of an overrider), or one of the two error
functions of a method (core.hpp 2583-2614), identified by the method's identity. -/
inductive Pf where
  | user (n : Nat)
  | notImplemented (method : Nat)
  | ambiguous (method : Nat)
  deriving DecidableEq, Repr

/-- `overrider_info` (preamble.hpp 355-366, filled by `override_impl`, core.hpp 2733-2782). -/
structure OverriderInfo where
  /-- types of the virtual parameters -/
  vp : List TypeId
  /-- return type -/
  ret : TypeId
  /-- the thunk -/
  pf : Nat
  /-- address of `method::next<Fn>` -/
  next : VarId
  deriving DecidableEq, Repr

/-- `method_info` (preamble.hpp 336-349, filled by `method::method`, core.hpp 2393-2424) together with the shape of the
parameter list known at compile time. -/
structure MethodInfo where
  /-- identity of the method object; also identifies its `slots_strides` array -/
  id : Nat
  /-- one entry per parameter, `true` when it is virtual -/
  params : List Bool
  /-- types of the virtual parameters -/
  vp : List TypeId
  /-- return type -/
  ret : TypeId
  overriders : List OverriderInfo
  deriving DecidableEq, Repr

/-- `method_info::arity` (preamble.hpp 341-343). -/
def MethodInfo.arity (m : MethodInfo) : Nat := m.vp.length

/-- The part of the `rtti` policy used by `initialize`: `type_index`, and `static_type<void>()`. -/
structure Rtti where
  ti : TypeId → Cls
  void : TypeId

/-- Everything currently registered in one registry. -/
structure Program where
  rtti : Rtti
  classes : List ClassInfo
  methods : List MethodInfo

/-- Conformance enforced by the C++ type system: a method has at least one virtual parameter, as many virtual types as
virtual parameters, and its overriders have the same number of virtual parameters (core.hpp 2032-2063, 2163-2200,
2621-2708). -/
structure MethodInfo.WF (m : MethodInfo) : Prop where
  pos : 0 < m.vp.length
  kinds : m.params.count true = m.vp.length
  overriders : ∀ o ∈ m.overriders, o.vp.length = m.vp.length

end OpenMethod

import Verif.Model.Registry

/-!
# Corrections of `vptr_vector` that detect unregistered classes

Not the library: `vptr_vector` without a hash, with any of two local corrections.

* `null`: `dynamic_vptr` (vptr_vector.hpp 135-170), with runtime_checks and without a hash, also reports `missing_class` if the
  element at the index is null;
* `clear`: `initialize` (vptr_vector.hpp 66-115) clears the vector before it calls `resize` (86-90), which keeps the elements
  that were stored by a previous `initialize`.

Without corrections, these are the functions of `Vptr` and `Registry` (`C99_library`).
-/

namespace OpenMethod

structure FixesD where
  null : Bool
  clear : Bool
  deriving DecidableEq, Repr

/-- The element is a null pointer: to a v-table, or to a `static_vptr`. -/
def Stored.isNull : Stored → Bool
  | .null => true
  | .direct p => p.isNone
  | .indirect _ => false

/-- `dynamic_vptr` (vptr_vector.hpp 135-170, vptr_map.hpp 81-105). -/
def dynamicVptrD (f : FixesD) (cfg : Config) (s : VptrState) (t : TypeId) : Res VRef :=
  if cfg.vector then do
    let i ← vecIndex cfg s.hash t
    if !cfg.typeHash && cfg.checks && decide (s.vec.length ≤ i) then .err (.missingClass t)
    else
      match s.vec[i]? with
      | none => .ub
      | some x => if f.null && !cfg.typeHash && cfg.checks && x.isNull then .err (.missingClass t) else x.ref cfg
  else
    match s.map.find? (fun y => y.1 == t) with
    | none => if cfg.checks then .err (.missingClass t) else .ub
    | some x => x.2.ref cfg

/-- `acquire_vptr` (core.hpp 528-537). -/
def acquireVptrD (f : FixesD) (cfg : Config) (s : RegState) (t : TypeId) : Res VRef := do
  requireInitialized cfg s
  dynamicVptrD f cfg s.vptr t

/-- `method::vptr` (core.hpp 2475-2482). -/
def argPtrD (f : FixesD) (cfg : Config) (s : RegState) : Arg → Res Ptr
  | .obj t => do
    let r ← acquireVptrD f cfg s t
    Res.ofOption (r.read s.svptr)
  | .vptr b => Res.ofOption (unboxVptr s b)

/-- A call (core.hpp 2432-2470). -/
def callD (f : FixesD) (cfg : Config) (s : RegState) (m : MethodInfo) (args : List Arg) (types : List TypeId) : Res Nat := do
  requireInitialized cfg s
  let ss ← Res.ofOption (s.ss m.id)
  let f ← resolve (readWord s.gen s.data) ss m.arity m.params (args.map (argPtrD f cfg s))
  enter f types

/-- `vptr::initialize` (vptr_vector.hpp 66-115). -/
def vptrInitD (f : FixesD) (cfg : Config) (rnd : Nat → BitVec 64) (mem : VarId → Option Ptr) (cs : List CtxClass) (s : VptrState) : Res VptrResult :=
  vptrInit cfg rnd mem cs (if f.clear then { s with vec := [] } else s)

/-- `initialize` (initialize.hpp 460-477, 1294-1415, 1612-1629). -/
def initRegistryD (f : FixesD) (E : Env) (p : Program) (s : RegState) : Res InitOut :=
  match compile E.platform E.n2216 p with
  | .ub => .ub
  | .err e => .ok { state := s, result := .error e }
  | .ok c =>
    match writeGlobal c s.fresh with
    | .ub => .ub
    | .err e => .ok { state := s, result := .error e }
    | .ok img =>
      let s1 := applyImage c.lattice img s
      match vptrInitD f E.cfg E.rnd s1.svptr (ctxClasses c.lattice) s1.vptr with
      | .ub => .ub
      | .err e => .ok { state := s1, result := .error e }
      | .ok v =>
        match v.error with
        | some e => .ok { state := { s1 with vptr := v.state }, result := .error e }
        | none => .ok {
            state := { s1 with vptr := v.state, data := img.data, gen := s.fresh, initialized := true }
            result := .ok c.report }

/-- The states that a registry can be in, at the end of `initialize` or `finalize`, since the start of the program. -/
inductive ReachedD (f : FixesD) (E : Env) : RegState → Prop
  | start : ReachedD f E .init
  | init {p s o} : ReachedD f E s → initRegistryD f E p s = .ok o → ReachedD f E o.state
  | final {s} : ReachedD f E s → ReachedD f E (finalize E s)

end OpenMethod

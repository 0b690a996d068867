import Verif.Model.Inplace
import Verif.Model.VirtualPtr

/-!
# Registries without a vptr policy (policies/static_rtti.hpp, test/test_static_rtti.cpp, initialize.hpp 1410-1412, 1646-1657)

In such a registry, v-table pointers cannot be obtained from objects: `acquire_vptr` (core.hpp 528-537) does not compile, unless the class has
`boost_openmethod_vptr`. `virtual_ptr`s are made by `final_virtual_ptr`, or from objects that embed their v-table pointers. The states are those of
`Verif.Model.Registry`; the field for the data of the vptr policy is not used. Policies with a state of their own, other than vptr policies and the type hash
that only these use, are not represented.
-/

namespace OpenMethod

/-- The policies that matter, the platform and the options. -/
structure BareEnv where
  /-- `runtime_checks` -/
  checks : Bool
  /-- `indirect_vptr` -/
  indirect : Bool
  platform : Platform
  n2216 : Bool

/-- The functions on `virtual_ptr`s and embedded pointers take a configuration, of which they only use `checks` and `indirect` when no v-table pointer is
obtained from a vptr policy. -/
def BareEnv.cfg (B : BareEnv) : Config := { checks := B.checks, indirect := B.indirect, vector := false, typeHash := false }

/-- `initialize` (initialize.hpp 460-477, 1294-1415, 1612-1629): as `initRegistry`, but `has_vptr` is false in `write_global_data` (1410). -/
def initBare (B : BareEnv) (p : Program) (s : RegState) : Res InitOut :=
  match compile B.platform B.n2216 p with
  | .ub => .ub
  | .err e => .ok { state := s, result := .error e }
  | .ok c =>
    match writeGlobal c s.fresh with
    | .ub => .ub
    | .err e => .ok { state := s, result := .error e }
    | .ok img => .ok {
        state := { applyImage c.lattice img s with data := img.data, gen := s.fresh, initialized := true }
        result := .ok c.report }

/-- `finalize` (initialize.hpp 1646-1657): no policy has a function `finalize`. -/
def finalizeBare (s : RegState) : RegState := { s with data := [], initialized := false }

/-- A virtual argument: a `virtual_ptr`, or an object with an embedded v-table pointer. -/
inductive BareArg where
  | vptr (b : Boxed)
  | embedded (e : Embedded)
  deriving DecidableEq, Repr

/-- `method::vptr` (core.hpp 2475-2482). -/
def bareArgPtr (B : BareEnv) (s : RegState) : BareArg → Res Ptr
  | .vptr b => Res.ofOption (unboxVptr s b)
  | .embedded e => embeddedPtr B.cfg s e

/-- A call (core.hpp 2432-2470). -/
def callBare (B : BareEnv) (s : RegState) (m : MethodInfo) (args : List BareArg) (types : List TypeId) : Res Nat := do
  if B.checks && !s.initialized then Res.err .notInitialized
  let ss ← Res.ofOption (s.ss m.id)
  let f ← resolve (readWord s.gen s.data) ss m.arity m.params (args.map (bareArgPtr B s))
  enter f types

/-- One operation on the registry. -/
def RegState.stepBare (B : BareEnv) (s : RegState) : RegOp → Res RegState
  | .init p => do
    let r ← initBare B p s
    .ok r.state
  | .final => .ok (finalizeBare s)

def RegState.runBare (B : BareEnv) (s : RegState) (ops : List RegOp) : Res RegState := ops.foldlM (RegState.stepBare B) s

end OpenMethod

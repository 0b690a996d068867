import Verif.Model.Call
import Verif.Model.Vptr

/-!
# A registry over time (preamble.hpp 922-1070, initialize.hpp 447-477, 1294-1415, 1612-1657)
-/

namespace OpenMethod

/-- The global variables of a registry: all are static members of templates instantiated with the registry. -/
structure RegState where
  /-- `dispatch_data` -/
  data : List Word
  /-- identifies the storage of `dispatch_data`: pointers computed from other storage cannot be used -/
  gen : Nat
  /-- identifies the storage that the next `initialize` allocates -/
  fresh : Nat
  /-- `static_vptr` variables -/
  svptr : VarId → Option Ptr
  /-- `slots_strides` arrays of the methods; `none`: never written, contains zeros -/
  ss : Nat → Option (List Nat)
  /-- `next` variables -/
  next : VarId → Option Pf
  /-- data of the vptr policy -/
  vptr : VptrState
  initialized : Bool

/-- Zero-initialised static storage. -/
def RegState.init : RegState where
  data := []
  gen := 0
  fresh := 1
  svptr _ := none
  ss _ := none
  next _ := none
  vptr := .init
  initialized := false

/-- What does not change over time: the policies of the registry, the platform, the options passed to `initialize`
and the random generator, whose seed is a constant (fast_perfect_hash.hpp 172). -/
structure Env where
  cfg : Config
  platform : Platform
  n2216 : Bool
  rnd : Nat → BitVec 64

/-- `*cls.static_vptr = gv_iter - cls.first_slot` for all classes (initialize.hpp 1371-1372). -/
def writeSvptr (L : Lattice) (img : Image) (gen : Nat) (mem : VarId → Option Ptr) : VarId → Option Ptr :=
  L.order.foldl (fun mem x => Function.update mem (L.staticVptr x) (some { gen := gen, off := img.vptr x })) mem

/-- The classes as the vptr policy sees them (initialize.hpp 1410-1412). -/
def ctxClasses (L : Lattice) : List CtxClass := L.order.map fun x => { ids := L.typeIds x, var := L.staticVptr x }

/-- The stores of `write_global_data`, except those of the vptr policy and the swap of the vectors. -/
def applyImage (L : Lattice) (img : Image) (s : RegState) : RegState :=
  { s with
    svptr := writeSvptr L img s.fresh s.svptr
    ss := fun id => (slotsStridesAt img id).or (s.ss id)
    next := fun v => (nextAt img v).or (s.next v)
    fresh := s.fresh + 1 }

/-- Result of `initialize`: the state afterwards, and the error if one was reported. The error handler may throw; the state
is then what remains. -/
structure InitOut where
  state : RegState
  result : Except Err Report

/-- `initialize` (initialize.hpp 460-477, 1294-1415, 1612-1629), for the classes and methods registered at this time.
Errors detected by `compile` leave the state as it was. If the search for hash factors fails, what was written remains, and the
new dispatch data is destroyed. -/
def initRegistry (E : Env) (p : Program) (s : RegState) : Res InitOut :=
  match compile E.platform E.n2216 p with
  | .ub => .ub
  | .err e => .ok { state := s, result := .error e }
  | .ok c =>
    match writeGlobal c s.fresh with
    | .ub => .ub
    | .err e => .ok { state := s, result := .error e }
    | .ok img =>
      let s1 := applyImage c.lattice img s
      match vptrInit E.cfg E.rnd s1.svptr (ctxClasses c.lattice) s1.vptr with
      | .ub => .ub
      | .err e => .ok { state := s1, result := .error e }
      | .ok v =>
        match v.error with
        | some e => .ok { state := { s1 with vptr := v.state }, result := .error e }
        | none => .ok {
            state := { s1 with vptr := v.state, data := img.data, gen := s.fresh, initialized := true }
            result := .ok c.report }

/-- `finalize` (initialize.hpp 1646-1657). -/
def finalize (E : Env) (s : RegState) : RegState :=
  { s with vptr := vptrFinalize E.cfg s.vptr, data := [], initialized := false }

/-- `require_initialized` (preamble.hpp 1060-1070). -/
def requireInitialized (cfg : Config) (s : RegState) : Res Unit :=
  if cfg.checks && !s.initialized then .err .notInitialized else .ok ()

/-- `acquire_vptr` (core.hpp 528-537) for an object with dynamic type `t`, whose class has no `boost_openmethod_vptr`. -/
def acquireVptr (cfg : Config) (s : RegState) (t : TypeId) : Res VRef := do
  requireInitialized cfg s
  dynamicVptr cfg s.vptr t

/-- The v-table pointer in a `virtual_ptr`: a copy of the v-table pointer, or the address of a `static_vptr`
(core.hpp 539-554). -/
inductive Boxed where
  | direct (p : Option Ptr)
  | indirect (v : VarId)
  deriving DecidableEq, Repr

/-- `box_vptr` (core.hpp 539-546) applied to the result of `acquire_vptr`. The address of an element of the vector is never
taken: elements are returned by reference only without indirect_vptr. -/
def boxVptr (cfg : Config) (r : VRef) : Res Boxed :=
  if cfg.indirect then
    match r with
    | .var v => .ok (.indirect v)
    | .value _ => .ub
  else
    match r with
    | .value p => .ok (.direct p)
    | .var _ => .ub

/-- `unbox_vptr` (core.hpp 548-554). -/
def unboxVptr (s : RegState) : Boxed → Option Ptr
  | .direct p => p
  | .indirect v => s.svptr v

/-- Constructing a `virtual_ptr` from an object (core.hpp 740-746 and others). -/
def makeVirtualPtr (cfg : Config) (s : RegState) (t : TypeId) : Res Boxed := do
  let r ← acquireVptr cfg s t
  boxVptr cfg r

/-- A virtual argument: an object with a dynamic type, or a `virtual_ptr`. -/
inductive Arg where
  | obj (t : TypeId)
  | vptr (b : Boxed)
  deriving DecidableEq, Repr

/-- `method::vptr` (core.hpp 2475-2482). The result is dereferenced: a null v-table pointer is undefined behaviour. -/
def argPtr (cfg : Config) (s : RegState) : Arg → Res Ptr
  | .obj t => do
    let r ← acquireVptr cfg s t
    Res.ofOption (r.read s.svptr)
  | .vptr b => Res.ofOption (unboxVptr s b)

/-- A call (core.hpp 2432-2470). `types` are the dynamic types of all arguments, only used to report errors. -/
def call (cfg : Config) (s : RegState) (m : MethodInfo) (args : List Arg) (types : List TypeId) : Res Nat := do
  requireInitialized cfg s
  let ss ← Res.ofOption (s.ss m.id)
  let f ← resolve (readWord s.gen s.data) ss m.arity m.params (args.map (argPtr cfg s))
  enter f types

/-- Operations on a registry; registrations are reflected in the program that `initialize` finds. -/
inductive RegOp where
  | init (p : Program)
  | final

/-- One operation; `none` when it has undefined behaviour. -/
def RegState.step (E : Env) (s : RegState) : RegOp → Res RegState
  | .init p => do
    let r ← initRegistry E p s
    .ok r.state
  | .final => .ok (finalize E s)

def RegState.run (E : Env) (s : RegState) (ops : List RegOp) : Res RegState := ops.foldlM (RegState.step E) s

end OpenMethod

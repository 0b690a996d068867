import Verif.Model.Hash
import Verif.Model.Global

/-!
# The vptr policies (policies/vptr_vector.hpp, policies/vptr_map.hpp)
-/

namespace OpenMethod

/-- The policies of a registry that matter to the acquisition of v-table pointers (preamble.hpp 1016-1041). -/
structure Config where
  /-- `runtime_checks` -/
  checks : Bool
  /-- `indirect_vptr` -/
  indirect : Bool
  /-- `true`: `vptr_vector`; `false`: `vptr_map` -/
  vector : Bool
  /-- there is a `type_hash` policy, `fast_perfect_hash` (only used by `vptr_vector`) -/
  typeHash : Bool
  deriving DecidableEq, Repr

/-- What a vptr policy stores for a type id: a v-table pointer, which can be null, or the address of a `static_vptr`
variable (vptr_vector.hpp 17-21, vptr_map.hpp 35-36). -/
inductive Stored where
  | null
  | direct (p : Option Ptr)
  | indirect (v : VarId)
  deriving DecidableEq, Repr

/-- A class as the policies see it through `ctx.classes_begin()`: its type ids and its `static_vptr`
(initialize.hpp 95-125). -/
structure CtxClass where
  ids : List TypeId
  var : VarId
  deriving DecidableEq, Repr

/-- Global data of the policies: the hash factors and control table; the vector; the map, as a list of pairs with
distinct keys. -/
structure VptrState where
  hash : HashState
  vec : List Stored
  map : List (TypeId × Stored)
  deriving DecidableEq, Repr

/-- Zero-initialised static storage. -/
def VptrState.init : VptrState := { hash := { mult := 0, shift := 0, min := 0, max := 0, buckets := [] }, vec := [], map := [] }

/-- The element stored for a class: `iter->vptr()` or `&iter->vptr()` (vptr_vector.hpp 104-110, vptr_map.hpp 55-59). `mem` is
the content of the `static_vptr` variables. -/
def storedFor (cfg : Config) (mem : VarId → Option Ptr) (c : CtxClass) : Stored :=
  if cfg.indirect then .indirect c.var else .direct (mem c.var)

/-- The pairs visited by the loops over classes and type ids. -/
def ctxPairs (cfg : Config) (mem : VarId → Option Ptr) (cs : List CtxClass) : List (TypeId × Stored) :=
  cs.flatMap fun c => c.ids.map fun t => (t, storedFor cfg mem c)

/-- The index of a type id in the vector (vptr_vector.hpp 96-102). -/
def vecIndex (cfg : Config) (h : HashState) (t : TypeId) : Res Nat := if cfg.typeHash then hash cfg.checks h t else .ok t.toNat

/-- Storing in the vector (vptr_vector.hpp 92-112). Writing outside the vector is undefined behaviour. -/
def storeVec (cfg : Config) (h : HashState) (vec : List Stored) (x : TypeId × Stored) : Res (List Stored) := do
  let i ← vecIndex cfg h x.1
  if i < vec.length then .ok (vec.set i x.2) else .ub

/-- Size of the vector without hash (vptr_vector.hpp 73-84): modulo 2^64, as `++size` can wrap. -/
def vecSize (ids : List TypeId) : Nat := (ids.foldl (fun n t => Nat.max n t.toNat) 0 + 1) % 2 ^ 64

/-- Result of `vptr::initialize`: the state of the policies afterwards and, if the search for hash factors failed, the
error that was reported. Without runtime_checks the control table is not used. -/
structure VptrResult where
  state : VptrState
  error : Option Err

/-- Filling the vector (vptr_vector.hpp 86-114). -/
def fillVec (cfg : Config) (mem : VarId → Option Ptr) (cs : List CtxClass) (s : VptrState) (size : Nat) : Res VptrResult := do
  let vec ← (ctxPairs cfg mem cs).foldlM (storeVec cfg s.hash) (resize s.vec size .null)
  .ok { state := { s with vec := vec }, error := none }

/-- The local vector of buckets is empty at first (fast_perfect_hash.hpp 116); with runtime_checks the global one is used. -/
def bucketsBefore (cfg : Config) (h : HashState) : HashState := if cfg.checks then h else { h with buckets := [] }

/-- `vptr::initialize` (vptr_vector.hpp 66-115, vptr_map.hpp 46-64). `rnd`: see `hashInit`. -/
def vptrInit (cfg : Config) (rnd : Nat → BitVec 64) (mem : VarId → Option Ptr) (cs : List CtxClass) (s : VptrState) : Res VptrResult :=
  if cfg.vector then
    if cfg.typeHash then do
      let r ← hashInit rnd cs.length (cs.flatMap (·.ids)) (bucketsBefore cfg s.hash)
      match r with
      | .found h => fillVec cfg mem cs { s with hash := h } (h.max + 1)
      | .failed attempts buckets h => .ok { state := { s with hash := h.state }, error := some (.searchError attempts buckets) }
    else fillVec cfg mem cs s (vecSize (cs.flatMap (·.ids)))
  else
    let m := (ctxPairs cfg mem cs).foldl (fun m x => if m.any (fun y => y.1 == x.1) then m else m ++ [x]) []
    .ok { state := { s with map := m }, error := none }

/-- What `dynamic_vptr` returns a reference to: an element of the vector or map, of which the value is given; or a
`static_vptr` variable. -/
inductive VRef where
  | value (p : Option Ptr)
  | var (v : VarId)
  deriving DecidableEq, Repr

/-- `return *vptrs[index]` or `return vptrs[index]` (vptr_vector.hpp 166-170, vptr_map.hpp 96-104). Dereferencing null is
undefined behaviour; a null v-table pointer can be returned. -/
def Stored.ref (cfg : Config) : Stored → Res VRef
  | .null => if cfg.indirect then .ub else .ok (.value none)
  | .direct p => .ok (.value p)
  | .indirect v => .ok (.var v)

/-- `dynamic_vptr` (vptr_vector.hpp 135-170, vptr_map.hpp 81-105) for an object with dynamic type `t`. -/
def dynamicVptr (cfg : Config) (s : VptrState) (t : TypeId) : Res VRef :=
  if cfg.vector then do
    let i ← vecIndex cfg s.hash t
    if !cfg.typeHash && cfg.checks && decide (s.vec.length ≤ i) then .err (.missingClass t)
    else
      match s.vec[i]? with
      | none => .ub
      | some x => x.ref cfg
  else
    match s.map.find? (fun y => y.1 == t) with
    | none => if cfg.checks then .err (.missingClass t) else .ub
    | some x => x.2.ref cfg

/-- The v-table pointer read through the reference. -/
def VRef.read (mem : VarId → Option Ptr) : VRef → Option Ptr
  | .value p => p
  | .var v => mem v

/-- `finalize` (vptr_vector.hpp 178-186, vptr_map.hpp 113-115, fast_perfect_hash.hpp 146-148). The registry calls it for
all its policies (initialize.hpp 1648-1653). -/
def vptrFinalize (cfg : Config) (s : VptrState) : VptrState :=
  { hash := if cfg.typeHash then hashFinalize s.hash else s.hash
    vec := if cfg.vector then [] else s.vec
    map := if cfg.vector then s.map else [] }

end OpenMethod

import Verif.Model.Registry

/-!
# `initialize` when memory is exhausted (initialize.hpp 447-477, 1294-1415, fast_perfect_hash.hpp 166-247, vptr_vector.hpp 66-115, vptr_map.hpp 46-64)

An allocation throws `std::bad_alloc`, which no function of the library catches: the local variables, among them the new dispatch data, are destroyed, and the global ones keep what was stored in them. Vectors
have the strong guarantee: `resize` changes nothing if it throws, and only allocates if the size exceeds the capacity, which is not less than the largest size since the vector was created. That larger
capacities can remain from earlier is not represented: in the model, more allocations can fail than in reality.
-/

namespace OpenMethod

/-- The allocation that fails. -/
inductive Fault where
  /-- one in `compile` (initialize.hpp 460-469), which only stores in variables of the compiler -/
  | compile
  /-- that of `new_dispatch_data` (initialize.hpp 1309) -/
  | data
  /-- one made to write the trace (names are strings), after the given number of stores in global variables (initialize.hpp 1314-1408). Some names are written after each store in `static_vptr`, before those in
  `next`, and after those in the slots and strides of multi-methods; in the model, this can happen after any store -/
  | trace (stores : Nat)
  /-- `buckets.resize` in a pass of the search for hash factors (fast_perfect_hash.hpp 195) -/
  | buckets (pass : Nat)
  /-- `resize` of the vector of v-table pointers (vptr_vector.hpp 86-90) -/
  | vector
  /-- `emplace` in the new map (vptr_map.hpp 55-59) -/
  | map
  deriving DecidableEq, Repr

/-- A store in a global variable (initialize.hpp 1319-1322, 1359, 1372). -/
inductive Store where
  | slotsStrides (method : Nat) (l : List Nat)
  | next (v : VarId) (f : Pf)
  | svptr (v : VarId) (p : Ptr)

def Store.apply (s : RegState) : Store → RegState
  | .slotsStrides m l => { s with ss := Function.update s.ss m (some l) }
  | .next v f => { s with next := Function.update s.next v (some f) }
  | .svptr v p => { s with svptr := Function.update s.svptr v (some p) }

/-- The stores of `write_global_data` before it calls the vptr policy, in order. The words of the new dispatch data are not global. -/
def stores (L : Lattice) (img : Image) (gen : Nat) : List Store :=
  img.slotsStrides.map (fun x => .slotsStrides x.1 x.2) ++ img.next.map (fun x => .next x.1 x.2) ++ L.order.map fun x => .svptr (L.staticVptr x) { gen := gen, off := img.vptr x }

/-- The search for hash factors (fast_perfect_hash.hpp 182-237), if the allocation of pass `k` fails: what the variables then contain; `none` if this allocation is not made. `cap` is the capacity of the vector. -/
def searchFault (rnd : Nat → BitVec 64) (ids : List TypeId) : Nat → Nat → Nat → Nat → Search → Res (Option HashState)
  | _, 0, _, _, _ => .ok none
  | k, passes + 1, M, cap, s =>
    if 31 ≤ M then .ub
    else
      let st := { s.state with shift := 64 - M, min := sizeMax, max := 0 }
      match k with
      | 0 => .ok (if cap < 2 ^ M then some st else none)
      | k + 1 => do
        let r ← tryFactors rnd ids attemptsPerPass { s with state := { st with buckets := resize st.buckets (2 ^ M) 0 } }
        if r.1 then .ok none else searchFault rnd ids k passes (M + 1) (Nat.max cap (2 ^ M)) r.2

/-- `vptr::initialize` (vptr_vector.hpp 66-115, vptr_map.hpp 46-64), if an allocation fails: what the variables of the policies then contain; `none` if this allocation is not made. -/
def vptrFault (cfg : Config) (rnd : Nat → BitVec 64) (cs : List CtxClass) (s : VptrState) : Fault → Res (Option VptrState)
  | .buckets k =>
    if cfg.vector && cfg.typeHash then do
      let old := bucketsBefore cfg s.hash
      let h ← searchFault rnd (cs.flatMap (·.ids)) k 4 (initialM cs.length) old.buckets.length { state := old, total := 0, drawn := 0 }
      .ok (h.map fun h => { s with hash := h })
    else .ok none
  | .vector =>
    if cfg.vector then
      if cfg.typeHash then do
        let r ← hashInit rnd cs.length (cs.flatMap (·.ids)) (bucketsBefore cfg s.hash)
        match r with
        | .found h => .ok (if s.vec.length < h.max + 1 then some { s with hash := h } else none)
        | .failed _ _ _ => .ok none
      else .ok (if s.vec.length < vecSize (cs.flatMap (·.ids)) then some s else none)
    else .ok none
  | .map => .ok (if cfg.vector || cs.isEmpty then none else some s)
  | _ => .ok none

/-- `initialize`, if an allocation fails: the state when the exception leaves the function; `none` if this allocation is not made, because `initialize` does not need it, or reports an error before. `trace`: the trace
is written. -/
def initFault (E : Env) (trace : Bool) (p : Program) (s : RegState) (f : Fault) : Res (Option RegState) :=
  match f with
  | .compile => .ok (some s)
  | f =>
    match OpenMethod.compile E.platform E.n2216 p with
    | .ub => .ub
    | .err _ => .ok none
    | .ok c =>
      match f with
      | .data => .ok (if dataSize c = 0 then none else some s)
      | f =>
        match writeGlobal c s.fresh with
        | .ub => .ub
        | .err _ => .ok none
        | .ok img =>
          match f with
          | .trace n => .ok (if trace then some { ((stores c.lattice img s.fresh).take n).foldl Store.apply s with fresh := s.fresh + 1 } else none)
          | f => do
            let s1 := applyImage c.lattice img s
            let v ← vptrFault E.cfg E.rnd (ctxClasses c.lattice) s1.vptr f
            .ok (v.map fun v => { s1 with vptr := v })

end OpenMethod

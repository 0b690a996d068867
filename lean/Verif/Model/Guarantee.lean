import Verif.Model.Memory
import Verif.Model.Rollback

/-!
# Corrections of `initialize` for failures of memory allocation

Not the library: `initialize` with any of three corrections.  The first two are those of `Verif.Model.Rollback`, extended to
the other allocations of the vptr policies.

* `early`: the vptr policy makes its allocations (`buckets.resize`, fast_perfect_hash.hpp 195; `vptrs.resize`, vptr_vector.hpp 86-90;
  `emplace`, vptr_map.hpp 55-59) before `write_global_data` (initialize.hpp 1294-1415) stores anything in the `static_vptr`s, the slots
  and strides of methods, and the `next` variables.  Filling the vector, or the elements of the map, allocates nothing;
* `keep`: the search for hash factors works on local variables, which are moved to the static members of `fast_perfect_hash` when
  all the allocations were made;
* `quiet`: the names for the trace (initialize.hpp 1314-1408) are obtained before the stores, not between them.

Without corrections, this is `initFault` (`C101_library`).
-/

namespace OpenMethod

structure FixesM extends FixesR where
  quiet : Bool
  deriving DecidableEq, Repr

/-- `initialize`, if an allocation fails: the state when the exception leaves the function; `none` if this allocation is not made. -/
def initFaultM (fx : FixesM) (E : Env) (trace : Bool) (p : Program) (s : RegState) (f : Fault) : Res (Option RegState) :=
  match f with
  | .compile => .ok (some s)
  | f =>
    match OpenMethod.compile E.platform E.n2216 p with
    | .ub => .ub
    | .err _ => .ok none
    | .ok c =>
      match f with
      | .data => .ok (if dataSize c = 0 then none else some s)
      | f =>
        match writeGlobal c s.fresh with
        | .ub => .ub
        | .err _ => .ok none
        | .ok img =>
          match f with
          | .trace n =>
            let done := if fx.quiet then [] else (stores c.lattice img s.fresh).take n
            .ok (if trace then some { done.foldl Store.apply s with fresh := s.fresh + 1 } else none)
          | f => do
            let s1 := applyImage c.lattice img s
            let before := if fx.early then { s with fresh := s.fresh + 1 } else s1
            let v ← vptrFault E.cfg E.rnd (ctxClasses c.lattice) s1.vptr f
            .ok (v.map fun v => { before with vptr := if fx.keep then s.vptr else v })

/-- The states that a registry with policies `cfg` can be in, at the end of `initialize`, successful or not, or of `finalize`, since the
start of the program. -/
inductive ReachedM (fx : FixesM) (cfg : Config) : RegState → Prop
  | start : ReachedM fx cfg .init
  | init {E p s o} : ReachedM fx cfg s → E.cfg = cfg → initRegistryR fx.toFixesR E p s = .ok o → ReachedM fx cfg o.state
  | exhausted {E tr p s f s'} : ReachedM fx cfg s → E.cfg = cfg → initFaultM fx E tr p s f = .ok (some s') → ReachedM fx cfg s'
  | final {E s} : ReachedM fx cfg s → E.cfg = cfg → ReachedM fx cfg (finalize E s)

end OpenMethod

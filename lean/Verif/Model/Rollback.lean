import Verif.Model.Registry

/-!
# Corrections of `initialize` for the failure of the search for hash factors

Not the library: `initialize` with any of two corrections.

* `early`: the search (fast_perfect_hash.hpp 166-247) is made before `write_global_data` (initialize.hpp 1294-1415) stores anything
  in the `static_vptr`s, the slots and strides of methods, and the `next` variables of overriders.  The search depends on the type
  ids only.  The vector of the policy is filled after the stores, as before;
* `keep`: the search works on local variables, and assigns the static members and the control table of `fast_perfect_hash`
  (fast_perfect_hash.hpp 77-80, 35) only when it succeeds.

Without corrections, this is `initRegistry` (`C100_library`).  The search is the only part of `vptr::initialize` that reports an
error, so it is enough to say what had been stored when it does.
-/

namespace OpenMethod

structure FixesR where
  early : Bool
  keep : Bool
  deriving DecidableEq, Repr

/-- `initialize` (initialize.hpp 460-477, 1294-1415, 1612-1629). -/
def initRegistryR (f : FixesR) (E : Env) (p : Program) (s : RegState) : Res InitOut :=
  match compile E.platform E.n2216 p with
  | .ub => .ub
  | .err e => .ok { state := s, result := .error e }
  | .ok c =>
    match writeGlobal c s.fresh with
    | .ub => .ub
    | .err e => .ok { state := s, result := .error e }
    | .ok img =>
      let s1 := applyImage c.lattice img s
      let before := if f.early then s else s1
      match vptrInit E.cfg E.rnd s1.svptr (ctxClasses c.lattice) s1.vptr with
      | .ub => .ub
      | .err e => .ok { state := before, result := .error e }
      | .ok v =>
        match v.error with
        | some e => .ok { state := { before with vptr := if f.keep then s.vptr else v.state }, result := .error e }
        | none => .ok {
            state := { s1 with vptr := v.state, data := img.data, gen := s.fresh, initialized := true }
            result := .ok c.report }

/-- The states that a registry with policies `cfg` can be in, at the end of `initialize` or `finalize`, since the start of the
program. -/
inductive ReachedR (f : FixesR) (cfg : Config) : RegState → Prop
  | start : ReachedR f cfg .init
  | init {E p s o} : ReachedR f cfg s → E.cfg = cfg → initRegistryR f E p s = .ok o → ReachedR f cfg o.state
  | final {E s} : ReachedR f cfg s → E.cfg = cfg → ReachedR f cfg (finalize E s)

end OpenMethod

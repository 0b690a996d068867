import Verif.Model.Basic

/-!
# `fast_perfect_hash` (policies/fast_perfect_hash.hpp)
-/

namespace OpenMethod

/-- `type_id(detail::uintptr_max)`, which marks an empty bucket. -/
def noType : TypeId := BitVec.allOnes 64

/-- `H(x) = (M*x) >> S` (fast_perfect_hash.hpp 129-132, 212): multiplication modulo 2^64, then a logical shift. -/
def hashIndex (mult : BitVec 64) (shift : Nat) (t : TypeId) : Nat := ((t * mult) >>> shift).toNat

/-- The static members of `fn` (fast_perfect_hash.hpp 77-80), and a vector of buckets. With runtime_checks the vector is
the global `fast_perfect_hash_control` (35), otherwise it is local to `initialize` (115-118). -/
structure HashState where
  mult : BitVec 64
  shift : Nat
  min : Nat
  max : Nat
  buckets : List TypeId
  deriving DecidableEq, Repr

/-- The two nested loops over the classes and their type ids (fast_perfect_hash.hpp 206-224); `ids` are the type ids in the
order of the loops. Returns `false` on collision. Access to a bucket that does not exist is undefined behaviour. -/
def probe : List TypeId → HashState → Res (Bool × HashState)
  | [], s => .ok (true, s)
  | t :: ts, s =>
    let index := hashIndex s.mult s.shift t
    let s := { s with min := Nat.min s.min index, max := Nat.max s.max index }
    match s.buckets[index]? with
    | none => .ub
    | some b =>
      if b ≠ noType then .ok (false, s)
      else probe ts { s with buckets := s.buckets.set index t }

/-- Loop variables: the state; `total_attempts`; the number of factors drawn from the generator. -/
structure Search where
  state : HashState
  total : Nat
  drawn : Nat
  deriving DecidableEq, Repr

/-- Result of `initialize`: factors were found; or the search failed and `search_error` was reported with these values.
In the second case, `s` is what the variables contain when the error handler is called. -/
inductive HashResult where
  | found (s : HashState)
  | failed (attempts buckets : Nat) (s : Search)
  deriving DecidableEq, Repr

/-- The `while` loop (fast_perfect_hash.hpp 197-236), with `n` attempts left. `rnd` is the sequence of values of
`uniform_dist(rnd)`; nothing is assumed about it. Returns `true` when factors are found. -/
def tryFactors (rnd : Nat → BitVec 64) (ids : List TypeId) : Nat → Search → Res (Bool × Search)
  | 0, s => .ok (false, s)
  | n + 1, s => do
    let mult := rnd s.drawn ||| 1
    let r ← probe ids { s.state with mult := mult, buckets := List.replicate s.state.buckets.length noType }
    let s' : Search := { state := r.2, total := s.total + 1, drawn := s.drawn + 1 }
    if r.1 then .ok (true, s') else tryFactors rnd ids n s'

/-- `buckets.resize(n)`. -/
def resize {α : Type} (v : List α) (n : Nat) (fill : α) : List α := v.take n ++ List.replicate (n - v.length) fill

/-- Largest value of `std::size_t`. -/
def sizeMax : Nat := 2 ^ 64 - 1

/-- Number of attempts in a pass (fast_perfect_hash.hpp 197). -/
def attemptsPerPass : Nat := 100000

/-- The loop over passes (fast_perfect_hash.hpp 182-237), with `passes` left. `1 << M` is computed in type `int`: it
overflows when `M` is 31 or more. -/
def searchPasses (rnd : Nat → BitVec 64) (ids : List TypeId) : Nat → Nat → Search → Res HashResult
  | 0, M, s => .ok (.failed s.total (2 ^ M) s)
  | passes + 1, M, s =>
    if 31 ≤ M then .ub
    else do
      let st := { s.state with
        shift := 64 - M, min := sizeMax, max := 0, buckets := resize s.state.buckets (2 ^ M) 0 }
      let r ← tryFactors rnd ids attemptsPerPass { s with state := st }
      if r.1 then .ok (.found r.2.state) else searchPasses rnd ids passes (M + 1) r.2

/-- Initial value of `M` (fast_perfect_hash.hpp 174-178), `for (size = N * 5 / 4; size >>= 1;) ++M`. -/
def initialM (classes : Nat) : Nat := 1 + Nat.log2 (classes * 5 / 4)

/-- `initialize` (fast_perfect_hash.hpp 166-247). `classes` is the number of classes, `ids` all their type ids, `old` the
content of the static members and of the vector before. -/
def hashInit (rnd : Nat → BitVec 64) (classes : Nat) (ids : List TypeId) (old : HashState) : Res HashResult :=
  searchPasses rnd ids 4 (initialM classes) { state := old, total := 0, drawn := 0 }

/-- `check` (fast_perfect_hash.hpp 250-262). -/
def hashCheck (s : HashState) (index : Nat) (t : TypeId) : Res Unit :=
  if index < s.min ∨ s.max < index then .err (.missingClass t)
  else
    match s.buckets[index]? with
    | none => .ub
    | some b => if b ≠ t then .err (.missingClass t) else .ok ()

/-- `hash` (fast_perfect_hash.hpp 129-138). -/
def hash (checks : Bool) (s : HashState) (t : TypeId) : Res Nat := do
  let index := hashIndex s.mult s.shift t
  if checks then hashCheck s index t
  .ok index

/-- `finalize` (fast_perfect_hash.hpp 146-148). -/
def hashFinalize (s : HashState) : HashState := { s with buckets := [] }

end OpenMethod

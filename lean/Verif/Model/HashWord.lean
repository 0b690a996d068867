import Verif.Model.Hash

/-!
# `fast_perfect_hash` on targets of other sizes (policies/fast_perfect_hash.hpp)

`Model.Hash` represents targets on which pointers and `std::size_t` have 64 bits. Here they have `w` bits; `int` still has 32. The functions are those of `Model.Hash`, with the size as a parameter, except that the
check returns a Boolean instead of reporting an error, whose type is that of 64 bit targets.
-/

namespace OpenMethod

namespace Word

/-- `type_id(detail::uintptr_max)`. -/
def noType (w : Nat) : BitVec w := BitVec.allOnes w

/-- `(M*x) >> S` (fast_perfect_hash.hpp 129-132, 212). -/
def hashIndex {w : Nat} (mult : BitVec w) (shift : Nat) (t : BitVec w) : Nat := ((t * mult) >>> shift).toNat

structure HashState (w : Nat) where
  mult : BitVec w
  shift : Nat
  min : Nat
  max : Nat
  buckets : List (BitVec w)
  deriving DecidableEq, Repr

/-- The loops over the classes and their type ids (fast_perfect_hash.hpp 206-224). -/
def probe {w : Nat} : List (BitVec w) → HashState w → Res (Bool × HashState w)
  | [], s => .ok (true, s)
  | t :: ts, s =>
    let index := hashIndex s.mult s.shift t
    let s := { s with min := Nat.min s.min index, max := Nat.max s.max index }
    match s.buckets[index]? with
    | none => .ub
    | some b =>
      if b ≠ noType w then .ok (false, s)
      else probe ts { s with buckets := s.buckets.set index t }

structure Search (w : Nat) where
  state : HashState w
  total : Nat
  drawn : Nat
  deriving DecidableEq, Repr

inductive HashResult (w : Nat) where
  | found (s : HashState w)
  | failed (attempts buckets : Nat) (s : Search w)
  deriving DecidableEq, Repr

/-- The `while` loop (fast_perfect_hash.hpp 197-236). -/
def tryFactors {w : Nat} (rnd : Nat → BitVec w) (ids : List (BitVec w)) : Nat → Search w → Res (Bool × Search w)
  | 0, s => .ok (false, s)
  | n + 1, s => do
    let mult := rnd s.drawn ||| 1
    let r ← probe ids { s.state with mult := mult, buckets := List.replicate s.state.buckets.length (noType w) }
    let s' : Search w := { state := r.2, total := s.total + 1, drawn := s.drawn + 1 }
    if r.1 then .ok (true, s') else tryFactors rnd ids n s'

/-- Largest value of `std::size_t`. -/
def sizeMax (w : Nat) : Nat := 2 ^ w - 1

/-- The loop over passes (fast_perfect_hash.hpp 182-237). The shift is `8 * sizeof(type_id) - M`; `1 << M` is computed in type `int`. -/
def searchPasses {w : Nat} (rnd : Nat → BitVec w) (ids : List (BitVec w)) : Nat → Nat → Search w → Res (HashResult w)
  | 0, M, s => .ok (.failed s.total (2 ^ M) s)
  | passes + 1, M, s =>
    if 31 ≤ M then .ub
    else do
      let st := { s.state with shift := w - M, min := sizeMax w, max := 0, buckets := resize s.state.buckets (2 ^ M) 0 }
      let r ← tryFactors rnd ids attemptsPerPass { s with state := st }
      if r.1 then .ok (.found r.2.state) else searchPasses rnd ids passes (M + 1) r.2

/-- `initialize` (fast_perfect_hash.hpp 166-247). -/
def hashInit {w : Nat} (rnd : Nat → BitVec w) (classes : Nat) (ids : List (BitVec w)) (old : HashState w) : Res (HashResult w) :=
  searchPasses rnd ids 4 (initialM classes) { state := old, total := 0, drawn := 0 }

/-- `check` (fast_perfect_hash.hpp 250-262): `false` if the class is reported as missing. -/
def hashCheck {w : Nat} (s : HashState w) (index : Nat) (t : BitVec w) : Res Bool :=
  if index < s.min ∨ s.max < index then .ok false
  else
    match s.buckets[index]? with
    | none => .ub
    | some b => .ok (b = t)

/-- `hash` (fast_perfect_hash.hpp 129-138): `none` if the class is reported as missing. -/
def hash {w : Nat} (checks : Bool) (s : HashState w) (t : BitVec w) : Res (Option Nat) :=
  let index := hashIndex s.mult s.shift t
  if checks then do
    let b ← hashCheck s index t
    .ok (if b then some index else none)
  else .ok (some index)

end Word

end OpenMethod

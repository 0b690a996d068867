import Verif.Model.Methods

/-!
# `select_dominant_overriders` and `is_more_specific` (initialize.hpp 1419-1506)
-/

namespace OpenMethod

/-- The loop of `is_more_specific` (initialize.hpp 1486-1506). The code advances both iterators until the end of the first
list; overriders of one method have the same number of virtual parameters, so that both lists end together. -/
def moreSpecificLoop (td : Cls → List Cls) : Bool → List Cls → List Cls → Bool
  | result, x :: xs, y :: ys =>
    if x ≠ y then
      if x ∈ td y then moreSpecificLoop td true xs ys
      else if y ∈ td x then false
      else moreSpecificLoop td result xs ys
    else moreSpecificLoop td result xs ys
  | result, _, _ => result

/-- `is_more_specific` (initialize.hpp 1486-1506). -/
def isMoreSpecific (td : Cls → List Cls) (a b : List Cls) : Bool := moreSpecificLoop td false a b

/-- The inner loop of the elimination (initialize.hpp 1429-1438): candidate `a` against the candidates after it. Candidates
are designated by numbers, null pointers by `none`. Returns what becomes of `a` and of the others. -/
def sweep (more : Nat → Nat → Bool) (a : Nat) : List (Option Nat) → Option Nat × List (Option Nat)
  | [] => (some a, [])
  | none :: r => let s := sweep more a r; (s.1, none :: s.2)
  | some b :: r =>
    if more a b then let s := sweep more a r; (s.1, none :: s.2)
    else if more b a then (none, some b :: r)
    else let s := sweep more a r; (s.1, some b :: s.2)

/-- The outer loop of the elimination (initialize.hpp 1426-1446). The first argument is the number of iterations left. -/
def eliminate (more : Nat → Nat → Bool) : Nat → List (Option Nat) → List (Option Nat)
  | n + 1, none :: r => none :: eliminate more n r
  | n + 1, some a :: r => let s := sweep more a r; s.1 :: eliminate more n s.2
  | _, l => l

/-- `pick` after the loop (initialize.hpp 1442-1444): the index of the last remaining candidate, 0 if there is none. -/
def pickOf (l : List (Option Nat)) : Nat :=
  (l.zipIdx.foldl (fun p x => if x.1.isSome then x.2 else p) 0)

/-- `remaining` after the loop (initialize.hpp 1444). -/
def remainingOf (l : List (Option Nat)) : Nat := l.countP Option.isSome

/-- Inner loop of the `n2216` elimination (initialize.hpp 1461-1474): there is no exit from the loop after
`candidates[i]` is set to null, so that the next non-null candidate is compared through a null pointer. A null
`covariant_return_type` is dereferenced as well. -/
def sweepRet (ret : Nat → Option Cls) (td : Cls → List Cls) :
    Option Nat → List (Option Nat) → Res (Option Nat × List (Option Nat))
  | a, [] => .ok (a, [])
  | a, none :: r => do
    let s ← sweepRet ret td a r
    return (s.1, none :: s.2)
  | a, some b :: r => do
    let i ← Res.ofOption a
    let ri ← Res.ofOption (ret i)
    let rj ← Res.ofOption (ret b)
    if rj ∈ td ri then do
      let s ← sweepRet ret td none r
      return (s.1, some b :: s.2)
    else if ri ∈ td rj then do
      let s ← sweepRet ret td a r
      return (s.1, none :: s.2)
    else do
      let s ← sweepRet ret td a r
      return (s.1, some b :: s.2)

/-- Outer loop of the `n2216` elimination (initialize.hpp 1459-1481). -/
def eliminateRet (ret : Nat → Option Cls) (td : Cls → List Cls) :
    Nat → List (Option Nat) → Res (List (Option Nat))
  | n + 1, none :: r => do
    let l ← eliminateRet ret td n r
    return none :: l
  | n + 1, some a :: r => do
    let s ← sweepRet ret td (some a) r
    let l ← eliminateRet ret td n s.2
    return s.1 :: l
  | _, l => .ok l

/-- Result of `select_dominant_overriders`: the candidates with the eliminated ones set to null, and the two output
parameters. -/
structure Selection where
  cands : List (Option Nat)
  pick : Nat
  remaining : Nat
  deriving DecidableEq, Repr

/-- `select_dominant_overriders` (initialize.hpp 1419-1482). -/
def selectDominant (n2216 : Bool) (more : Nat → Nat → Bool) (ret : Nat → Option Cls) (td : Cls → List Cls)
    (cands : List (Option Nat)) : Res Selection :=
  let l := eliminate more cands.length cands
  let s : Selection := { cands := l, pick := pickOf l, remaining := remainingOf l }
  if s.remaining ≤ 1 then .ok s
  else if n2216 then do
    -- 1453
    let p ← Res.ofOption (l[s.pick]?.join)
    if (ret p).isNone then return s
    else do
      let l' ← eliminateRet ret td l.length l
      -- `pick` keeps its value if nothing remains
      return { cands := l', pick := if remainingOf l' = 0 then s.pick else pickOf l', remaining := remainingOf l' }
  else .ok s

end OpenMethod

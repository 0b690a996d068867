import Verif.Examples.Check

/-!
# Concrete programs

Programs used to show that the hypotheses of theorems can be met, and as counterexamples. Class `n` has type id `n`; type
`1000` is `void`, which is not registered.
-/

namespace OpenMethod.Examples

open Spec

/-- One type id per class. -/
def rt : Rtti := { ti := fun t => t.toNat, void := 1000#64 }

def ids (l : List Nat) : List TypeId := l.map (BitVec.ofNat 64 ·)

/-- `cls d bs`: class `d` registered with bases `bs`. -/
def cls (t : Nat) (bs : List Nat) : ClassInfo := ⟨t, ids (t :: bs), false, t⟩

/-- `ov vp n`: overrider with thunk `n` and parameter classes `vp`. -/
def ov (vp : List Nat) (pf : Nat) : OverriderInfo := ⟨ids vp, 1000#64, pf, pf⟩

/-- An overrider returning a class. -/
def ovr (vp : List Nat) (ret : Nat) (pf : Nat) : OverriderInfo := ⟨ids vp, BitVec.ofNat 64 ret, pf, pf⟩

def meth (id : Nat) (params : List Bool) (vp : List Nat) (os : List OverriderInfo) : MethodInfo := ⟨id, params, ids vp, 1000#64, os⟩

def prog (cs : List ClassInfo) (ms : List MethodInfo) : Program := ⟨rt, cs, ms⟩

/-- `initialize`, then a call with objects of the given classes. -/
def runN (pl : Platform) (n2216 : Bool) (p : Program) (m : MethodInfo) (xs : List Cls) : Option (Res Nat) :=
  match install pl n2216 p 0 with
  | .ok (_, img) => some (callMethod 0 img m (Check.mkArgs (img.ptr 0) m.params xs) [])
  | _ => none

/-- Without option `n2216`. -/
def run (p : Program) (m : MethodInfo) (xs : List Cls) : Option (Res Nat) := runN .std false p m xs

variable {pl : Platform} {n : Bool} {p : Program} {m : MethodInfo} {xs : List Cls} {r : Res Nat}

theorem runN_eq (h : runN pl n p m xs = some r) :
    ∃ rep img, install pl n p 0 = .ok (rep, img) ∧ callMethod 0 img m (Check.mkArgs (img.ptr 0) m.params xs) [] = r := by
  unfold runN at h
  split at h
  · next rep img he => exact ⟨rep, img, he, Option.some.inj h⟩
  · simp at h

theorem run_eq (h : run p m xs = some r) :
    ∃ rep img, install .std false p 0 = .ok (rep, img) ∧ callMethod 0 img m (Check.mkArgs (img.ptr 0) m.params xs) [] = r := runN_eq h

/-- A call in a concrete program. -/
theorem runN_any (hv : Check.validB p = true) (h : runN pl n p m xs = some r)
    (hc : Check.anyCallB p m xs = true) : ∃ rep img args, p.Valid ∧ install pl n p 0 = .ok (rep, img) ∧
      AnyCall p 0 img m args xs ∧ callMethod 0 img m args [] = r := by
  obtain ⟨rep, img, hi, hr⟩ := runN_eq h
  exact ⟨rep, img, _, Check.valid hv, hi, Check.anyCall hv hc 0 img, hr⟩

theorem runN_call (hv : Check.validB p = true) (h : runN pl n p m xs = some r)
    (hc : Check.callB p m xs = true) : ∃ rep img args, p.Valid ∧ install pl n p 0 = .ok (rep, img) ∧
      CallTo p 0 img m args xs ∧ callMethod 0 img m args [] = r := by
  obtain ⟨rep, img, hi, hr⟩ := runN_eq h
  exact ⟨rep, img, _, Check.valid hv, hi, Check.callTo hv hc 0 img, hr⟩

theorem run_any (hv : Check.validB p = true) (h : run p m xs = some r)
    (hc : Check.anyCallB p m xs = true) : ∃ rep img args, p.Valid ∧ install .std false p 0 = .ok (rep, img) ∧
      AnyCall p 0 img m args xs ∧ callMethod 0 img m args [] = r := runN_any hv h hc

theorem run_call (hv : Check.validB p = true) (h : run p m xs = some r)
    (hc : Check.callB p m xs = true) : ∃ rep img args, p.Valid ∧ install .std false p 0 = .ok (rep, img) ∧
      CallTo p 0 img m args xs ∧ callMethod 0 img m args [] = r := runN_call hv h hc

/-- The error in a result. -/
def errOf {α : Type} : Res α → Option Err
  | .err e => some e
  | _ => none

theorem errOf_eq {α : Type} {x : Res α} {e : Err} (h : errOf x = some e) : x = .err e := by
  cases x with
  | err e' => rw [Option.some.inj h]
  | _ => simp [errOf] at h

def isOk {α : Type} : Res α → Bool
  | .ok _ => true
  | _ => false

theorem isOk_eq {α : Type} {x : Res α} (h : isOk x = true) : ∃ a, x = .ok a := by
  cases x with
  | ok a => exact ⟨a, rfl⟩
  | _ => simp [isOk] at h

def isUb {α : Type} : Res α → Bool
  | .ub => true
  | _ => false

theorem isUb_eq {α : Type} {x : Res α} (h : isUb x = true) : x = .ub := by
  cases x with
  | ub => rfl
  | _ => simp [isUb] at h

/-! ## A small zoo -/

/-- `Animal` 1, `Dog` 2, `Cat` 3, `Bulldog` 4. -/
def poke : MethodInfo := meth 0 [false, true, false] [1] [ov [1] 10, ov [4] 14, ov [2] 12]

def meet : MethodInfo := meth 1 [false, true, true, false] [1, 1] [ov [1, 1] 20, ov [2, 3] 23, ov [3, 2] 24, ov [2, 2] 22]

/-- Only implemented for dogs, twice for bulldogs. -/
def bark : MethodInfo := meth 2 [true] [1] [ov [2] 30, ov [4] 31, ov [4] 32]

/-- All classes in one `use_classes`. -/
def zoo : Program := prog [cls 1 [], cls 2 [1], cls 3 [1], cls 4 [2, 1]] [poke, meet, bark]

/-- Classes registered one by one, bases first, with direct bases only. -/
def zooIncr : Program := prog [cls 1 [], cls 2 [1], cls 4 [2], cls 3 [1]] [poke, meet, bark]

theorem zoo_valid : zoo.Valid := Check.valid (by decide +kernel)
theorem zooIncr_valid : zooIncr.Valid := Check.valid (by decide +kernel)

/-! ## Registration order -/

/-- A chain of classes `1 < 2 < 3 < 4 < 5`, each registered with its direct base:
`use_classes<5, 4>`, `use_classes<3, 2>`, `use_classes<2, 1>`, `use_classes<4, 3>`. -/
def lateBases : List ClassInfo := [cls 5 [4], cls 4 [], cls 3 [2], cls 2 [], cls 2 [1], cls 1 [], cls 4 [3], cls 3 []]

/-- The same classes in one `use_classes`. -/
def allBases : List ClassInfo := [cls 5 [4, 3, 2, 1], cls 4 [3, 2, 1], cls 3 [2, 1], cls 2 [1], cls 1 []]

def f5 : MethodInfo := meth 0 [true] [5] [ov [5] 50]
def f2 : MethodInfo := meth 1 [true] [2] [ov [2] 20]
def f3 : MethodInfo := meth 2 [true] [3] [ov [3] 30]

/-- As `f5`, without overrider. -/
def g5 : MethodInfo := meth 0 [true] [5] []

def lateNone : Program := prog lateBases [g5, f2, f3]

def late : Program := prog lateBases [f5, f2, f3]
def full : Program := prog allBases [f5, f2, f3]

theorem late_valid : late.Valid := Check.valid (by decide +kernel)
theorem full_valid : full.Valid := Check.valid (by decide +kernel)

/-! ## Multiple inheritance -/

/-- Two diamonds above classes 5 and 9: `5 : 4, 3`, `4 : 2`, `9 : 8, 7`, `8 : 6`, everything derives from 1. -/
def diamonds : List ClassInfo :=
  [cls 1 [], cls 2 [1], cls 3 [1], cls 4 [2, 1], cls 5 [4, 3, 2, 1], cls 6 [1], cls 7 [1], cls 8 [6, 1], cls 9 [8, 7, 6, 1]]

/-- Overrider (4, 7) dominates (2, 8), which dominates (3, 6), but (4, 7) does not dominate (3, 6). -/
def cyc1 : MethodInfo := meth 0 [true, true] [1, 1] [ov [4, 7] 1, ov [2, 8] 2, ov [3, 6] 3]

/-- The same overriders in another order. -/
def cyc2 : MethodInfo := meth 0 [true, true] [1, 1] [ov [2, 8] 2, ov [3, 6] 3, ov [4, 7] 1]

def multi1 : Program := prog diamonds [cyc1]
def multi2 : Program := prog diamonds [cyc2]

/-- As `cyc1`, with an overrider that dominates all others. -/
def cycBest : MethodInfo := meth 0 [true, true] [1, 1] [ov [4, 7] 1, ov [2, 8] 2, ov [3, 6] 3, ov [5, 9] 4]

/-- As `cyc1`, with another overrider that is not dominated. -/
def cycTwo : MethodInfo := meth 0 [true, true] [1, 1] [ov [4, 7] 1, ov [2, 8] 2, ov [3, 6] 3, ov [3, 7] 4]

def multiBest : Program := prog diamonds [cycBest]
def multiTwo : Program := prog diamonds [cycTwo]

/-- Two chains above class 6: `6 : 3, 5`, `3 : 2`, `5 : 4`, everything derives from 1. -/
def chains : List ClassInfo := [cls 1 [], cls 2 [1], cls 3 [2, 1], cls 4 [1], cls 5 [4, 1], cls 6 [5, 4, 3, 2, 1]]

/-- Each of these overriders dominates the next one, and the last one dominates the first. -/
def round : MethodInfo := meth 0 [true, true] [1, 1] [ov [3, 4] 1, ov [2, 3] 2, ov [5, 2] 3, ov [4, 5] 4]

def around : Program := prog chains [round]

/-! ## A parameter between two virtual parameters -/

/-- `(virtual_<A>, int, virtual_<A>)` -/
def gapped : MethodInfo := meth 0 [true, false, true] [1, 1] [ov [1, 1] 11, ov [1, 2] 12]

/-- `(virtual_<A>, virtual_<A>, int)` -/
def ungapped : MethodInfo := meth 0 [true, true, false] [1, 1] [ov [1, 1] 11, ov [1, 2] 12]

def gap : Program := prog [cls 1 [], cls 2 [1]] [gapped]
def noGap : Program := prog [cls 1 [], cls 2 [1]] [ungapped]

/-- `(virtual_<A>, int, virtual_<B>, virtual_<A>)` -/
def gapped3 : MethodInfo := meth 0 [true, false, true, true] [1, 2, 1] [ov [1, 2, 1] 11]

/-- Unrelated classes. -/
def gap3 : Program := prog [cls 1 [], cls 2 []] [gapped3]

/-- `(virtual_<A>, virtual_<A>, int, virtual_<A>)` -/
def gapped4 : MethodInfo := meth 0 [true, true, false, true] [1, 1, 1] [ov [1, 1, 1] 11, ov [1, 2, 1] 12, ov [1, 1, 2] 13, ov [1, 2, 2] 14]
def gap4 : Program := prog [cls 1 [], cls 2 [1]] [gapped4]

/-! ## Covariant return types -/

/-- A method returning a registered class. -/
def methR (id : Nat) (params : List Bool) (vp : List Nat) (ret : Nat) (os : List OverriderInfo) : MethodInfo :=
  ⟨id, params, ids vp, BitVec.ofNat 64 ret, os⟩

/-- Classes 1, 2 : 1; return classes 10, 11 : 10, 12 : 11. -/
def coClasses : List ClassInfo := [cls 1 [], cls 2 [1], cls 10 [], cls 11 [10], cls 12 [11, 10]]

/-- The better return type comes last: it is chosen for (2, 2). -/
def coLast : MethodInfo := methR 0 [true, true] [1, 1] 10 [ovr [1, 2] 10 1, ovr [2, 1] 11 2]

/-- The better return type comes first: it is chosen for (2, 2). -/
def coFirst : MethodInfo := methR 1 [true, true] [1, 1] 10 [ovr [1, 2] 11 1, ovr [2, 1] 10 2]

/-- Unrelated or equal return types: the last overrider is chosen. -/
def coSame : MethodInfo := methR 2 [true, true] [1, 1] 10 [ovr [1, 2] 11 1, ovr [2, 1] 11 2]

/-- Three overriders, return types from the most to the least derived: the first one is chosen for (2, 2, 2). -/
def coDown : MethodInfo := methR 3 [true, true, true] [1, 1, 1] 10 [ovr [2, 1, 1] 12 1, ovr [1, 2, 1] 11 2, ovr [1, 1, 2] 10 3]

def coProg : Program := prog coClasses [coLast, coFirst, coSame, coDown]

/-- Three overriders, the second has the best return type. -/
def coUp : MethodInfo := methR 0 [true, true, true] [1, 1, 1] 10 [ovr [2, 1, 1] 10 1, ovr [1, 2, 1] 11 2, ovr [1, 1, 2] 10 3]

def coUb : Program := prog coClasses [coUp]

/-! ## Other platforms -/

/-- A platform that orders equivalent elements and unordered sets the other way round. -/
def revPlatform : Platform where
  sort key l := Platform.std.sort key l.reverse
  sort_perm key l := (Platform.std.sort_perm key l.reverse).trans l.reverse_perm
  sort_sorted key l := Platform.std.sort_sorted key l.reverse
  iter _ l := l.reverse
  iter_perm _ l := l.reverse_perm

/-! ## Variants of `late` -/

/-- Class 5 is registered again, at the end. -/
def lateAgain : Program := prog (lateBases ++ [cls 5 [4]]) [f5, f2, f3]

/-- `f2` with an overrider for class 5. -/
def f2more : MethodInfo := meth 1 [true] [2] [ov [2] 20, ov [5] 25]

def lateMore : Program := prog lateBases [f5, f2more, f3]

/-- `f2` with two virtual parameters. -/
def f22 : MethodInfo := meth 1 [true, true] [2, 2] [ov [2, 2] 20]

def lateMulti : Program := prog lateBases [f5, f22, f3]

/-- A method with a non-virtual and a virtual parameter, and no overrider. -/
def extra : MethodInfo := meth 0 [false, true] [1] []

def extraProg : Program := prog [cls 1 []] [extra]

/-- `zoo` registered in pieces, with repetitions. -/
def zooPieces : Program :=
  prog [cls 1 [], cls 2 [1], cls 1 [], cls 3 [1], cls 2 [1], cls 4 [2], cls 2 [], cls 1 [], cls 3 []] [poke, meet, bark]

/-- `zoo` with the overriders in another order. -/
def meetRev : MethodInfo := { meet with overriders := meet.overriders.reverse }

def zooRev : Program := prog zoo.classes [poke, meetRev, bark]

/-- One more overrider, for two bulldogs. -/
def meetMore : MethodInfo := { meet with overriders := ov [4, 4] 44 :: meet.overriders }

def zooMore : Program := prog zoo.classes [poke, meetMore, bark]

/-- Animals are abstract. -/
def zooAbstract : Program := { zoo with classes := zoo.classes.map fun c => { c with isAbstract := c.type = 1#64 } }

/-! ## `next` with multiple inheritance -/

/-- 5 derives from 3 and 4. -/
def nextClasses : List ClassInfo := [cls 1 [], cls 2 [1], cls 3 [1], cls 4 [1], cls 5 [4, 3, 1]]

def nextPair : MethodInfo := meth 0 [true, true] [1, 1] [ov [2, 3] 1, ov [1, 4] 2]

def nextProg : Program := prog nextClasses [nextPair]

/-- Without the first overrider. -/
def nextProg' : Program := prog nextClasses [{ nextPair with overriders := [ov [1, 4] 2] }]

/-- Overriders that dominate each other in a cycle. -/
def loopMeth : MethodInfo := meth 0 [true, true, true] [1, 1, 1] [ov [3, 4, 2] 1, ov [2, 3, 4] 2, ov [4, 2, 3] 3]

def loopProg : Program := prog [cls 1 [], cls 2 [1], cls 3 [2, 1], cls 4 [1], cls 5 [2, 4, 1], cls 6 [3, 2, 4, 1]] [loopMeth]

end OpenMethod.Examples

import Verif.Proof.Next
import Verif.Proof.Congr
import Verif.Examples.Programs

/-! # C13-C16: `next` -/

namespace OpenMethod.Props

open Spec Examples

variable {n : Bool} {pl pl' : Platform} {p p' : Program} {gen gen' : Nat} {rep rep' : Report} {img img' : Image} {m m' : MethodInfo}
  {args args' : List (Res Ptr)} {xs : List Cls} {types : List TypeId} {o : OverriderInfo}

/-! ## C13: `next` is what would be called if the overrider did not exist -/

/-- C13 in full: when a call runs overrider `o`, its `next` does what the same call does in the program without `o`. -/
def C13 : Prop :=
  ∀ (pl pl' : Platform) (p p' : Program) (gen gen' : Nat) (rep rep' : Report) (img img' : Image) (m m' : MethodInfo)
    (args args' : List (Res Ptr)) (xs : List Cls) (types : List TypeId) (o : OverriderInfo), p.Valid → p.Distinct → p'.Valid →
    Removes p p' m m' o → install pl false p gen = .ok (rep, img) → install pl' false p' gen' = .ok (rep', img') →
    AnyCall p gen img m args xs → AnyCall p' gen' img' m' args' xs → callMethod gen img m args types = .ok o.pf →
    ∃ f, nextAt img o.next = some f ∧ enter f types = callMethod gen' img' m' args' types

/-- The `next` variables of a program. -/
def nexts (p : Program) (vs : List VarId) : Option (List (Option Pf)) :=
  match install .std false p 0 with
  | .ok (_, img) => some (vs.map (nextAt img))
  | _ => none

theorem nexts_eq {vs : List VarId} {fs : List (Option Pf)} (h : nexts p vs = some fs) (hi : install .std false p 0 = .ok (rep, img)) :
    vs.map (nextAt img) = fs := by
  unfold nexts at h
  rw [hi] at h
  exact Option.some.inj h

theorem nextProg_distinct : nextProg.Distinct := ⟨by decide, by decide⟩

/-- In `nextProg`, the call with classes 2 and 3 runs the first overrider. -/
theorem nextProg_call : ∃ rep img args, nextProg.Valid ∧ install .std false nextProg 0 = .ok (rep, img) ∧
    CallTo nextProg 0 img nextPair args [2, 3] ∧ callMethod 0 img nextPair args [] = .ok 1 :=
  run_call (by decide +kernel) (by decide +kernel) (by decide +kernel)

theorem nextProg_removes : Removes nextProg nextProg' nextPair { nextPair with overriders := [ov [1, 4] 2] } (ov [2, 3] 1) :=
  ⟨rfl, rfl, ⟨rfl, rfl, rfl, rfl, [], [ov [1, 4] 2], rfl, rfl⟩, [], [], rfl, rfl⟩

/-- C13 does not hold: with multiple inheritance, `next` is also stored for other arguments. Without the first overrider, the call
with classes 2 and 3 has no overrider, but `next` leads to the second overrider. -/
theorem C13_refuted : ¬ C13 := by
  intro h
  obtain ⟨rep, img, args, hv, hi, hc, hr⟩ := nextProg_call
  obtain ⟨rep', img', args', hv', hi', hc', hr'⟩ := run_call (p := nextProg') (m := { nextPair with overriders := [ov [1, 4] 2] })
    (xs := [2, 3]) (r := .err (.noOverrider 0 [])) (by decide +kernel) (by decide +kernel) (by decide +kernel)
  obtain ⟨f, hf, he⟩ := h _ _ _ _ _ _ _ _ _ _ nextPair { nextPair with overriders := [ov [1, 4] 2] } _ _ _ [] (ov [2, 3] 1) hv
    nextProg_distinct hv' nextProg_removes hi hi' hc.any hc'.any hr
  have hn := nexts_eq (vs := [1]) (fs := [some (.user 2)]) (by decide +kernel) hi
  simp only [List.map_cons, List.map_nil, List.cons.injEq, and_true] at hn
  obtain rfl := Option.some.inj (hn.symm.trans hf)
  rw [hr'] at he
  simp [enter] at he

theorem derives_same (hr : Removes p p' m m' o) : Derives p' = Derives p := by
  unfold Derives
  have : DeclaredBase p' = DeclaredBase p := by
    funext d b
    unfold DeclaredBase
    rw [hr.rtti, hr.classes]
  rw [this]

open Classical in
/-- C13 for methods in which the overrider that a call runs has parameter classes that are accepted by all other applicable overriders, when slots and
arguments are read correctly. -/
theorem C13_partial (hv : p.Valid) (hD : p.Distinct) (hv' : p'.Valid) (hrem : Removes p p' m m' o)
    (h : install pl false p gen = .ok (rep, img)) (h' : install pl' false p' gen' = .ok (rep', img')) (hc : CallTo p gen img m args xs)
    (hc' : CallTo p' gen' img' m' args' xs) (hp : Covered p m) (hrun : callMethod gen img m args types = .ok o.pf) :
    ∃ f, nextAt img o.next = some f ∧ enter f types = callMethod gen' img' m' args' types := by
  rw [call_ref hv h hc] at hrun
  rw [call_ref hv' h' hc']
  obtain ⟨pre, post, e1, e2⟩ := hrem.without.overriders
  have ho : m.overriders[pre.length]? = some o := by rw [e2]; simp
  obtain ⟨i, o1, ho1, hpf, hA, hs⟩ := refCall_ok hrun
  obtain ⟨_, rfl, rfl⟩ := hD.index hc.mem hc.mem ho1 ho hpf
  obtain ⟨happ, _⟩ := appIdx_selected hp hc.callable ho hs
  rcases next_cases hv hD h hc.mem ho with ⟨_, h2⟩ | ⟨ys, f, L, hy, hsy, hn, hf⟩
  · exact absurd hs (h2 xs hc.callable)
  refine ⟨f, hn, ?_⟩
  obtain ⟨happ', _⟩ := appIdx_selected hp hy ho hsy
  rw [happ', ← happ] at hf
  obtain ⟨f', hf', he, _⟩ := enter_cellOf (p := p) (L := L) (m := m) types _ _ (survIdx_map m _ _ (appIdx_erase m xs pre.length))
  rw [hf] at hf'
  obtain rfl := Option.some.inj hf'
  rw [he]
  have hderiv := derives_same hrem
  have hcls : classesOf p' = classesOf p := by funext vp; unfold classesOf; rw [hrem.rtti]
  have hmore : moreB p' = moreB p := by
    funext a b
    unfold moreB MoreSpecific ProperlyDerives
    rw [hderiv, hcls]
  have happl : applicable p' m' xs = (m.overriders.eraseIdx pre.length).filter fun o => decide (Applicable p o xs) := by
    unfold applicable Applicable Accepts
    rw [hderiv, hcls, e1, e2]
    congr 1
    rw [List.eraseIdx_append_of_length_le (le_refl _), Nat.sub_self, List.eraseIdx_cons_zero]
  unfold refCall
  rw [hmore, happl]

/-- C13 for `next` in all overriders that a call enters, directly or by `next`: it is the next most specialised overrider among those that accept the arguments, or it reports that there is
none, or that there are several. Of two overriders that accept the same arguments, if one is more specific, the other must accept its parameter classes. -/
theorem C13_next_partial (hv : p.Valid) (hD : p.Distinct) (h : install pl false p gen = .ok (rep, img)) (hc : CallTo p gen img m args xs) (hp : Nested p m)
    (hrun : Reaches gen img m args types o) {i : Nat} (ho : m.overriders[i]? = some o) :
    ∃ f r, nextAt img o.next = some f ∧ NextExpected p m xs i r ∧ ∀ types, Does m (enter f types) r := by
  have inv : ∀ o, Reaches gen img m args types o → Applicable p o xs ∧ nextAt img o.next ≠ none := by
    intro o hrun
    induction hrun with
    | @call o ho hrun =>
      have hrun' := hrun
      rw [call_ref hv h hc] at hrun
      obtain ⟨j, o1, ho1, hpf, hA, hs⟩ := refCall_ok hrun
      obtain ⟨j', hj⟩ := List.getElem?_of_mem ho
      obtain ⟨_, _, rfl⟩ := hD.index hc.mem hc.mem ho1 hj hpf
      obtain ⟨m1, hm1, o2, ho2, hpf, f, hf, _⟩ := next_entered hv hD h hrun'
      obtain ⟨k, hk⟩ := List.getElem?_of_mem ho2
      obtain ⟨_, _, rfl⟩ := hD.index hm1 hc.mem hk hj hpf
      exact ⟨hA, by rw [hf]; simp⟩
    | @next o o' _ ho' hn ih =>
      rename_i hrun
      have hmem : o ∈ m.overriders := by cases hrun <;> assumption
      rcases next_step hv hD h hc.mem (hp.covered hv.acyclic) hmem ih.2 with e | e | ⟨o2, ho2, e, hw, hset⟩
      · rw [NextIs, e] at hn; simp at hn
      · rw [NextIs, e] at hn; simp at hn
      · rw [NextIs, e] at hn
        simp only [Option.some.injEq, Pf.user.injEq] at hn
        obtain ⟨k, hk⟩ := List.getElem?_of_mem ho2
        obtain ⟨k', hk'⟩ := List.getElem?_of_mem ho'
        obtain ⟨_, _, rfl⟩ := hD.index hc.mem hc.mem hk hk' hn
        exact ⟨Accepts.trans' hw.1 ih.1, hset⟩
  obtain ⟨hA, hset⟩ := inv o hrun
  obtain ⟨f, r, h1, h2, h3, _⟩ := next_expected hv hD h hc.mem hp ho hset hc.callable hA
  exact ⟨f, r, h1, h2, h3⟩

/-! ## C14: `next` accepts the arguments -/

/-- C14 in full: when a call runs an overrider, the overrider designated by its `next`, if any, accepts the arguments. -/
def C14 : Prop :=
  ∀ (pl : Platform) (p : Program) (gen : Nat) (rep : Report) (img : Image) (m : MethodInfo) (args : List (Res Ptr)) (xs : List Cls)
    (types : List TypeId) (o o' : OverriderInfo), p.Valid → p.Distinct → install pl false p gen = .ok (rep, img) →
    AnyCall p gen img m args xs → o ∈ m.overriders → callMethod gen img m args types = .ok o.pf → o' ∈ m.overriders →
    NextIs img o o' → Applicable p o' xs

/-- C14 does not hold: in `nextProg`, `next` of the first overrider, called with an object of class 3, enters the second
overrider, which expects an object of class 4. -/
theorem C14_refuted : ¬ C14 := by
  intro h
  obtain ⟨rep, img, args, hv, hi, hc, hr⟩ := nextProg_call
  have hn := nexts_eq (vs := [1]) (fs := [some (.user 2)]) (by decide +kernel) hi
  simp only [List.map_cons, List.map_nil, List.cons.injEq, and_true] at hn
  have := h _ _ _ _ _ nextPair _ [2, 3] [] (ov [2, 3] 1) (ov [1, 4] 2) hv nextProg_distinct hi hc.any (by decide) hr (by decide) hn
  unfold Applicable at this
  rw [← Check.accepts (by decide +kernel)] at this
  revert this
  decide +kernel

/-- C14 in the same conditions. -/
theorem C14_partial (hv : p.Valid) (hD : p.Distinct) (h : install pl false p gen = .ok (rep, img)) (hc : CallTo p gen img m args xs)
    (hp : Covered p m) (ho : o ∈ m.overriders) (hrun : callMethod gen img m args types = .ok o.pf) {o' : OverriderInfo}
    (ho' : o' ∈ m.overriders) (hn : NextIs img o o') : Applicable p o' xs := by
  rw [call_ref hv h hc] at hrun
  obtain ⟨j, hj⟩ := List.getElem?_of_mem ho
  obtain ⟨j', hj'⟩ := List.getElem?_of_mem ho'
  obtain ⟨i, o1, ho1, hpf, hA, hs⟩ := refCall_ok hrun
  obtain ⟨_, rfl, rfl⟩ := hD.index hc.mem hc.mem ho1 hj hpf
  rcases next_step hv hD h hc.mem hp ho (by rw [hn]; simp) with h1 | h1 | ⟨o2, ho2, h1, hw, _⟩
  · rw [NextIs, h1] at hn; simp at hn
  · rw [NextIs, h1] at hn; simp at hn
  · rw [NextIs, h1] at hn
    simp only [Option.some.injEq, Pf.user.injEq] at hn
    obtain ⟨k, hk⟩ := List.getElem?_of_mem ho2
    obtain ⟨_, _, rfl⟩ := hD.index hc.mem hc.mem hk hj' hn
    exact Accepts.trans' hw.1 hA

/-! ## C15: chains of `next` end -/

/-- C15 in full: from an overrider entered by a call, `next` leads to an error function after at most as many steps as the method
has overriders. -/
def C15 : Prop :=
  ∀ (pl : Platform) (p : Program) (gen : Nat) (rep : Report) (img : Image) (m : MethodInfo) (args : List (Res Ptr)) (xs : List Cls)
    (types : List TypeId) (o : OverriderInfo), p.Valid → p.Distinct → install pl false p gen = .ok (rep, img) →
    AnyCall p gen img m args xs → o ∈ m.overriders → callMethod gen img m args types = .ok o.pf → Ends img m m.overriders.length o

/-- C15 does not hold: in `loopProg`, `next` of the first overrider is the second, whose `next` is the third, whose `next` is the
first. -/
theorem C15_refuted : ¬ C15 := by
  intro h
  obtain ⟨rep, img, args, hv, hi, hc, hr⟩ := run_call (p := loopProg) (m := loopMeth) (xs := [3, 6, 6]) (r := .ok 1) (by decide +kernel)
    (by decide +kernel) (by decide +kernel)
  have hn := nexts_eq (vs := [1, 2, 3]) (fs := [some (.user 2), some (.user 3), some (.user 1)]) (by decide +kernel) hi
  simp only [List.map_cons, List.map_nil, List.cons.injEq, and_true] at hn
  obtain ⟨h1, h2, h3⟩ := hn
  have hE := h _ _ _ _ _ loopMeth _ _ [] (ov [3, 4, 2] 1) hv ⟨by decide, by decide⟩ hi hc.any (by decide) hr
  have : ∀ k o, o ∈ loopMeth.overriders → ¬ Ends img loopMeth k o := by
    intro k o ho hE
    induction hE with
    | @error o' f k hf hk =>
      have ho' : o' = ov [3, 4, 2] 1 ∨ o' = ov [2, 3, 4] 2 ∨ o' = ov [4, 2, 3] 3 := by simpa [loopMeth, meth] using ho
      rcases ho' with rfl | rfl | rfl
      · obtain rfl := Option.some.inj (h1.symm.trans hf); simp at hk
      · obtain rfl := Option.some.inj (h2.symm.trans hf); simp at hk
      · obtain rfl := Option.some.inj (h3.symm.trans hf); simp at hk
    | step _ ho' _ ih => exact ih ho'
  exact this _ _ (by decide) hE

/-- C15 in the same conditions. -/
theorem C15_partial (hv : p.Valid) (hD : p.Distinct) (h : install pl false p gen = .ok (rep, img)) {m0 : MethodInfo}
    (hrun : callMethod gen img m0 args types = .ok o.pf) (hm : m ∈ p.methods) (hp : Covered p m) (ho : o ∈ m.overriders) :
    Ends img m m.overriders.length o := by
  obtain ⟨m1, hm1, o1, ho1, hpf, f, hf, _⟩ := next_entered hv hD h hrun
  obtain ⟨j, hj⟩ := List.getElem?_of_mem ho
  obtain ⟨j1, hj1⟩ := List.getElem?_of_mem ho1
  obtain ⟨_, _, rfl⟩ := hD.index hm1 hm hj1 hj hpf
  exact next_ends hv hD h hm hp ho (by rw [hf]; simp)

/-! ## C16: `has_next` -/

/-- C16: for an overrider entered by a call, `next` is set, and `has_next` is true if and only if `next` designates an overrider of
the method, so that calling it does not report an error. -/
theorem C16 (hv : p.Valid) (hD : p.Distinct) (h : install pl n p gen = .ok (rep, img)) {m0 : MethodInfo}
    (hrun : callMethod gen img m0 args types = .ok o.pf) (hm : m ∈ p.methods) (ho : o ∈ m.overriders) :
    ∃ f, nextAt img o.next = some f ∧
      (hasNext m.id (nextAt img o.next) = true ↔ ∃ o' ∈ m.overriders, f = .user o'.pf) ∧
      (hasNext m.id (nextAt img o.next) = true ↔ ∀ types' e, enter f types' ≠ .err e) := by
  obtain ⟨m1, hm1, o1, ho1, hpf, f, hf, hk⟩ := next_entered hv hD h hrun
  obtain ⟨j, hj⟩ := List.getElem?_of_mem ho
  obtain ⟨j1, hj1⟩ := List.getElem?_of_mem ho1
  obtain ⟨rfl, _, rfl⟩ := hD.index hm1 hm hj1 hj hpf
  refine ⟨f, hf, ?_⟩
  rw [hf]
  rcases hk with ⟨o', ho', rfl⟩ | rfl | rfl
  · simp only [hasNext, Option.some.injEq, reduceCtorEq, if_false, true_iff, Pf.user.injEq, enter, ne_eq, not_false_eq_true, implies_true,
      and_true]
    exact ⟨o', ho', rfl⟩
  · simp [hasNext, enter]
  · simp [hasNext, enter]

/-- An overrider that no call can enter may keep an unset `next`, for which `has_next` is true: two overriders with the same
parameters. -/
theorem C16_unset : ∃ rep img, install .std false zoo 0 = .ok (rep, img) ∧ zoo.Valid ∧ zoo.Distinct ∧
    nextAt img 31 = none ∧ hasNext bark.id (nextAt img 31) = true := by
  obtain ⟨rep, img, args, hv, hi, hc, hr⟩ := run_call (p := zoo) (m := bark) (xs := [2]) (r := .ok 30) (by decide +kernel) (by decide +kernel)
    (by decide +kernel)
  have hn := nexts_eq (vs := [31]) (fs := [none]) (by decide +kernel) hi
  simp only [List.map_cons, List.map_nil, List.cons.injEq, and_true] at hn
  exact ⟨rep, img, hi, hv, ⟨by decide, by decide⟩, hn, by rw [hn]; rfl⟩

/-! ## The hypotheses are met -/

/-- In the zoo, animals have no unrelated bases. -/
theorem zoo_plain (m : MethodInfo) : PlainMethod zoo m := by
  right
  rintro ys ⟨_, hreg⟩ y hy a b ha hb
  have hr : Check.ranked zoo = true := by decide +kernel
  rw [← Check.mem_anc hr] at ha hb
  rw [← Check.mem_anc hr, ← Check.mem_anc hr]
  have hy' := Check.registered.2 (hreg y hy)
  have hall : ∀ cr ∈ zoo.classes, ∀ a ∈ Check.anc zoo (zoo.rtti.ti cr.type), ∀ b ∈ Check.anc zoo (zoo.rtti.ti cr.type),
      b ∈ Check.anc zoo a ∨ a ∈ Check.anc zoo b := by decide +kernel
  simp only [Check.registeredB, List.any_eq_true, decide_eq_true_eq] at hy'
  obtain ⟨cr, hcr, rfl⟩ := hy'
  exact hall cr hcr a ha b hb

/-- Two bulldogs meet: the overrider for dogs runs; its `next` is the overrider for animals. -/
example : ∃ rep img args, zoo.Valid ∧ zoo.Distinct ∧ install .std false zoo 0 = .ok (rep, img) ∧ Covered zoo meet ∧
    CallTo zoo 0 img meet args [4, 4] ∧ callMethod 0 img meet args [] = .ok 22 ∧ NextIs img (ov [2, 2] 22) (ov [1, 1] 20) := by
  obtain ⟨rep, img, args, hv, hi, hc, hr⟩ := run_call (p := zoo) (m := meet) (xs := [4, 4]) (r := .ok 22) (by decide +kernel) (by decide +kernel)
    (by decide +kernel)
  have hn := nexts_eq (vs := [22]) (fs := [some (.user 20)]) (by decide +kernel) hi
  simp only [List.map_cons, List.map_nil, List.cons.injEq, and_true] at hn
  exact ⟨rep, img, args, hv, ⟨by decide, by decide⟩, hi, (zoo_plain _).covered hv hc.mem, hc, hr, hn⟩

theorem nested_of (hr : Check.ranked p = true)
    (h : (m.overriders.all fun o => m.overriders.all fun o' => !Check.moreB p o o' || Check.acceptsB p (classesOf p o'.vp) (classesOf p o.vp)) = true) : Nested p m := by
  intro ys _ o ho o' ho' _ _ hm
  simp only [List.all_eq_true, Bool.or_eq_true, Bool.not_eq_true'] at h
  rcases h o ho o' ho' with h | h
  · rw [← Check.more hr, h] at hm; cases hm
  · exact (Check.accepts hr).1 h

def nestedMeth : MethodInfo := meth 0 [true, true] [1, 1] [ov [1, 1] 1, ov [2, 1] 2, ov [4, 2] 3, ov [4, 4] 4]

/-- Class 4 derives from 2 and 3. -/
def nestedProg : Program := prog [cls 1 [], cls 2 [1], cls 3 [1], cls 4 [1, 2, 3]] [nestedMeth]

/-- A method with two virtual parameters and multiple inheritance, to which C13-C15 and C13_next_partial apply: from the overrider for classes 4 and 4, `next` goes through all others. -/
example : ∃ rep img args, nestedProg.Valid ∧ nestedProg.Distinct ∧ Nested nestedProg nestedMeth ∧ Covered nestedProg nestedMeth ∧ ¬ PlainMethod nestedProg nestedMeth ∧
    install .std false nestedProg 0 = .ok (rep, img) ∧ CallTo nestedProg 0 img nestedMeth args [4, 4] ∧ callMethod 0 img nestedMeth args [] = .ok 4 ∧
    [4, 3, 2, 1].map (nextAt img) = [some (.user 3), some (.user 2), some (.user 1), some (.notImplemented 0)] := by
  obtain ⟨rep, img, args, hv, hi, hc, hr⟩ := run_call (p := nestedProg) (m := nestedMeth) (xs := [4, 4]) (r := .ok 4) (by decide +kernel) (by decide +kernel)
    (by decide +kernel)
  refine ⟨rep, img, args, hv, ⟨by decide, by decide⟩, nested_of (by decide +kernel) (by decide +kernel), (nested_of (by decide +kernel) (by decide +kernel)).covered hv.acyclic, ?_, hi, hc, hr, nexts_eq (by decide +kernel) hi⟩
  have hrk : Check.ranked nestedProg = true := by decide +kernel
  rintro (h | h)
  · revert h; decide
  · have := h _ hc.callable 4 (by decide) 2 3 ((Check.mem_anc hrk).1 (by decide +kernel)) ((Check.mem_anc hrk).1 (by decide +kernel))
    rw [← Check.mem_anc hrk, ← Check.mem_anc hrk] at this
    revert this
    decide +kernel

def coveredMeth : MethodInfo := meth 0 [true, true] [1, 1] [ov [4, 4] 1, ov [2, 4] 2, ov [3, 1] 3]

/-- Class 4 derives from 2 and 3. -/
def coveredProg : Program := prog [cls 1 [], cls 2 [1], cls 3 [1], cls 4 [1, 2, 3]] [coveredMeth]

/-- The method is covered, so C13-C15 hold, but it is not nested. A call with two objects of class 4 runs the first overrider, and `next` enters the second; `next` in the second reports that
there is no overrider, although the third accepts the arguments and is less specific than the second. -/
theorem C13_next_refuted : ∃ rep img args, coveredProg.Valid ∧ coveredProg.Distinct ∧ Covered coveredProg coveredMeth ∧ install .std false coveredProg 0 = .ok (rep, img) ∧
    CallTo coveredProg 0 img coveredMeth args [4, 4] ∧ Reaches 0 img coveredMeth args [] (ov [2, 4] 2) ∧ nextAt img (ov [2, 4] 2).next = some (.notImplemented 0) ∧
    NextExpected coveredProg coveredMeth [4, 4] 1 (.run 2) := by
  obtain ⟨rep, img, args, hv, hi, hc, hr⟩ := run_call (p := coveredProg) (m := coveredMeth) (xs := [4, 4]) (r := .ok 1) (by decide +kernel) (by decide +kernel)
    (by decide +kernel)
  have hrk : Check.ranked coveredProg = true := by decide +kernel
  have hn := nexts_eq (vs := [1, 2]) (fs := [some (.user 2), some (.notImplemented 0)]) (by decide +kernel) hi
  simp only [List.map_cons, List.map_nil, List.cons.injEq, and_true] at hn
  refine ⟨rep, img, args, hv, ⟨by decide, by decide⟩, ?_, hi, hc, .next (o := ov [4, 4] 1) (.call (by decide) hr) (by decide) hn.1, hn.2, ?_⟩
  · -- all tuples of classes
    rintro ys ⟨h1, h2⟩
    have hcl : ∀ y, Registered coveredProg y → y = 1 ∨ y = 2 ∨ y = 3 ∨ y = 4 := by
      intro y hy
      have := Check.registered.2 hy
      simp only [Check.registeredB, List.any_eq_true, decide_eq_true_eq] at this
      obtain ⟨cr, hcr, rfl⟩ := this
      clear hy
      revert cr
      decide +kernel
    have key : ∀ ys ∈ [1, 2, 3, 4].flatMap (fun a => [1, 2, 3, 4].map fun b => [a, b]), (∀ i ∈ Check.apps coveredProg coveredMeth ys,
        ∀ j ∈ Check.apps coveredProg coveredMeth ys, ∀ k ∈ Check.apps coveredProg coveredMeth ys, Check.dominatesB coveredProg coveredMeth i j = true →
        Check.dominatesB coveredProg coveredMeth j k = true → Check.dominatesB coveredProg coveredMeth i k = true) ∧
        ∀ i ∈ List.range 3, Check.expected coveredProg coveredMeth ys = .run i → ∀ o ∈ coveredMeth.overriders[i]?, ∀ o' ∈ coveredMeth.overriders,
          Check.acceptsB coveredProg (classesOf coveredProg o'.vp) ys = true → Check.acceptsB coveredProg (classesOf coveredProg o'.vp) (classesOf coveredProg o.vp) = true := by
      decide +kernel
    obtain ⟨a, b, rfl⟩ : ∃ a b, ys = [a, b] := by
      have := h1.length_eq
      match ys with
      | [a, b] => exact ⟨a, b, rfl⟩
    obtain ⟨k1, k2⟩ := key [a, b] (by
      rcases hcl a (h2 a (by simp)) with rfl | rfl | rfl | rfl <;> rcases hcl b (h2 b (by simp)) with rfl | rfl | rfl | rfl <;> decide)
    refine ⟨fun i j k hi hj hk d1 d2 => ?_, fun i o ho hE o' ho' hA => ?_⟩
    · rw [← Check.mem_apps hrk] at hi hj hk
      rw [← Check.dominates hrk] at d1 d2 ⊢
      exact k1 i hi j hj k hk d1 d2
    · rw [← Check.accepts hrk]
      exact k2 i (List.mem_range.2 (List.getElem?_eq_some_iff.1 ho).1) ((Check.expected_spec hrk _ _).unique hE) o ho o' ho' ((Check.accepts hrk).2 hA)
  · have hA : ∀ j, ApplicableAt coveredProg coveredMeth [4, 4] j ∧ Dominates coveredProg coveredMeth 1 j ↔ j = 2 := by
      intro j
      rw [← Check.mem_apps hrk, ← Check.dominates hrk, show Check.apps coveredProg coveredMeth [4, 4] = [0, 1, 2] from by decide +kernel]
      constructor
      · rintro ⟨h1, h2⟩
        have h1 : j = 0 ∨ j = 1 ∨ j = 2 := by simpa using h1
        rcases h1 with rfl | rfl | rfl
        · revert h2; decide +kernel
        · revert h2; decide +kernel
        · rfl
      · rintro rfl
        exact ⟨by simp, by decide +kernel⟩
    refine (Best.congr (B := (· = 2)) hA _).2 ⟨⟨rfl, fun j hj => hj ▸ dominates_irrefl _ _⟩, fun k hk _ => hk⟩

/-- The program without an overrider, for C13. -/
example : Removes zoo { zoo with methods := [poke, { meet with overriders := [ov [1, 1] 20, ov [2, 3] 23, ov [3, 2] 24] }, bark] } meet
    { meet with overriders := [ov [1, 1] 20, ov [2, 3] 23, ov [3, 2] 24] } (ov [2, 2] 22) :=
  ⟨rfl, rfl, ⟨rfl, rfl, rfl, rfl, [ov [1, 1] 20, ov [2, 3] 23, ov [3, 2] 24], [], rfl, rfl⟩, [poke], [bark], rfl, rfl⟩

end OpenMethod.Props

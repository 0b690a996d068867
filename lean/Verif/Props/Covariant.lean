import Verif.Proof.Covariant
import Verif.Proof.Words
import Verif.Examples.Programs

/-! # C38, C39: option `n2216` -/

namespace OpenMethod.Props

open Spec Examples

variable {pl : Platform} {p : Program} {gen : Nat} {rep : Report} {img : Image} {m : MethodInfo} {args : List (Res Ptr)} {xs : List Cls}

/-! ## C38: the selection is safe -/

/-- C38 in full. -/
def C38 : Prop := ∀ (pl : Platform) (p : Program) (gen : Nat), p.Valid → install pl true p gen ≠ .ub

/-- C38 does not hold: with three candidates, the loop that compares return types goes on with a candidate that it has
removed, and dereferences a null pointer (initialize.hpp 1453-1468). -/
theorem C38_refuted : ¬ C38 := by
  intro h
  exact h .std coUb 0 (Check.valid (by decide +kernel)) (isUb_eq (by decide +kernel))

/-- Three overriders in this order, all applicable to the same arguments and none dominating another, such that the return
type of the second is that of the first or derives from it. -/
def Hazard (p : Program) (m : MethodInfo) (i j k : Nat) : Prop :=
  i < j ∧ j < k ∧ (∀ x ∈ [i, j, k], ∀ y ∈ [i, j, k], ¬ Dominates p m x y) ∧
  (∃ xs, Callable p m xs ∧ ∀ x ∈ [i, j, k], ApplicableAt p m xs x) ∧
  ∃ a b, m.overriders[i]? = some a ∧ m.overriders[j]? = some b ∧ Derives p (p.rtti.ti b.ret) (p.rtti.ti a.ret)

/-- C38 when no such triple exists in the methods that return a registered class. In particular, the option is safe for
methods that return nothing or an unregistered class, and for methods with at most two overriders. -/
theorem C38_partial (hv : p.Valid) (h : ∀ m ∈ p.methods, CovariantReturn p m → ∀ i j k, ¬ Hazard p m i j k) (pl : Platform) (gen : Nat) :
    install pl true p gen ≠ .ub := by
  intro hu
  obtain ⟨_, m, hm, hcov, xs, i, j, k, a, b, h1, h2, h3, h4, h5, h6, h7, h8, h9, h10⟩ := install_ub hv hu
  refine h m hm hcov i j k ⟨h2, h3, h7, ⟨xs, h1, ?_⟩, a, b, h8, h9, h10⟩
  intro x hx
  simp only [List.mem_cons, List.not_mem_nil, or_false] at hx
  rcases hx with rfl | rfl | rfl <;> assumption

/-- C38 for at most two overriders per method. -/
theorem C38_two_partial (hv : p.Valid) (h : ∀ m ∈ p.methods, CovariantReturn p m → m.overriders.length ≤ 2) (pl : Platform) (gen : Nat) :
    install pl true p gen ≠ .ub := by
  refine C38_partial hv ?_ pl gen
  rintro m hm hcov i j k ⟨hij, hjk, _, ⟨xs, _, ha⟩, _⟩
  obtain ⟨o, ho, _⟩ := ha k (by simp)
  have h1 := (List.getElem?_eq_some_iff.1 ho).1
  have h2 := h m hm hcov
  omega

/-- Without the option, `initialize` is never undefined. -/
theorem C38_off (hv : p.Valid) (pl : Platform) (gen : Nat) : install pl false p gen ≠ .ub := by
  intro hu
  have := (install_ub hv hu).1
  simp at this

example : isOk (install .std true coProg 0) = true := by decide +kernel

/-! ## C39: the choice -/

/-- The three parts of C39. -/
def Prefers (p : Program) (m : MethodInfo) (xs : List Cls) (r : Res Nat) : Prop :=
  (∀ (a : Nat) (ts : List TypeId), r ≠ .err (.ambiguousCall a ts)) ∧
  (∀ f, r = .ok f → ∃ (i : Nat) (o : OverriderInfo), Undominated p m xs i ∧ m.overriders[i]? = some o ∧ o.pf = f) ∧
  (CovariantReturn p m → ∀ (i : Nat) (o : OverriderInfo), Undominated p m xs i → m.overriders[i]? = some o →
    (∀ (j : Nat) (b : OverriderInfo), Undominated p m xs j → m.overriders[j]? = some b → j ≠ i →
      ProperlyDerives p (p.rtti.ti o.ret) (p.rtti.ti b.ret)) → r = .ok o.pf)

/-- C39 in full. -/
def C39 : Prop :=
  ∀ (pl : Platform) (p : Program) (gen : Nat) (rep : Report) (img : Image) (m : MethodInfo) (args : List (Res Ptr)) (xs : List Cls)
    (types : List TypeId), p.Valid → install pl true p gen = .ok (rep, img) → AnyCall p gen img m args xs →
    Prefers p m xs (callMethod gen img m args types)

/-- C39 does not hold: with multiple inheritance, an overrider dominated by an applicable one may remain and be called. -/
theorem C39_refuted : ¬ C39 := by
  intro h
  obtain ⟨rep, img, args, hv, hi, hc, hr⟩ := runN_any (pl := .std) (n := true) (p := multi1) (m := cyc1) (xs := [5, 9]) (r := .ok 3)
    (by decide +kernel) (by decide +kernel) (by decide +kernel)
  obtain ⟨i, o, hu, ho, hf⟩ := (h _ _ _ _ _ _ _ _ [] hv hi hc).2.1 3 hr
  have he : Expected multi1 cyc1 [5, 9] (.run 0) := by
    have he : Check.expected multi1 cyc1 [5, 9] = .run 0 := by decide +kernel
    rw [← he]
    exact Check.expected_spec (by decide +kernel) _ _
  obtain rfl := he.2 i hu
  obtain rfl := Option.some.inj ho
  simp [ov] at hf

/-- First part of C39, in full: in whatever order the classes were registered, no call is reported as ambiguous. -/
theorem C39_noAmbiguity (hv : p.Valid) (h : install pl true p gen = .ok (rep, img)) (hc : AnyCall p gen img m args xs)
    (types : List TypeId) (a : Nat) (ts : List TypeId) : callMethod gen img m args types ≠ .err (.ambiguousCall a ts) := by
  intro he
  obtain ⟨c, bases, _, C, hi, _⟩ := install_ok hv h
  rcases callMethod_err hc.args he with ⟨_, _, h1⟩ | ⟨id, h1, _⟩
  · simp at h1
  · obtain ⟨_, m', t, rs, _, _, hT, cell, hcell, hpf⟩ := pf_word C hi h1
    rw [hT.table] at hcell
    obtain ⟨r, hr, rfl⟩ := List.mem_map.1 hcell
    obtain ⟨_, surv, left, _, _, hC⟩ := hT.mem hr
    rw [hC.cell] at hpf
    simp only [cellFor, if_true] at hpf
    split at hpf
    · simp [pfOf] at hpf
    · simp only [pfOf, Option.map_eq_some_iff] at hpf
      obtain ⟨_, _, hpf⟩ := hpf
      simp at hpf

/-- C39 when the applicable overriders that are dominated are dominated by undominated ones. -/
theorem C39_founded_partial (hv : p.Valid) (h : install pl true p gen = .ok (rep, img)) (hc : CallTo p gen img m args xs)
    (hf : Founded p m xs) (types : List TypeId) : Prefers p m xs (callMethod gen img m args types) := by
  obtain ⟨left, os, h1, h2, h3⟩ := call_idx hv h hc types
  have hmem := hf.mem_survIdx
  have hnd : (survIdx p m (appIdx p m xs)).Nodup := (survIdx_surv (p := p) m (appIdx p m xs)).sub.nodup (appIdx_nodup p m xs)
  rw [h3]
  unfold resultFor
  rw [if_pos rfl]
  refine ⟨?_, ?_, ?_⟩
  · intro a ts
    split <;> simp
  · intro f hf
    split at hf
    · simp at hf
    · rename_i o ho
      have hl := congrArg List.getLast? h2
      rw [List.getLast?_map, List.getLast?_map, ho, Option.map_some] at hl
      obtain ⟨i, hi, hio⟩ := Option.map_eq_some_iff.1 hl
      refine ⟨i, o, (hmem i).1 ((remainL_sublist h1).subset (List.mem_of_getLast? hi)), hio, Res.ok.inj hf⟩
  · intro hcov i o hu ho hbest
    have := remainL_best (retIdx p m) (derB p) i _ ((hmem i).2 hu) hnd ?_ ?_ h1
    · subst this
      simp only [List.map_cons, List.map_nil, ho] at h2
      match os, h2 with
      | [o'], h2 =>
        simp only [List.map_cons, List.map_nil, List.cons.injEq, and_true, Option.some.injEq] at h2
        subst h2
        rfl
    · intro j hj
      obtain ⟨b, hb, _⟩ := ((hmem j).1 hj).1
      simp [retIdx, hb, retB, hcov]
    · intro j hj hne ra rb hra hrb
      obtain ⟨b, hb, _⟩ := ((hmem j).1 hj).1
      have hp := hbest j b ((hmem j).1 hj) hb hne
      simp only [retIdx, hb, ho, retB, hcov, Option.bind_some, if_true, Option.some.injEq] at hra hrb
      subst hra hrb
      refine ⟨by simpa [derB] using hp.1, ?_⟩
      simp only [derB, decide_eq_false_iff_not]
      exact fun hd => properlyDerives_asymm hv.acyclic hp ⟨hd, Ne.symm hp.2⟩

/-- C39 when dominance is transitive among the applicable overriders. -/
theorem C39_transitive_partial (hv : p.Valid) (h : install pl true p gen = .ok (rep, img)) (hc : CallTo p gen img m args xs)
    (ht : TransitiveAt p m xs) (types : List TypeId) : Prefers p m xs (callMethod gen img m args types) :=
  C39_founded_partial hv h hc ht.founded types

/-- C39 for methods with one virtual parameter, and without multiple inheritance above the arguments. -/
theorem C39_partial (hv : p.Valid) (h : install pl true p gen = .ok (rep, img)) (hc : CallTo p gen img m args xs)
    (hs : m.vp.length = 1 ∨ ∀ x ∈ xs, SingleInheritance p x) (types : List TypeId) :
    Prefers p m xs (callMethod gen img m args types) :=
  C39_transitive_partial hv h hc (hs.elim (fun h1 => transitiveAt_one hv.acyclic (hv.wf m hc.mem) h1 xs) (transitiveAt_single hv.acyclic)) types

/-- Even with multiple inheritance, the overrider that runs is applicable, and a call is not implemented only if there is
none. -/
theorem C39_applicable_partial (hv : p.Valid) (h : install pl true p gen = .ok (rep, img)) (hc : CallTo p gen img m args xs)
    (types : List TypeId) : (∃ o ∈ m.overriders, Applicable p o xs ∧ callMethod gen img m args types = .ok o.pf) ∨
      (∀ i, ¬ ApplicableAt p m xs i) ∧ ∃ a ts, callMethod gen img m args types = .err (.noOverrider a ts) := by
  obtain ⟨left, os, h1, h2, h3⟩ := call_idx hv h hc types
  have S := survIdx_surv (p := p) m (appIdx p m xs)
  rw [h3]
  unfold resultFor
  rw [if_pos rfl]
  have hl := congrArg List.getLast? h2
  rw [List.getLast?_map, List.getLast?_map] at hl
  split
  · rename_i hos
    rw [hos] at hl
    right
    refine ⟨?_, _, _, rfl⟩
    intro i hi
    have hne := remainL_nonempty h1 (S.nonempty (List.ne_nil_of_mem (mem_appIdx.2 hi)))
    simp at hl
    exact hne hl
  · rename_i o ho
    rw [ho, Option.map_some] at hl
    obtain ⟨i, hi, hio⟩ := Option.map_eq_some_iff.1 hl
    obtain ⟨o', ho', hA⟩ := mem_appIdx.1 (S.sub.subset ((remainL_sublist h1).subset (List.mem_of_getLast? hi)))
    rw [hio] at ho'
    obtain rfl := Option.some.inj ho'
    exact .inl ⟨o, List.mem_of_getElem? hio, hA, rfl⟩

/-! Examples. -/

example : ∃ rep img args, coProg.Valid ∧ install .std true coProg 0 = .ok (rep, img) ∧ CallTo coProg 0 img coLast args [2, 2] ∧
    callMethod 0 img coLast args [] = .ok 2 := runN_call (by decide +kernel) (by decide +kernel) (by decide +kernel)

example : ∃ rep img args, coProg.Valid ∧ install .std true coProg 0 = .ok (rep, img) ∧ CallTo coProg 0 img coFirst args [2, 2] ∧
    callMethod 0 img coFirst args [] = .ok 1 := runN_call (by decide +kernel) (by decide +kernel) (by decide +kernel)

example : runN .std true coProg coSame [2, 2] = some (.ok 2) := by decide +kernel

example : ∃ rep img args, coProg.Valid ∧ install .std true coProg 0 = .ok (rep, img) ∧ CallTo coProg 0 img coDown args [2, 2, 2] ∧
    callMethod 0 img coDown args [] = .ok 1 := runN_call (by decide +kernel) (by decide +kernel) (by decide +kernel)

/-- Without the option, the same calls are ambiguous. -/
example : run coProg coLast [2, 2] = some (.err (.ambiguousCall 0 [])) := by decide +kernel

end OpenMethod.Props

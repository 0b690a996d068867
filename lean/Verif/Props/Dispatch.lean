import Verif.Proof.Outcome
import Verif.Examples.Programs

/-!
# C01-C05, C08, C09: which overrider runs

Each property is first written down in full (`C01`, `C02`...: a proposition, not a theorem). When the library violates it,
`C.._refuted` proves the negation from a concrete program, and the theorems named `_partial` prove it under the stated
additional hypotheses. Those of `CallTo` recur: the classes of the arguments are registered in an order that the library
supports, and virtual parameters are contiguous.
-/

namespace OpenMethod.Props

open Spec Examples

variable {pl : Platform} {p : Program} {gen : Nat} {rep : Report} {img : Image} {m : MethodInfo} {args : List (Res Ptr)} {xs : List Cls}

/-! ## C01, C02: the documented rule -/

/-- C01 in full: a method with one virtual parameter calls what the documentation says. -/
def C01 : Prop :=
  ∀ (pl : Platform) (p : Program) (gen : Nat) (rep : Report) (img : Image) (m : MethodInfo) (args : List (Res Ptr)) (xs : List Cls)
    (types : List TypeId), p.Valid → install pl false p gen = .ok (rep, img) → AnyCall p gen img m args xs → m.vp.length = 1 →
    ∃ r, Expected p m xs r ∧ Does m (callMethod gen img m args types) r

/-- C02 in full: several virtual parameters. -/
def C02 : Prop :=
  ∀ (pl : Platform) (p : Program) (gen : Nat) (rep : Report) (img : Image) (m : MethodInfo) (args : List (Res Ptr)) (xs : List Cls)
    (types : List TypeId), p.Valid → install pl false p gen = .ok (rep, img) → AnyCall p gen img m args xs → m.vp.length ≠ 1 →
    ∃ r, Expected p m xs r ∧ Does m (callMethod gen img m args types) r

/-- A program for which the documented outcome is not what happens. -/
theorem not_expected {p : Program} {m : MethodInfo} {xs : List Cls} {r : Res Nat} (hv : Check.validB p = true) (h : run p m xs = some r)
    (hcall : Check.anyCallB p m xs = true) (hne : Check.doesB m r (Check.expected p m xs) = false) :
    ∃ (rep : Report) (img : Image) (args : List (Res Ptr)), p.Valid ∧ install .std false p 0 = .ok (rep, img) ∧
      AnyCall p 0 img m args xs ∧ ¬ ∃ o, Expected p m xs o ∧ Does m (callMethod 0 img m args []) o := by
  obtain ⟨rep, img, hi, hc⟩ := run_eq h
  refine ⟨rep, img, _, Check.valid hv, hi, Check.anyCall hv hcall 0 img, ?_⟩
  rintro ⟨o, ho, hd⟩
  rw [hc] at hd
  rw [Expected.unique ho (Check.expected_spec (Check.validB_ranked hv) m xs)] at hd
  rw [Check.does hd] at hne
  simp at hne

/-- C01 does not hold: classes form a chain, each is registered with its direct base; calling `f5` with an object of class 5
runs the overrider of another method. -/
theorem C01_refuted : ¬ C01 := by
  intro h
  obtain ⟨rep, img, args, hv, hi, hc, hn⟩ := not_expected (p := late) (m := f5) (xs := [5]) (r := .ok 20) (by decide +kernel)
    (by decide +kernel) (by decide +kernel) (by decide +kernel)
  exact hn (h _ _ _ _ _ _ _ _ _ hv hi hc rfl)

/-- C02 does not hold, even when all classes are registered at once and there are only virtual parameters: with multiple
inheritance, an overrider dominated by an applicable overrider may remain, because its dominator was eliminated first. The
call is reported as ambiguous, although only one overrider is not dominated. -/
theorem C02_refuted : ¬ C02 := by
  intro h
  obtain ⟨rep, img, args, hv, hi, hc, hn⟩ := not_expected (p := multi1) (m := cyc1) (xs := [5, 9]) (r := .err (.ambiguousCall 0 []))
    (by decide +kernel) (by decide +kernel) (by decide +kernel) (by decide +kernel)
  exact hn (h _ _ _ _ _ _ _ _ _ hv hi hc (by decide))

/-- In the counterexample to C02, the classes are registered in a supported order and virtual parameters are contiguous: only
multiple inheritance is to blame. -/
theorem C02_refuted_call : ∃ (rep : Report) (img : Image) (args : List (Res Ptr)), multi1.Valid ∧
    install .std false multi1 0 = .ok (rep, img) ∧ CallTo multi1 0 img cyc1 args [5, 9] ∧ Expected multi1 cyc1 [5, 9] (.run 0) ∧
    callMethod 0 img cyc1 args [] = .err (.ambiguousCall 0 []) := by
  obtain ⟨rep, img, args, hv, hi, hc, hr⟩ := run_call (p := multi1) (m := cyc1) (xs := [5, 9]) (r := .err (.ambiguousCall 0 []))
    (by decide +kernel) (by decide +kernel) (by decide +kernel)
  refine ⟨rep, img, args, hv, hi, hc, ?_, hr⟩
  have he : Check.expected multi1 cyc1 [5, 9] = .run 0 := by decide +kernel
  rw [← he]
  exact Check.expected_spec (by decide +kernel) _ _

/-- C01 for supported registration orders: the overrider for the closest class runs. -/
theorem C01_partial (hv : p.Valid) (h : install pl false p gen = .ok (rep, img)) (hc : CallTo p gen img m args xs)
    (h1 : m.vp.length = 1) (types : List TypeId) : ∃ r, Expected p m xs r ∧ Does m (callMethod gen img m args types) r := by
  rw [call_ref hv h hc]
  exact refCall_expected (transitiveAt_one hv.acyclic (hv.wf m hc.mem) h1 xs) types

/-- C01 in more detail: an overrider runs exactly when its class is the object's class or the closest of its bases having an
overrider, i.e. it derives from the classes of all other applicable overriders. -/
theorem C01_closest_partial (hv : p.Valid) (h : install pl false p gen = .ok (rep, img)) {x : Cls} (hc : CallTo p gen img m args [x])
    (types : List TypeId) (n : Nat) :
    callMethod gen img m args types = .ok n ↔
      ∃ (i : Nat) (o : OverriderInfo) (c : Cls), m.overriders[i]? = some o ∧ o.pf = n ∧ classesOf p o.vp = [c] ∧ Derives p x c ∧
        ∀ (j : Nat) (o' : OverriderInfo) (c' : Cls), m.overriders[j]? = some o' → classesOf p o'.vp = [c'] → Derives p x c' → j ≠ i → ProperlyDerives p c c' := by
  have hwf := hv.wf m hc.mem
  have hvp : m.vp.length = 1 := by
    have := hc.callable.1.length_eq
    simpa [classesOf] using this
  have happ : ∀ o c, classesOf p o.vp = [c] → (Applicable p o [x] ↔ Derives p x c) := by
    intro o c ho
    simp [Applicable, Accepts, ho]
  rw [call_ref hv h hc]
  constructor
  · intro hr
    obtain ⟨i, o, ho, hpf, hA, hs⟩ := refCall_ok hr
    obtain ⟨c, hoc⟩ := classesOf_one (p := p) ((hwf.overriders o (List.mem_of_getElem? ho)).trans hvp)
    refine ⟨i, o, c, ho, hpf, hoc, (happ o c hoc).1 hA, ?_⟩
    intro j o' c' ho' hoc' hd hne
    have S := survIdx_surv (p := p) m (appIdx p m [x])
    have htr := transitiveAt_one hv.acyclic hwf hvp [x]
    -- every applicable overrider is dominated by the survivor
    have key : ∀ a, ApplicableAt p m [x] a → a = i ∨ Dominates p m i a := by
      have hsv := S.dominated (domB_irrefl p m) (fun a ha b hb d hd h1 h2 => domB_iff.2
        (htr a b d (mem_appIdx.1 ha) (mem_appIdx.1 hb) (mem_appIdx.1 hd) (domB_iff.1 h1) (domB_iff.1 h2)))
      intro a ha
      rcases hsv a (mem_appIdx.2 ha) with hin | ⟨b, hb, hba⟩
      · rw [hs] at hin; exact .inl (by simpa using hin)
      · rw [hs] at hb
        obtain rfl : b = i := by simpa using hb
        exact .inr (domB_iff.1 hba)
    obtain ⟨a, b, ha, hb, hab⟩ := (key j ⟨o', ho', (happ o' c' hoc').2 hd⟩).resolve_left hne
    obtain rfl := Option.some.inj (ho.symm.trans ha)
    obtain rfl := Option.some.inj (ho'.symm.trans hb)
    exact ((moreSpecific_one hoc hoc').1 hab).1
  · rintro ⟨i, o, c, ho, rfl, hoc, hd, hall⟩
    refine refCall_best ho ((happ o c hoc).2 hd) ?_ types
    rintro j ⟨o', ho', hA⟩ hne
    obtain ⟨c', hoc'⟩ := classesOf_one (p := p) ((hwf.overriders o' (List.mem_of_getElem? ho')).trans hvp)
    have hp := hall j o' c' ho' hoc' ((happ o' c' hoc').1 hA) hne
    exact ⟨o, o', ho, ho', (moreSpecific_one hoc hoc').2 ⟨hp, properlyDerives_asymm hv.acyclic hp⟩⟩

/-- C02 when the choice among the applicable overriders is settled by direct comparisons. `C02_exact` shows that this cannot be weakened, unless the order of
overriders is taken into account, or no overrider is undominated. -/
theorem C02_settled_partial (hv : p.Valid) (h : install pl false p gen = .ok (rep, img)) (hc : CallTo p gen img m args xs)
    (hs : Settled p m xs) (types : List TypeId) : ∃ r, Expected p m xs r ∧ Does m (callMethod gen img m args types) r := by
  rw [call_ref hv h hc]
  exact refCall_settled hs types

/-- What remains of C02 in any case: an overrider that no other one dominates is called, or the call is reported as ambiguous; it is, if there are two of them. -/
theorem C02_undominated_partial (hv : p.Valid) (h : install pl false p gen = .ok (rep, img)) (hc : CallTo p gen img m args xs) (types : List TypeId) :
    (∀ i, Undominated p m xs i → Does m (callMethod gen img m args types) (.run i) ∨ Does m (callMethod gen img m args types) .ambiguous) ∧
    ∀ i j, i ≠ j → Undominated p m xs i → Undominated p m xs j → Does m (callMethod gen img m args types) .ambiguous := by
  rw [call_ref hv h hc]
  exact ⟨fun i hi => refCall_undominated hi types, fun i j hne hi hj => ⟨_, _, refCall_two hne hi hj types⟩⟩

/-- C02 when dominance is transitive among the applicable overriders. -/
theorem C02_transitive_partial (hv : p.Valid) (h : install pl false p gen = .ok (rep, img)) (hc : CallTo p gen img m args xs)
    (ht : TransitiveAt p m xs) (types : List TypeId) : ∃ r, Expected p m xs r ∧ Does m (callMethod gen img m args types) r :=
  C02_settled_partial hv h hc ht.founded.settled types

/-- C02 when there is no multiple inheritance above the classes of the arguments. -/
theorem C02_partial (hv : p.Valid) (h : install pl false p gen = .ok (rep, img)) (hc : CallTo p gen img m args xs)
    (hs : ∀ x ∈ xs, SingleInheritance p x) (types : List TypeId) :
    ∃ r, Expected p m xs r ∧ Does m (callMethod gen img m args types) r :=
  C02_transitive_partial hv h hc (transitiveAt_single hv.acyclic hs) types

/-! ## C03, C04: errors -/

/-- C03 in full. -/
def C03 : Prop :=
  ∀ (pl : Platform) (p : Program) (gen : Nat) (rep : Report) (img : Image) (m : MethodInfo) (args : List (Res Ptr)) (xs : List Cls)
    (types : List TypeId), p.Valid → install pl false p gen = .ok (rep, img) → AnyCall p gen img m args xs →
    ((∃ a ts, callMethod gen img m args types = .err (.noOverrider a ts)) ↔ ∀ i, ¬ ApplicableAt p m xs i)

/-- C04 in full. -/
def C04 : Prop :=
  ∀ (pl : Platform) (p : Program) (gen : Nat) (rep : Report) (img : Image) (m : MethodInfo) (args : List (Res Ptr)) (xs : List Cls)
    (types : List TypeId), p.Valid → install pl false p gen = .ok (rep, img) → AnyCall p gen img m args xs →
    ((∃ a ts, callMethod gen img m args types = .err (.ambiguousCall a ts)) ↔
      (∃ i, ApplicableAt p m xs i) ∧ ¬ ∃ i, Undominated p m xs i ∧ ∀ j, Undominated p m xs j → j = i)

/-- C03, for any inheritance graph and any dominance relation. -/
theorem C03_partial (hv : p.Valid) (h : install pl false p gen = .ok (rep, img)) (hc : CallTo p gen img m args xs) (types : List TypeId) :
    (∃ a ts, callMethod gen img m args types = .err (.noOverrider a ts)) ↔ ∀ i, ¬ ApplicableAt p m xs i := by
  rw [call_ref hv h hc]
  exact refCall_noOverrider

/-- C04 when the choice among the applicable overriders is settled by direct comparisons. -/
theorem C04_settled_partial (hv : p.Valid) (h : install pl false p gen = .ok (rep, img)) (hc : CallTo p gen img m args xs)
    (hs : Settled p m xs) (types : List TypeId) :
    (∃ a ts, callMethod gen img m args types = .err (.ambiguousCall a ts)) ↔
      (∃ i, ApplicableAt p m xs i) ∧ ¬ ∃ i, Undominated p m xs i ∧ ∀ j, Undominated p m xs j → j = i := by
  obtain ⟨r, hr, hd⟩ := C02_settled_partial hv h hc hs types
  constructor
  · rintro ⟨a, ts, he⟩
    rw [he] at hd
    cases r with
    | run i => obtain ⟨o, _, ho⟩ := hd; simp at ho
    | noOverrider => obtain ⟨a, ts, ho⟩ := hd; simp at ho
    | ambiguous => exact hr
  · intro he
    rw [Expected.unique hr (s := .ambiguous) he] at hd
    exact hd

/-- C04 when dominance is transitive among the applicable overriders. -/
theorem C04_transitive_partial (hv : p.Valid) (h : install pl false p gen = .ok (rep, img)) (hc : CallTo p gen img m args xs)
    (ht : TransitiveAt p m xs) (types : List TypeId) :
    (∃ a ts, callMethod gen img m args types = .err (.ambiguousCall a ts)) ↔
      (∃ i, ApplicableAt p m xs i) ∧ ¬ ∃ i, Undominated p m xs i ∧ ∀ j, Undominated p m xs j → j = i :=
  C04_settled_partial hv h hc ht.founded.settled types

/-- C04 for methods with one virtual parameter, and when there is no multiple inheritance above the arguments. -/
theorem C04_partial (hv : p.Valid) (h : install pl false p gen = .ok (rep, img)) (hc : CallTo p gen img m args xs)
    (hs : m.vp.length = 1 ∨ ∀ x ∈ xs, SingleInheritance p x) (types : List TypeId) :
    (∃ a ts, callMethod gen img m args types = .err (.ambiguousCall a ts)) ↔
      (∃ i, ApplicableAt p m xs i) ∧ ¬ ∃ i, Undominated p m xs i ∧ ∀ j, Undominated p m xs j → j = i :=
  C04_transitive_partial hv h hc (hs.elim (fun h1 => transitiveAt_one hv.acyclic (hv.wf m hc.mem) h1 xs) (transitiveAt_single hv.acyclic)) types

/-- C04 does not hold with multiple inheritance. -/
theorem C04_refuted : ¬ C04 := by
  intro h
  obtain ⟨rep, img, args, hv, hi, hc, he, hr⟩ := C02_refuted_call
  exact ((h _ _ _ _ _ _ _ _ [] hv hi hc.any).1 ⟨_, _, hr⟩).2 ⟨0, he⟩

/-- Conversely, a call that should be ambiguous may run an overrider: here each overrider is dominated by another one. -/
theorem C04_refuted_cycle : ∃ (rep : Report) (img : Image) (args : List (Res Ptr)), around.Valid ∧
    install .std false around 0 = .ok (rep, img) ∧ CallTo around 0 img round args [6, 6] ∧ Expected around round [6, 6] .ambiguous ∧
    (∀ i, ¬ Undominated around round [6, 6] i) ∧ callMethod 0 img round args [] = .ok 3 := by
  obtain ⟨rep, img, args, hv, hi, hc, hr⟩ := run_call (p := around) (m := round) (xs := [6, 6]) (r := .ok 3)
    (by decide +kernel) (by decide +kernel) (by decide +kernel)
  have hr' : Check.ranked around = true := by decide +kernel
  refine ⟨rep, img, args, hv, hi, hc, ?_, fun i h => ?_, hr⟩
  · have he : Check.expected around round [6, 6] = .ambiguous := by decide +kernel
    rw [← he]
    exact Check.expected_spec hr' _ _
  · have he : Check.bests around round [6, 6] = [] := by decide +kernel
    have := (Check.mem_bests hr').2 h
    rw [he] at this
    simp at this

/-! ## C08, C09: what always holds of the overrider that runs -/

/-- C08 in full. -/
def C08 : Prop :=
  ∀ (pl : Platform) (p : Program) (gen : Nat) (rep : Report) (img : Image) (m : MethodInfo) (args : List (Res Ptr)) (xs : List Cls)
    (types : List TypeId) (i : Nat) (o : OverriderInfo), p.Valid → install pl false p gen = .ok (rep, img) → AnyCall p gen img m args xs →
    m.overriders[i]? = some o → Applicable p o xs → (∀ j, ApplicableAt p m xs j → j ≠ i → Dominates p m i j) →
    callMethod gen img m args types = .ok o.pf

/-- C09 in full. -/
def C09 : Prop :=
  ∀ (pl : Platform) (p : Program) (gen : Nat) (rep : Report) (img : Image) (m : MethodInfo) (args : List (Res Ptr)) (xs : List Cls)
    (types : List TypeId) (n : Nat), p.Valid → install pl false p gen = .ok (rep, img) → AnyCall p gen img m args xs →
    callMethod gen img m args types = .ok n → ∃ o ∈ m.overriders, o.pf = n ∧ Applicable p o xs

/-- C08, for any inheritance graph. -/
theorem C08_partial (hv : p.Valid) (h : install pl false p gen = .ok (rep, img)) (hc : CallTo p gen img m args xs) (types : List TypeId)
    {i : Nat} {o : OverriderInfo} (ho : m.overriders[i]? = some o) (hA : Applicable p o xs)
    (hb : ∀ j, ApplicableAt p m xs j → j ≠ i → Dominates p m i j) : callMethod gen img m args types = .ok o.pf := by
  rw [call_ref hv h hc]
  exact refCall_best ho hA hb types

/-- C09, for any inheritance graph. -/
theorem C09_partial (hv : p.Valid) (h : install pl false p gen = .ok (rep, img)) (hc : CallTo p gen img m args xs) (types : List TypeId)
    {n : Nat} (hn : callMethod gen img m args types = .ok n) : ∃ o ∈ m.overriders, o.pf = n ∧ Applicable p o xs := by
  rw [call_ref hv h hc] at hn
  obtain ⟨i, o, ho, hpf, hA, _⟩ := refCall_ok hn
  exact ⟨o, List.mem_of_getElem? ho, hpf, hA⟩

/-- The overrider that runs was not dominated by another one that could have run: even with multiple inheritance, a call never
runs an overrider when an applicable one dominates all others; and a call reported as ambiguous has no overrider that
dominates all others. -/
theorem C04_sound_partial (hv : p.Valid) (h : install pl false p gen = .ok (rep, img)) (hc : CallTo p gen img m args xs)
    (types : List TypeId) {a : Nat} {ts : List TypeId} (hn : callMethod gen img m args types = .err (.ambiguousCall a ts)) :
    (∃ i, ApplicableAt p m xs i) ∧ ¬ ∃ i, ApplicableAt p m xs i ∧ ∀ j, ApplicableAt p m xs j → j ≠ i → Dominates p m i j := by
  constructor
  · by_contra hno
    have := (C03_partial hv h hc types).2 (fun i hi => hno ⟨i, hi⟩)
    obtain ⟨a, ts, he⟩ := this
    rw [hn] at he
    simp at he
  · rintro ⟨i, ⟨o, ho, hA⟩, hb⟩
    rw [C08_partial hv h hc types ho hA hb] at hn
    simp at hn

/-- The calls of the counterexample to C01 are wrong in all respects: the best overrider does not run, an overrider that does
not belong to the method runs. -/
theorem C03_refuted : ¬ C03 := by
  intro h
  obtain ⟨rep, img, args, hv, hi, hc, hr⟩ := run_any (p := lateNone) (m := g5) (xs := [5]) (r := .ok 20) (by decide +kernel)
    (by decide +kernel) (by decide +kernel)
  obtain ⟨a, ts, he⟩ := (h _ _ _ _ _ _ _ _ [] hv hi hc).2 (fun i ⟨o, ho, _⟩ => by simp [g5, meth] at ho)
  rw [hr] at he
  simp at he

theorem C08_refuted : ¬ C08 := by
  intro h
  obtain ⟨rep, img, args, hv, hi, hc, hr⟩ := run_any (p := late) (m := f5) (xs := [5]) (r := .ok 20) (by decide +kernel)
    (by decide +kernel) (by decide +kernel)
  have := h _ _ _ _ _ _ _ _ [] 0 (ov [5] 50) hv hi hc rfl ((Check.accepts (by decide +kernel)).1 (by decide +kernel))
    (by
      rintro j ⟨o, ho, _⟩ hj
      cases j with
      | zero => exact absurd rfl hj
      | succ j => simp [f5, meth] at ho)
  rw [hr] at this
  simp [ov] at this

theorem C09_refuted : ¬ C09 := by
  intro h
  obtain ⟨rep, img, args, hv, hi, hc, hr⟩ := run_any (p := late) (m := f5) (xs := [5]) (r := .ok 20) (by decide +kernel)
    (by decide +kernel) (by decide +kernel)
  obtain ⟨o, ho, hpf, _⟩ := h _ _ _ _ _ _ _ _ [] 20 hv hi hc hr
  simp only [f5, meth, List.mem_singleton] at ho
  subst ho
  simp [ov] at hpf

/-! ## C05: parameters that are not virtual -/

/-- C05 in full: two methods with the same overriders and the same classes of virtual parameters, in two programs that otherwise
agree, do the same. -/
def C05 : Prop :=
  ∀ (pl pl' : Platform) (p p' : Program) (gen gen' : Nat) (rep rep' : Report) (img img' : Image) (m m' : MethodInfo)
    (args args' : List (Res Ptr)) (xs : List Cls) (types : List TypeId), p.Valid → p'.Valid →
    install pl false p gen = .ok (rep, img) → install pl' false p' gen' = .ok (rep', img') → p'.rtti = p.rtti → p'.classes = p.classes →
    m'.vp = m.vp → m'.overriders = m.overriders → AnyCall p gen img m args xs → AnyCall p' gen' img' m' args' xs →
    callMethod gen img m args types = callMethod gen' img' m' args' types

/-- The result of a call is determined by the classes, and the overriders of the method. -/
theorem refCall_congr {p p' : Program} {m m' : MethodInfo} (ht : p'.rtti = p.rtti) (hc : p'.classes = p.classes)
    (ho : m'.overriders = m.overriders) (xs : List Cls) (types : List TypeId) : refCall p' m' xs types = refCall p m xs types := by
  obtain ⟨r, c, ms⟩ := p
  obtain ⟨r', c', ms'⟩ := p'
  simp only at ht hc
  subst ht hc
  unfold refCall applicable
  rw [ho]
  rfl

/-- C05 when the virtual parameters are contiguous: others may precede and follow them. With one virtual parameter, others can
be anywhere. -/
theorem C05_partial {pl' : Platform} {p' : Program} {gen' : Nat} {rep' : Report} {img' : Image} {m' : MethodInfo} {args' : List (Res Ptr)}
    (hv : p.Valid) (hv' : p'.Valid) (h : install pl false p gen = .ok (rep, img)) (h' : install pl' false p' gen' = .ok (rep', img'))
    (ht : p'.rtti = p.rtti) (hcl : p'.classes = p.classes) (ho : m'.overriders = m.overriders)
    (hc : CallTo p gen img m args xs) (hc' : CallTo p' gen' img' m' args' xs) (types : List TypeId) :
    callMethod gen img m args types = callMethod gen' img' m' args' types := by
  rw [call_ref hv h hc, call_ref hv' h' hc', refCall_congr ht hcl ho]

/-- C05 does not hold: with a parameter between two virtual ones, the second virtual argument is ignored. -/
theorem C05_refuted : ¬ C05 := by
  intro h
  obtain ⟨rep, img, args, hv, hi, hc, hr⟩ := run_any (p := gap) (m := gapped) (xs := [1, 2]) (r := .ok 11) (by decide +kernel)
    (by decide +kernel) (by decide +kernel)
  obtain ⟨rep', img', args', hv', hi', hc', hr'⟩ := run_any (p := noGap) (m := ungapped) (xs := [1, 2]) (r := .ok 12) (by decide +kernel)
    (by decide +kernel) (by decide +kernel)
  have := h _ _ _ _ _ _ _ _ _ _ gapped ungapped _ _ _ [] hv hv' hi hi' rfl rfl rfl rfl hc hc'
  rw [hr, hr'] at this
  simp at this

/-- Nor is the second one always ignored: with three virtual parameters, a slot of another parameter can be used, and the call reads outside
the tables. -/
theorem C05_refuted_read : ∃ (p : Program) (rep : Report) (img : Image) (m : MethodInfo) (args : List (Res Ptr)) (xs : List Cls), p.Valid ∧
    install .std false p 0 = .ok (rep, img) ∧ AnyCall p 0 img m args xs ∧ (∀ x ∈ xs, OrderSafe p x) ∧ callMethod 0 img m args [] = .ub := by
  obtain ⟨rep, img, args, hv, hi, hc, hr⟩ := run_any (p := gap3) (m := gapped3) (xs := [1, 2, 1]) (r := .ub) (by decide +kernel)
    (by decide +kernel) (by decide +kernel)
  exact ⟨gap3, rep, img, gapped3, args, [1, 2, 1], hv, hi, hc,
    fun x hx => Check.order (by decide +kernel) ((show ∀ x ∈ [1, 2, 1], Check.orderB gap3 x = true by decide +kernel) x hx), hr⟩

/-- What happens instead when the virtual parameters that do not follow the first `k` ones are far enough: all calls do what they should do
for some fixed arguments in their place. -/
theorem C05_gap_partial (hv : p.Valid) (h : install pl false p gen = .ok (rep, img)) (hm : m ∈ p.methods) {k : Nat} (hk : Leading m.params k) :
    ∃ zs, Accepts p (classesOf p (m.vp.drop k)) zs ∧
      ∀ (xs ys : List Cls) (args args' : List (Res Ptr)) (types : List TypeId) (pl' : Platform) (p' : Program) (gen' : Nat) (rep' : Report) (img' : Image)
        (m' : MethodInfo), xs.length = k → AnyCall p gen img m args (xs ++ ys) → ArgsSafe p (classesOf p (m.vp.take k)) xs →
        p'.Valid → install pl' false p' gen' = .ok (rep', img') → p'.rtti = p.rtti → p'.classes = p.classes → m'.overriders = m.overriders →
        CallTo p' gen' img' m' args' (xs ++ zs) →
        callMethod gen img m args types = callMethod gen' img' m' args' types := by
  obtain ⟨zs, h1, h2⟩ := call_gap hv h hm hk
  refine ⟨zs, h1, ?_⟩
  intro xs ys args args' types pl' p' gen' rep' img' m' hx hc hs hv' h' ht hcl ho hc'
  rw [h2 args xs ys types hx hc hs, call_ref hv' h' hc', refCall_congr ht hcl ho]

/-- In particular, they ignore these virtual arguments. -/
theorem C05_ignored_partial (hv : p.Valid) (h : install pl false p gen = .ok (rep, img)) {k : Nat} (hk : Leading m.params k) {ys ys' : List Cls}
    {args' : List (Res Ptr)} (hx : xs.length = k) (hs : ArgsSafe p (classesOf p (m.vp.take k)) xs) (hc : AnyCall p gen img m args (xs ++ ys))
    (hc' : AnyCall p gen img m args' (xs ++ ys')) (types : List TypeId) :
    callMethod gen img m args types = callMethod gen img m args' types := by
  obtain ⟨zs, _, h2⟩ := call_gap hv h hc.mem hk
  rw [h2 args xs ys types hx hc hs, h2 args' xs ys' types hx hc' hs]

/-- This is what happens to all methods with two virtual parameters, if they are not contiguous. -/
theorem C05_two_partial {params : List Bool} (h2 : params.count true = 2) (hn : ¬ Contiguous params) : Leading params 1 := leading_two h2 hn

/-- Two virtual parameters that are separated, and a third one separated from two: the last virtual argument has no effect. -/
example : Leading gapped.params 1 ∧ run gap gapped [1, 1] = some (.ok 11) ∧ run gap gapped [1, 2] = some (.ok 11) :=
  ⟨C05_two_partial (by decide +kernel) (fun h => by
    obtain ⟨a, n, b, h⟩ := h
    rcases a with _ | a
    · rcases n with _ | _ | n <;> rcases b with _ | _ | b <;> simp [gapped, meth, List.replicate_succ] at h
    · simp [gapped, meth, List.replicate_succ] at h), by decide +kernel, by decide +kernel⟩

example : Leading gapped4.params 2 ∧ run gap4 gapped4 [1, 2, 1] = some (.ok 12) ∧ run gap4 gapped4 [1, 2, 2] = some (.ok 12) ∧
    run gap4 gapped4 [1, 1, 2] = some (.ok 11) :=
  ⟨⟨by omega, 0, 1, [true], rfl, by decide +kernel⟩, by decide +kernel, by decide +kernel, by decide +kernel⟩

/-- The arguments given for other parameters are not even evaluated: here they are all invalid, and the calls succeed
(`Check.mkArgs`). -/
example : run zoo poke [4] = some (.ok 14) := by decide +kernel

/-! ## The hypotheses can be met -/

/-- Classes registered at once, and one by one. -/
example : ∃ rep img args, zoo.Valid ∧ install .std false zoo 0 = .ok (rep, img) ∧ CallTo zoo 0 img poke args [4] ∧
    callMethod 0 img poke args [] = .ok 14 := run_call (by decide +kernel) (by decide +kernel) (by decide +kernel)

example : ∃ rep img args, zooIncr.Valid ∧ install .std false zooIncr 0 = .ok (rep, img) ∧ CallTo zooIncr 0 img meet args [4, 3] ∧
    callMethod 0 img meet args [] = .ok 23 := run_call (by decide +kernel) (by decide +kernel) (by decide +kernel)

example : run zoo bark [3] = some (.err (.noOverrider 0 [])) := by decide +kernel
example : run zoo bark [2] = some (.ok 30) := by decide +kernel
example : run zoo bark [4] = some (.err (.ambiguousCall 0 [])) := by decide +kernel

/-- There is no multiple inheritance in the zoo. -/
example : ∀ x ∈ [4, 3], SingleInheritance zoo x := by
  have key : ∀ x ∈ [4, 3], ∀ a ∈ Check.anc zoo x, ∀ b ∈ Check.anc zoo x, b ∈ Check.anc zoo a ∨ a ∈ Check.anc zoo b := by decide +kernel
  have hr : Check.ranked zoo = true := by decide +kernel
  intro x hx a b ha hb
  exact (key x hx a ((Check.mem_anc hr).2 ha) b ((Check.mem_anc hr).2 hb)).imp (Check.mem_anc hr).1 (Check.mem_anc hr).1

/-- With multiple inheritance, and dominance that is not transitive: an overrider dominates all others, two overriders are undominated. -/
theorem not_transitive {p : Program} {m : MethodInfo} {xs : List Cls} (hr : Check.ranked p = true) (i j k : Nat)
    (h : (Check.applicableAtB p m xs i && Check.applicableAtB p m xs j && Check.applicableAtB p m xs k && Check.dominatesB p m i j && Check.dominatesB p m j k &&
      !Check.dominatesB p m i k) = true) : ¬ TransitiveAt p m xs := by
  simp only [Bool.and_eq_true, Bool.not_eq_true', ← Bool.not_eq_true, Check.applicableAt hr, Check.dominates hr] at h
  obtain ⟨⟨⟨⟨⟨h1, h2⟩, h3⟩, h4⟩, h5⟩, h6⟩ := h
  exact fun ht => h6 (ht i j k h1 h2 h3 h4 h5)

example : Settled multiBest cycBest [5, 9] ∧ ¬ TransitiveAt multiBest cycBest [5, 9] ∧ run multiBest cycBest [5, 9] = some (.ok 4) :=
  ⟨(Check.settled (by decide +kernel)).1 (by decide +kernel), not_transitive (by decide +kernel) 0 1 2 (by decide +kernel), by decide +kernel⟩

example : Settled multiTwo cycTwo [5, 9] ∧ ¬ TransitiveAt multiTwo cycTwo [5, 9] ∧ run multiTwo cycTwo [5, 9] = some (.err (.ambiguousCall 0 [])) :=
  ⟨(Check.settled (by decide +kernel)).1 (by decide +kernel), not_transitive (by decide +kernel) 0 1 2 (by decide +kernel), by decide +kernel⟩

/-- The counterexamples are not settled; in the first, an overrider is undominated. -/
example : ¬ Settled multi1 cyc1 [5, 9] ∧ Undominated multi1 cyc1 [5, 9] 0 ∧ ¬ Settled around round [6, 6] :=
  ⟨fun h => absurd ((Check.settled (by decide +kernel)).2 h) (by decide +kernel), (Check.mem_bests (by decide +kernel)).1 (by decide +kernel),
    fun h => absurd ((Check.settled (by decide +kernel)).2 h) (by decide +kernel)⟩

/-- Being founded is between the two. -/
example : Founded multiBest cycBest [5, 9] := by
  have hr : Check.ranked multiBest = true := by decide +kernel
  have hu : Undominated multiBest cycBest [5, 9] 3 := (Check.mem_bests hr).1 (by decide +kernel)
  have key : ∀ j ∈ Check.apps multiBest cycBest [5, 9], j = 3 ∨ Check.dominatesB multiBest cycBest 3 j = true := by decide +kernel
  intro j hj
  rcases key j ((Check.mem_apps hr).2 hj) with rfl | h
  · exact .inl hu
  · exact .inr ⟨3, hu, (Check.dominates hr).1 h⟩

end OpenMethod.Props

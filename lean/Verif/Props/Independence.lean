import Verif.Proof.Reorder
import Verif.Proof.Abstract
import Verif.SpecChange
import Verif.Examples.Programs
import Mathlib.Tactic.FinCases

/-!
# C06, C07, C42, C46-C48: what does not influence calls

Each property compares calls in two programs, or on two platforms.
-/

namespace OpenMethod.Props

open Spec Examples

variable {n : Bool} {pl pl' : Platform} {p p' : Program} {gen gen' : Nat} {rep rep' : Report} {img img' : Image} {m m' : MethodInfo}
  {args args' : List (Res Ptr)} {xs : List Cls}

/-! ## C06: the order and grouping of class registrations -/

/-- C06 in full: programs that register the same inheritance are accepted or rejected alike, and calls do the same. -/
def C06 : Prop :=
  ∀ (pl pl' : Platform) (p p' : Program) (gen gen' : Nat) (rep rep' : Report) (img img' : Image) (m : MethodInfo)
    (args args' : List (Res Ptr)) (xs : List Cls) (types : List TypeId), p.Valid → p'.Valid → SameInheritance p p' →
    install pl false p gen = .ok (rep, img) → install pl' false p' gen' = .ok (rep', img') →
    AnyCall p gen img m args xs → AnyCall p' gen' img' m args' xs →
    callMethod gen' img' m args' types = callMethod gen img m args types

/-- C06 does not hold: `late` and `full` register the same chain of classes. -/
theorem C06_refuted : ¬ C06 := by
  intro h
  obtain ⟨rep, img, args, hv, hi, hc, hr⟩ := run_any (p := late) (m := f5) (xs := [5]) (r := .ok 20) (by decide +kernel)
    (by decide +kernel) (by decide +kernel)
  obtain ⟨rep', img', args', hv', hi', hc', hr'⟩ := run_any (p := full) (m := f5) (xs := [5]) (r := .ok 50) (by decide +kernel)
    (by decide +kernel) (by decide +kernel)
  have := h _ _ _ _ _ _ _ _ _ _ f5 _ _ _ [] hv hv' (Check.sameInheritance rfl rfl (by decide +kernel)) hi hi' hc hc'
  rw [hr, hr'] at this
  simp at this

/-- C06 when both orders of registration are supported. -/
theorem C06_partial (hv : p.Valid) (hv' : p'.Valid) (hs : SameInheritance p p') (h : install pl false p gen = .ok (rep, img))
    (h' : install pl' false p' gen' = .ok (rep', img')) (hc : CallTo p gen img m args xs) (hc' : CallTo p' gen' img' m args' xs)
    (types : List TypeId) : callMethod gen' img' m args' types = callMethod gen img m args types := by
  rw [call_ref hv h hc, call_ref hv' h' hc']
  exact refCall_congr' hs.rtti hs.derives (applicable_eq hs.rtti hs.derives xs rfl) types

theorem SameInheritance.symm (hs : SameInheritance p p') : SameInheritance p' p :=
  ⟨hs.rtti.symm, hs.methods.symm, fun c => (hs.registered c).symm, fun a b => (hs.derives a b).symm⟩

theorem SameInheritance.covariant (hs : SameInheritance p p') (m : MethodInfo) : CovariantReturn p' m ↔ CovariantReturn p m := by
  unfold CovariantReturn
  rw [hs.registered, hs.rtti]

theorem SameInheritance.unregistered (hs : SameInheritance p p') (h : ∃ t, Unregistered p t) : ∃ t, Unregistered p' t := by
  obtain ⟨t, ht, hr⟩ := h
  rcases ht with ⟨cr, hcr, hb⟩ | ht
  · -- the class of the record derives from an unregistered class: this is also known in `p'`
    have hne : p.rtti.ti cr.type ≠ p.rtti.ti t := fun e => hr ⟨cr, hcr, e⟩
    have hd : Derives p' (p.rtti.ti cr.type) (p.rtti.ti t) := (hs.derives _ _).2 (.single ⟨cr, hcr, rfl, t, hb, rfl, hne⟩)
    rcases Relation.ReflTransGen.cases_tail hd with e | ⟨y, _, cr', hcr', e1, t', ht', e2, _⟩
    · exact absurd e.symm hne
    · refine ⟨t', .inl ⟨cr', hcr', ht'⟩, ?_⟩
      rw [e2, hs.registered]
      exact hr
  · refine ⟨t, .inr ?_, by rw [hs.registered, hs.rtti]; exact hr⟩
    rw [hs.methods]
    obtain ⟨m, hm, h⟩ := ht
    refine ⟨m, hm, h.imp_right ?_⟩
    rintro ⟨o, ho, h⟩
    exact ⟨o, ho, h.imp_right fun h => ⟨h.1, (SameInheritance.covariant hs m).2 h.2⟩⟩

theorem SameInheritance.notDerived (hs : SameInheritance p p') {m : MethodInfo} {o : OverriderInfo} {k : Nat} {t v : TypeId}
    (h : NotDerived p m o k t v) : NotDerived p' m o k t v := by
  obtain ⟨h1, h2, h3, h4, h5⟩ := h
  refine ⟨by rw [hs.methods]; exact h1, h2, h3, h4, ?_⟩
  rw [hs.derives, hs.rtti]
  exact h5

/-- C06, errors, in full: the programs are accepted or rejected alike, for the same reason. -/
theorem C06_errors (hv : p.Valid) (hv' : p'.Valid) (hs : SameInheritance p p') (pl pl' : Platform) (gen gen' : Nat) :
    ((∃ t, install pl' false p' gen' = .err (.missingClass t)) ↔ ∃ t, install pl false p gen = .err (.missingClass t)) ∧
    ((∃ b d, install pl' false p' gen' = .err (.missingBase b d)) ↔ ∃ b d, install pl false p gen = .err (.missingBase b d)) ∧
    ((∃ r, install pl' false p' gen' = .ok r) ↔ ∃ r, install pl false p gen = .ok r) := by
  have key : ∀ {p p' : Program}, p.Valid → p'.Valid → SameInheritance p p' → ∀ (pl pl' : Platform) (gen gen' : Nat),
      ((∃ t, install pl false p gen = .err (.missingClass t)) → ∃ t, install pl' false p' gen' = .err (.missingClass t)) ∧
      ((∃ b d, install pl false p gen = .err (.missingBase b d)) → ∃ b d, install pl' false p' gen' = .err (.missingBase b d)) ∧
      ((∃ r, install pl false p gen = .ok r) → ∃ r, install pl' false p' gen' = .ok r) := by
    intro p p' hv hv' hs pl pl' gen gen'
    have c := install_cases (n := false) (pl := pl) hv gen
    have c' := install_cases (n := false) (pl := pl') hv' gen'
    have hu := SameInheritance.unregistered hs
    have hu' := SameInheritance.unregistered (SameInheritance.symm hs)
    rcases c with ⟨t, e, h⟩ | ⟨hr, ⟨b, d, m, o, k, t, v, e, h, _⟩ | ⟨hn, ⟨rep, img, e⟩ | ⟨_, e⟩⟩⟩
    · rw [e]
      refine ⟨fun _ => ?_, by simp, by simp⟩
      obtain ⟨t', ht'⟩ := hu ⟨t, h⟩
      rcases c' with ⟨t2, e', _⟩ | ⟨hr', _⟩
      · exact ⟨t2, e'⟩
      · exact absurd (hr' t' ht'.1) ht'.2
    · rw [e]
      refine ⟨by simp, fun _ => ?_, by simp⟩
      rcases c' with ⟨t2, _, h2⟩ | ⟨_, ⟨b, d, _, _, _, _, _, e', _⟩ | ⟨hn', _⟩⟩
      · obtain ⟨t3, h3⟩ := hu' ⟨t2, h2⟩
        exact absurd (hr t3 h3.1) h3.2
      · exact ⟨b, d, e'⟩
      · exact absurd (SameInheritance.notDerived hs h) (hn' _ _ _ _ _)
    · rw [e]
      refine ⟨by simp, by simp, fun _ => ?_⟩
      rcases c' with ⟨t2, _, h2⟩ | ⟨_, ⟨b, d, _, _, _, _, _, _, h2, _⟩ | ⟨_, ⟨rep', img', e'⟩ | ⟨_, e'⟩⟩⟩
      · obtain ⟨t3, h3⟩ := hu' ⟨t2, h2⟩
        exact absurd (hr t3 h3.1) h3.2
      · exact absurd (SameInheritance.notDerived (SameInheritance.symm hs) h2) (hn _ _ _ _ _)
      · exact ⟨_, e'⟩
      · simp at e'
    · simp at e
  have k1 := key hv hv' hs pl pl' gen gen'
  have k2 := key hv' hv (SameInheritance.symm hs) pl' pl gen' gen
  exact ⟨⟨k2.1, k1.1⟩, ⟨k2.2.1, k1.2.1⟩, ⟨k2.2.2, k1.2.2⟩⟩

/-! ## C07: the order of overriders -/

/-- C07 in full. -/
def C07 : Prop :=
  ∀ (pl pl' : Platform) (p p' : Program) (gen gen' : Nat) (rep rep' : Report) (img img' : Image) (m m' : MethodInfo)
    (args args' : List (Res Ptr)) (xs : List Cls) (types : List TypeId), p.Valid → p'.Valid → p'.rtti = p.rtti → p'.classes = p.classes →
    List.Forall₂ Reordered p.methods p'.methods → Reordered m m' →
    install pl false p gen = .ok (rep, img) → install pl' false p' gen' = .ok (rep', img') →
    AnyCall p gen img m args xs → AnyCall p' gen' img' m' args' xs →
    callMethod gen' img' m' args' types = callMethod gen img m args types

/-- C07 does not hold with multiple inheritance: `multi1` reports an ambiguity, `multi2` calls an overrider. -/
theorem C07_refuted : ¬ C07 := by
  intro h
  obtain ⟨rep, img, args, hv, hi, hc, hr⟩ := run_any (p := multi1) (m := cyc1) (xs := [5, 9]) (r := .err (.ambiguousCall 0 []))
    (by decide +kernel) (by decide +kernel) (by decide +kernel)
  obtain ⟨rep', img', args', hv', hi', hc', hr'⟩ := run_any (p := multi2) (m := cyc2) (xs := [5, 9]) (r := .ok 1) (by decide +kernel)
    (by decide +kernel) (by decide +kernel)
  have hre : Reordered cyc1 cyc2 := ⟨rfl, rfl, rfl, rfl, by decide +kernel⟩
  have := h _ _ _ _ _ _ _ _ _ _ cyc1 cyc2 _ _ _ [] hv hv' rfl rfl (.cons hre .nil) hre hi hi' hc hc'
  rw [hr, hr'] at this
  simp at this

/-- C07 when the choice among the applicable overriders is settled by direct comparisons. -/
theorem C07_settled_partial (hv : p.Valid) (hv' : p'.Valid) (ht : p'.rtti = p.rtti) (hcl : p'.classes = p.classes)
    (hm : m'.overriders.Perm m.overriders) (h : install pl false p gen = .ok (rep, img)) (h' : install pl' false p' gen' = .ok (rep', img'))
    (hc : CallTo p gen img m args xs) (hc' : CallTo p' gen' img' m' args' xs) (hs : Settled p m xs) (types : List TypeId) :
    callMethod gen' img' m' args' types = callMethod gen img m args types := by
  rw [call_ref hv h hc, call_ref hv' h' hc', ← refCall_perm_settled hs hm]
  exact refCall_congr' ht (derives_congr ht hcl) (applicable_eq ht (derives_congr ht hcl) xs rfl) types

/-- C07 when dominance is transitive among the applicable overriders. -/
theorem C07_transitive_partial (hv : p.Valid) (hv' : p'.Valid) (ht : p'.rtti = p.rtti) (hcl : p'.classes = p.classes)
    (hm : m'.overriders.Perm m.overriders) (h : install pl false p gen = .ok (rep, img)) (h' : install pl' false p' gen' = .ok (rep', img'))
    (hc : CallTo p gen img m args xs) (hc' : CallTo p' gen' img' m' args' xs) (htr : TransitiveAt p m xs) (types : List TypeId) :
    callMethod gen' img' m' args' types = callMethod gen img m args types :=
  C07_settled_partial hv hv' ht hcl hm h h' hc hc' htr.founded.settled types

/-- C07 for methods with one virtual parameter, and without multiple inheritance above the arguments. -/
theorem C07_partial (hv : p.Valid) (hv' : p'.Valid) (ht : p'.rtti = p.rtti) (hcl : p'.classes = p.classes)
    (hm : m'.overriders.Perm m.overriders) (h : install pl false p gen = .ok (rep, img)) (h' : install pl' false p' gen' = .ok (rep', img'))
    (hc : CallTo p gen img m args xs) (hc' : CallTo p' gen' img' m' args' xs) (hs : m.vp.length = 1 ∨ ∀ x ∈ xs, SingleInheritance p x)
    (types : List TypeId) : callMethod gen' img' m' args' types = callMethod gen img m args types :=
  C07_transitive_partial hv hv' ht hcl hm h h' hc hc'
    (hs.elim (fun h1 => transitiveAt_one hv.acyclic (hv.wf m hc.mem) h1 xs) (transitiveAt_single hv.acyclic)) types

/-! ### Exactness of the condition -/

/-- For the calls where some overrider is undominated, the condition of `C02_settled_partial` is exact: it holds if and only if the documented outcome is obtained
whatever the order of the overriders. -/
theorem C02_exact (hv : p.Valid) (h : install pl false p gen = .ok (rep, img)) (hc : CallTo p gen img m args xs) (hu : ∃ i, Undominated p m xs i)
    (types : List TypeId) :
    Settled p m xs ↔ ∀ p' m' gen' rep' img' args', Reorders p p' → Reordered m m' → install pl false p' gen' = .ok (rep', img') →
      CallTo p' gen' img' m' args' xs → ∃ r, Expected p' m' xs r ∧ Does m' (callMethod gen' img' m' args' types) r := by
  constructor
  · intro hs p' m' gen' rep' img' args' hr hm h' hc'
    rw [call_ref (hr.valid hv) h' hc']
    refine refCall_settled ?_ types
    exact (settled_congr hr.rtti (derives_congr hr.rtti hr.classes)).2 (hs.perm hm.overriders)
  · intro H
    by_contra hs
    obtain ⟨i, hu⟩ := hu
    obtain ⟨o, ho, hA⟩ := hu.1
    -- the only undominated overrider does not dominate all others
    have huniq : ∀ j, Undominated p m xs j → j = i := by
      intro j hj
      by_contra hne
      exact hs (.inr (.inl ⟨j, i, hne, hj, hu⟩))
    have hn : ∃ j, ApplicableAt p m xs j ∧ j ≠ i ∧ ¬ Dominates p m i j := by
      by_contra hn
      refine hs (.inr (.inr ⟨i, hu.1, fun j hj hne => ?_⟩))
      by_contra hd
      exact hn ⟨j, hj, hne, hd⟩
    obtain ⟨p', hr, hm'⟩ := reorders_first hc.mem ho
    have hm := MethodInfo.first_reordered ho
    have hv' := hr.valid hv
    obtain ⟨rep', img', h'⟩ := hr.accepted hv ⟨rep, img, h⟩ pl gen
    obtain ⟨args', hc'⟩ := hr.call hm hm' hc gen img'
    obtain ⟨r, hr1, hr2⟩ := H p' _ gen rep' img' args' hr hm h' hc'
    have hd := derives_congr hr.rtti hr.classes
    have e : callMethod gen img' (m.first i o) args' types = .err (.ambiguousCall (badCallArity types) (badCallTypes types)) := by
      rw [call_ref hv' h' hc', ← refCall_first ho hu hn types]
      exact refCall_congr' hr.rtti hd (applicable_eq hr.rtti hd xs rfl) types
    rw [e] at hr2
    have hamb : r = .ambiguous := by
      cases r with
      | run k => obtain ⟨_, _, h⟩ := hr2; simp at h
      | noOverrider => obtain ⟨_, _, h⟩ := hr2; simp at h
      | ambiguous => rfl
    subst hamb
    refine hr1.2 ⟨0, ?_, fun k hk => ?_⟩
    · rw [undominated_congr hr.rtti hd, undominated_mem (o := o) (by rfl)]
      exact ((undominated_mem ho).1 hu).imp_right fun h o' ho' => h o' (hm.overriders.subset ho')
    · rw [undominated_congr hr.rtti hd] at hk
      by_contra hne
      obtain ⟨o', ho', _⟩ := hk.1
      have hmem : o' ∈ m.overriders.eraseIdx i := by
        obtain ⟨k, rfl⟩ := Nat.exists_eq_succ_of_ne_zero hne
        exact List.mem_of_getElem? ho'
      obtain ⟨j, hj, hj'⟩ := List.mem_eraseIdx_iff_getElem?.1 hmem
      exact hj (huniq j ((undominated_mem hj').2 (((undominated_mem ho').1 hk).imp_right fun h o'' ho'' => h o'' (hm.overriders.symm.subset ho''))))

/-! ## C42: unspecified orders of the standard library -/

/-- C42 in full. -/
def C42 : Prop :=
  ∀ (pl pl' : Platform) (p : Program) (gen gen' : Nat) (rep rep' : Report) (img img' : Image) (m : MethodInfo)
    (args args' : List (Res Ptr)) (xs : List Cls) (types : List TypeId), p.Valid →
    install pl false p gen = .ok (rep, img) → install pl' false p gen' = .ok (rep', img') →
    AnyCall p gen img m args xs → AnyCall p gen' img' m args' xs →
    callMethod gen' img' m args' types = callMethod gen img m args types

/-- C42 does not hold: in `late`, which overrider is wrongly called depends on how `std::sort` orders equivalent elements. -/
theorem C42_refuted : ¬ C42 := by
  intro h
  obtain ⟨rep, img, args, hv, hi, hc, hr⟩ := runN_any (pl := .std) (n := false) (p := late) (m := f5) (xs := [5]) (r := .ok 20)
    (by decide +kernel) (by decide +kernel) (by decide +kernel)
  obtain ⟨rep', img', args', _, hi', hc', hr'⟩ := runN_any (pl := revPlatform) (n := false) (p := late) (m := f5) (xs := [5]) (r := .ok 30)
    (by decide +kernel) (by decide +kernel) (by decide +kernel)
  have := h _ _ _ _ _ _ _ _ _ f5 _ _ _ [] hv hi hi' hc hc'
  rw [hr, hr'] at this
  simp at this

/-- C42 when the order of registration is supported. -/
theorem C42_partial (hv : p.Valid) (h : install pl false p gen = .ok (rep, img)) (h' : install pl' false p gen' = .ok (rep', img'))
    (hc : CallTo p gen img m args xs) (hc' : CallTo p gen' img' m args' xs) (types : List TypeId) :
    callMethod gen' img' m args' types = callMethod gen img m args types := by
  rw [call_ref hv h hc, call_ref hv h' hc']

/-! ## C46: abstract classes -/

/-- C46: which classes are abstract has no effect on `initialize`: neither on the report, nor on any word of the dispatch
data, nor on the v-table pointers, nor on errors. -/
theorem C46 (pl : Platform) (n : Bool) (p : Program) {cs : List ClassInfo} (h : List.Forall₂ SameButAbstract p.classes cs) (gen : Nat) :
    install pl n { p with classes := cs } gen = install pl n p gen := install_abs pl n p h gen

/-! ## C47: registering a class again -/

/-- C47 in full. -/
def C47 : Prop :=
  ∀ (pl pl' : Platform) (p p' : Program) (gen gen' : Nat), p.Valid → p'.Valid → Repeats p p' →
    (∀ a b, Derives p' a b ↔ Derives p a b) ∧
    ((∃ t, install pl' false p' gen' = .err (.missingClass t)) ↔ ∃ t, install pl false p gen = .err (.missingClass t)) ∧
    ((∃ b d, install pl' false p' gen' = .err (.missingBase b d)) ↔ ∃ b d, install pl false p gen = .err (.missingBase b d)) ∧
    ∀ (rep rep' : Report) (img img' : Image) (m : MethodInfo) (args args' : List (Res Ptr)) (xs : List Cls) (types : List TypeId),
      install pl false p gen = .ok (rep, img) → install pl' false p' gen' = .ok (rep', img') →
      AnyCall p gen img m args xs → AnyCall p' gen' img' m args' xs →
      callMethod gen' img' m args' types = callMethod gen img m args types

/-- C47 does not hold: registering class 5 again repairs `late`. -/
theorem C47_refuted : ¬ C47 := by
  intro h
  obtain ⟨rep, img, args, hv, hi, hc, hr⟩ := run_any (p := late) (m := f5) (xs := [5]) (r := .ok 20) (by decide +kernel)
    (by decide +kernel) (by decide +kernel)
  obtain ⟨rep', img', args', hv', hi', hc', hr'⟩ := run_any (p := lateAgain) (m := f5) (xs := [5]) (r := .ok 50) (by decide +kernel)
    (by decide +kernel) (by decide +kernel)
  have := (h .std .std _ _ 0 0 hv hv' ⟨rfl, rfl, lateBases, [], cls 5 [4], cls 5 [4], by simp [late, prog], rfl, by simp [late, prog, lateBases], rfl, rfl⟩).2.2.2
    _ _ _ _ f5 _ _ _ [] hi hi' hc hc'
  rw [hr, hr'] at this
  simp at this

/-- C47 when both orders of registration are supported. The parts about inheritance and errors do not need it. -/
theorem C47_partial (hv : p.Valid) (hv' : p'.Valid) (hr : Repeats p p') (pl pl' : Platform) (gen gen' : Nat) :
    (∀ a b, Derives p' a b ↔ Derives p a b) ∧
    ((∃ t, install pl' false p' gen' = .err (.missingClass t)) ↔ ∃ t, install pl false p gen = .err (.missingClass t)) ∧
    ((∃ b d, install pl' false p' gen' = .err (.missingBase b d)) ↔ ∃ b d, install pl false p gen = .err (.missingBase b d)) ∧
    ∀ (rep rep' : Report) (img img' : Image) (m : MethodInfo) (args args' : List (Res Ptr)) (xs : List Cls) (types : List TypeId),
      install pl false p gen = .ok (rep, img) → install pl' false p' gen' = .ok (rep', img') →
      CallTo p gen img m args xs → CallTo p' gen' img' m args' xs →
      callMethod gen' img' m args' types = callMethod gen img m args types := by
  have he := C06_errors hv hv' hr.same pl pl' gen gen'
  exact ⟨hr.same.derives, he.1, he.2.1, fun rep rep' img img' m args args' xs types h h' hc hc' =>
    C06_partial hv hv' hr.same h h' hc hc' types⟩

/-! ## C48: one more overrider -/

/-- C48 in full: an overrider is added to one method; calls to this method with other arguments, and calls to other methods, do
the same. -/
def C48 : Prop :=
  ∀ (pl pl' : Platform) (p p' : Program) (gen gen' : Nat) (rep rep' : Report) (img img' : Image) (m m' f f' : MethodInfo) (o : OverriderInfo)
    (ms ms' : List MethodInfo) (args args' : List (Res Ptr)) (xs : List Cls) (types : List TypeId), p.Valid → p'.Valid →
    p'.rtti = p.rtti → p'.classes = p.classes → Extended m m' o → p.methods = ms ++ m :: ms' → p'.methods = ms ++ m' :: ms' →
    install pl false p gen = .ok (rep, img) → install pl' false p' gen' = .ok (rep', img') →
    (f = m ∧ f' = m' ∧ ¬ Applicable p o xs ∨ f = f' ∧ f ∈ ms ++ ms') →
    AnyCall p gen img f args xs → AnyCall p' gen' img' f' args' xs →
    callMethod gen' img' f' args' types = callMethod gen img f args types

/-- C48 does not hold: in `late`, calling `f5` runs whatever overrider of `f2` is selected for class 5. -/
theorem C48_refuted : ¬ C48 := by
  intro h
  obtain ⟨rep, img, args, hv, hi, hc, hr⟩ := run_any (p := late) (m := f5) (xs := [5]) (r := .ok 20) (by decide +kernel)
    (by decide +kernel) (by decide +kernel)
  obtain ⟨rep', img', args', hv', hi', hc', hr'⟩ := run_any (p := lateMore) (m := f5) (xs := [5]) (r := .ok 25) (by decide +kernel)
    (by decide +kernel) (by decide +kernel)
  have := h _ _ _ _ _ _ _ _ _ _ f2 f2more f5 f5 (ov [5] 25) [f5] [f3] _ _ _ [] hv hv' rfl rfl
    ⟨rfl, rfl, rfl, rfl, [ov [2] 20], [], rfl, rfl⟩ rfl rfl hi hi' (.inr ⟨rfl, by simp⟩) hc hc'
  rw [hr, hr'] at this
  simp at this

/-- C48 when the order of registration is supported, whatever the inheritance graph. -/
theorem C48_partial {f f' : MethodInfo} {o : OverriderInfo} (hv : p.Valid) (hv' : p'.Valid) (ht : p'.rtti = p.rtti)
    (hcl : p'.classes = p.classes) (he : Extended m m' o) (h : install pl false p gen = .ok (rep, img))
    (h' : install pl' false p' gen' = .ok (rep', img')) (hf : f = m ∧ f' = m' ∧ ¬ Applicable p o xs ∨ f = f')
    (hc : CallTo p gen img f args xs) (hc' : CallTo p' gen' img' f' args' xs) (types : List TypeId) :
    callMethod gen' img' f' args' types = callMethod gen img f args types := by
  have hd := derives_congr ht hcl
  rw [call_ref hv h hc, call_ref hv' h' hc']
  refine refCall_congr' ht hd ?_ types
  rcases hf with ⟨rfl, rfl, hna⟩ | rfl
  · obtain ⟨pre, post, e1, e2⟩ := he.overriders
    have : applicable p' f' xs = applicable p f' xs := applicable_eq ht hd xs rfl
    rw [this]
    unfold applicable
    rw [e1, e2, List.filter_append, List.filter_append, List.filter_cons_of_neg (by simpa using hna)]
  · exact applicable_eq ht hd xs rfl

/-! ## The hypotheses can be met

Two bulldogs meet, in the zoo registered as a whole and in variants of it. -/

/-- C06: `zooPieces` registers the classes of the zoo in pieces. -/
example : ∃ rep rep' img img' args args', zoo.Valid ∧ zooPieces.Valid ∧ SameInheritance zoo zooPieces ∧
    install .std false zoo 0 = .ok (rep, img) ∧ install .std false zooPieces 0 = .ok (rep', img') ∧
    CallTo zoo 0 img meet args [4, 4] ∧ CallTo zooPieces 0 img' meet args' [4, 4] ∧ zoo.classes ≠ zooPieces.classes ∧
    callMethod 0 img' meet args' [] = .ok 22 := by
  obtain ⟨rep, img, args, hv, hi, hc, _⟩ := run_call (p := zoo) (m := meet) (xs := [4, 4]) (r := .ok 22) (by decide +kernel)
    (by decide +kernel) (by decide +kernel)
  obtain ⟨rep', img', args', hv', hi', hc', hr'⟩ := run_call (p := zooPieces) (m := meet) (xs := [4, 4]) (r := .ok 22)
    (by decide +kernel) (by decide +kernel) (by decide +kernel)
  exact ⟨rep, rep', img, img', args, args', hv, hv', Check.sameInheritance rfl rfl (by decide +kernel), hi, hi', hc, hc',
    by decide +kernel, hr'⟩

/-- C07: the overriders of `meet` in the reverse order. -/
example : ∃ rep rep' img img' args args', zoo.Valid ∧ zooRev.Valid ∧ zooRev.classes = zoo.classes ∧
    meetRev.overriders.Perm meet.overriders ∧ meetRev ≠ meet ∧
    install .std false zoo 0 = .ok (rep, img) ∧ install .std false zooRev 0 = .ok (rep', img') ∧
    CallTo zoo 0 img meet args [4, 4] ∧ CallTo zooRev 0 img' meetRev args' [4, 4] ∧ (∀ x ∈ [4, 4], SingleInheritance zoo x) ∧
    callMethod 0 img' meetRev args' [] = .ok 22 := by
  obtain ⟨rep, img, args, hv, hi, hc, _⟩ := run_call (p := zoo) (m := meet) (xs := [4, 4]) (r := .ok 22) (by decide +kernel)
    (by decide +kernel) (by decide +kernel)
  obtain ⟨rep', img', args', hv', hi', hc', hr'⟩ := run_call (p := zooRev) (m := meetRev) (xs := [4, 4]) (r := .ok 22)
    (by decide +kernel) (by decide +kernel) (by decide +kernel)
  refine ⟨rep, rep', img, img', args, args', hv, hv', rfl, List.reverse_perm _, by decide +kernel, hi, hi', hc, hc', ?_, hr'⟩
  have hr : Check.ranked zoo = true := Check.validB_ranked (by decide +kernel)
  intro x hx a b ha hb
  rw [← Check.mem_anc hr] at ha hb ⊢
  rw [← Check.mem_anc hr]
  obtain rfl : x = 4 := by simpa using hx
  have : ∀ a ∈ Check.anc zoo 4, ∀ b ∈ Check.anc zoo 4, b ∈ Check.anc zoo a ∨ a ∈ Check.anc zoo b := by decide +kernel
  exact this a ha b hb

/-- C42: two platforms. -/
example : ∃ rep rep' img img' args args', zoo.Valid ∧ install .std false zoo 0 = .ok (rep, img) ∧
    install revPlatform false zoo 0 = .ok (rep', img') ∧ CallTo zoo 0 img meet args [4, 4] ∧ CallTo zoo 0 img' meet args' [4, 4] ∧
    callMethod 0 img' meet args' [] = .ok 22 := by
  obtain ⟨rep, img, args, hv, hi, hc, _⟩ := run_call (p := zoo) (m := meet) (xs := [4, 4]) (r := .ok 22) (by decide +kernel)
    (by decide +kernel) (by decide +kernel)
  obtain ⟨rep', img', args', _, hi', hc', hr'⟩ := runN_call (pl := revPlatform) (n := false) (p := zoo) (m := meet) (xs := [4, 4])
    (r := .ok 22) (by decide +kernel) (by decide +kernel) (by decide +kernel)
  exact ⟨rep, rep', img, img', args, args', hv, hi, hi', hc, hc', hr'⟩

/-- C46: abstract animals. -/
example : List.Forall₂ SameButAbstract zoo.classes zooAbstract.classes ∧ zooAbstract.classes ≠ zoo.classes ∧
    isOk (install .std false zooAbstract 0) = true := by
  refine ⟨?_, by decide +kernel, by decide +kernel⟩
  simp [zoo, zooAbstract, prog, SameButAbstract, cls]

/-- C47: bulldogs are registered twice. -/
example : Repeats zoo { zoo with classes := cls 4 [2, 1] :: zoo.classes } ∧
    isOk (install .std false { zoo with classes := cls 4 [2, 1] :: zoo.classes } 0) = true :=
  ⟨⟨rfl, rfl, [], zoo.classes, cls 4 [2, 1], cls 4 [2, 1], rfl, rfl, by decide +kernel, rfl, rfl⟩, by decide +kernel⟩

/-- C48: a new overrider for two bulldogs does not influence a dog and a bulldog. -/
example : ∃ rep rep' img img' args args', zoo.Valid ∧ zooMore.Valid ∧ Extended meet meetMore (ov [4, 4] 44) ∧
    install .std false zoo 0 = .ok (rep, img) ∧ install .std false zooMore 0 = .ok (rep', img') ∧
    ¬ Applicable zoo (ov [4, 4] 44) [2, 4] ∧ CallTo zoo 0 img meet args [2, 4] ∧ CallTo zooMore 0 img' meetMore args' [2, 4] ∧
    callMethod 0 img' meetMore args' [] = .ok 22 := by
  obtain ⟨rep, img, args, hv, hi, hc, _⟩ := run_call (p := zoo) (m := meet) (xs := [2, 4]) (r := .ok 22) (by decide +kernel)
    (by decide +kernel) (by decide +kernel)
  obtain ⟨rep', img', args', hv', hi', hc', hr'⟩ := run_call (p := zooMore) (m := meetMore) (xs := [2, 4]) (r := .ok 22)
    (by decide +kernel) (by decide +kernel) (by decide +kernel)
  refine ⟨rep, rep', img, img', args, args', hv, hv', ⟨rfl, rfl, rfl, rfl, [], meet.overriders, rfl, rfl⟩, hi, hi', ?_, hc, hc', hr'⟩
  have hr : Check.ranked zoo = true := Check.validB_ranked (by decide +kernel)
  unfold Applicable
  rw [← Check.accepts hr]
  decide +kernel

/-- With the new overrider, two bulldogs meet in another way. -/
example : run zooMore meetMore [4, 4] = some (.ok 44) := by decide +kernel

end OpenMethod.Props

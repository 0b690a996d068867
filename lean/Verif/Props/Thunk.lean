import Verif.Proof.Thunk
import Verif.Props.VirtualPtr

/-! # C56: arguments reach the overriders -/

namespace OpenMethod.Props

open Spec Examples

variable {E : Env} {H : Hier} {p : Program} {s s' : RegState} {rep : Report} {m : MethodInfo} {args as : List Passed} {xs : List Cls} {types : List TypeId}
  {o : OverriderInfo}

/-- C56 in full: a call with objects of registered classes is reported as an error, or enters an overrider of the method that accepts the classes of the
objects; it receives the same objects, as references or pointers to its own parameter classes; no cast fails or has undefined behaviour. So do the
overriders reached by `next`. -/
def C56 : Prop :=
  ∀ (E : Env) (H : Hier) (p : Program) (s s' : RegState) (rep : Report) (m : MethodInfo) (args : List Passed) (xs : List Cls) (types : List TypeId),
    p.Good E.cfg → p.Distinct → Initializes E p s s' rep → H.Describes p → m ∈ p.methods →
    PassedFor H p s' (classesOf p m.vp) m.params args xs → Accepts p (classesOf p m.vp) xs →
    Delivers H p s' m args xs (callThunk E.cfg H p.rtti s' m args types) ∧
    ∀ o as, Runs E.cfg H p.rtti s' m args types o as → ∀ r, callNext H p.rtti s' m o as types = some r → Delivers H p s' m args xs r

section

variable (hp : p.Good E.cfg) (hD : p.Distinct) (h : Initializes E p s s' rep) (hH : H.Describes p) (hm : m ∈ p.methods)
  (ha : PassedFor H p s' (classesOf p m.vp) m.params args xs) (hacc : Accepts p (classesOf p m.vp) xs) (hord : ArgsSafe p (classesOf p m.vp) xs)
  (hcont : m.vp.length = 1 ∨ Contiguous m.params) (hr : ∀ x ∈ xs, H.NoRepeat x)

include hp hD h hH hm ha hacc hord hcont hr

/-- C56 for calls, when there is no repeated inheritance and when slots and arguments are read correctly. -/
theorem C56_partial (types : List TypeId) : Delivers H p s' m args xs (callThunk E.cfg H p.rtti s' m args types) := by
  obtain ⟨c, img, R, _⟩ := init_ready hp h
  obtain ⟨bs, e1, e2⟩ := R.passed ha
  have hc : CallTo p s.fresh img m (bs.map (argPtr E.cfg s')) xs := ⟨hm, e2, ⟨hacc, ha.registered⟩, hord, hcont⟩
  unfold callThunk
  rw [e1, Res.ok_bind, R.call hm]
  rcases call_enters hp.valid R.install hc types with ⟨a, ts, e | e⟩ | ⟨o, ho, hA, e⟩
  · rw [e]; exact .inl ⟨a, ts, .inl rfl⟩
  · rw [e]; exact .inl ⟨a, ts, .inr rfl⟩
  · rw [e, Res.ok_bind, enterThunk_eq hD hm ho]
    obtain ⟨as', h1, h2, h3⟩ := ha.thunk hH hr hA
    exact .inr ⟨o, ho, as', h1, hA, h2, h3⟩

/-- What holds in all overriders entered by a call and by `next`. -/
theorem runs_inv (hn : E.n2216 = false) (hpl : Covered p m) (hrun : Runs E.cfg H p.rtti s' m args types o as) :
    o ∈ m.overriders ∧ Applicable p o xs ∧ PassedFor H p s' (classesOf p o.vp) m.params as xs ∧ List.Forall₂ SamePassed args as ∧
    ∃ f, s'.next o.next = some f ∧ (f = .notImplemented m.id ∨ f = .ambiguous m.id ∨ ∃ o' ∈ m.overriders, f = .user o'.pf ∧ Applicable p o' xs) := by
  obtain ⟨c, img, R, _⟩ := init_ready hp h
  have hi := R.install
  rw [hn] at hi
  have key : ∀ o ∈ m.overriders, Applicable p o xs → nextAt img o.next ≠ none →
      ∃ f, s'.next o.next = some f ∧ (f = .notImplemented m.id ∨ f = .ambiguous m.id ∨
        ∃ o' ∈ m.overriders, f = .user o'.pf ∧ Applicable p o' xs ∧ nextAt img o'.next ≠ none) := by
    intro o ho hA hset
    have hs := init_next h R.compiled R.written o.next
    rcases next_step hp.valid hD hi hm hpl ho hset with e | e | ⟨o', ho', e, hw, hset'⟩
    · exact ⟨_, by rw [hs, e]; rfl, .inl rfl⟩
    · exact ⟨_, by rw [hs, e]; rfl, .inr (.inl rfl)⟩
    · exact ⟨_, by rw [hs, e]; rfl, .inr (.inr ⟨o', ho', rfl, Accepts.trans' hw.1 hA, hset'⟩)⟩
  have inv : o ∈ m.overriders ∧ Applicable p o xs ∧ PassedFor H p s' (classesOf p o.vp) m.params as xs ∧ List.Forall₂ SamePassed args as ∧
      nextAt img o.next ≠ none := by
    induction hrun with
    | @call o as hc =>
      have hdel := C56_partial hp hD h hH hm ha hacc hord hcont hr types
      rcases hdel with ⟨a, ts, e | e⟩ | ⟨o1, ho, as', e, hA, h2, h3⟩
      · rw [hc] at e; cases e
      · rw [hc] at e; cases e
      · rw [hc] at e
        simp only [Res.ok.injEq, Entered.entered.injEq] at e
        obtain ⟨rfl, rfl⟩ := e
        refine ⟨ho, hA, h2, h3, ?_⟩
        unfold callThunk at hc
        obtain ⟨bs, _, hc⟩ := Res.bind_eq_ok.1 hc
        obtain ⟨k, hk, hc⟩ := Res.bind_eq_ok.1 hc
        rw [R.call hm] at hk
        have hko : k = o.pf := by
          unfold enterThunk at hc
          split at hc
          · rename_i o2 hf
            have hf2 : o2.pf = k := by simpa using List.find?_some hf
            unfold thunk at hc
            obtain ⟨q, _, hc⟩ := Res.bind_eq_ok.1 hc
            split at hc
            · simp only [Res.ok.injEq, Entered.entered.injEq] at hc
              rw [← hc.1]; exact hf2.symm
            · simp at hc
          · cases hc
        subst hko
        obtain ⟨m1, hm1, o1, ho1, hpf, f, hf, _⟩ := next_entered hp.valid hD R.install hk
        obtain ⟨j, hj⟩ := List.getElem?_of_mem ho
        obtain ⟨j1, hj1⟩ := List.getElem?_of_mem ho1
        obtain ⟨rfl, _, rfl⟩ := hD.index hm1 hm hj1 hj hpf
        rw [hf]; simp
    | @next o as o' as' _ hc ih =>
      obtain ⟨ho, hA, h2, h3, hset⟩ := ih
      obtain ⟨f, hf, hk⟩ := key o ho hA hset
      simp only [callNext, Option.bind_eq_bind, Option.bind_eq_some_iff, Option.some.injEq] at hc
      obtain ⟨bs, hbs, hc⟩ := hc
      obtain ⟨h4, h5⟩ := h2.convert hH hbs
      rw [hf, Res.ofOption_some, Res.ok_bind] at hc
      rcases hk with rfl | rfl | ⟨o1, ho1, rfl, hA1, hset1⟩
      · simp [enter] at hc
      · simp [enter] at hc
      · rw [show enter (.user o1.pf) types = .ok o1.pf from rfl, Res.ok_bind, enterThunk_eq hD hm ho1] at hc
        obtain ⟨as1, e1, e2, e3⟩ := PassedFor.thunk hH h4 hr hA1
        rw [e1] at hc
        simp only [Res.ok.injEq, Entered.entered.injEq] at hc
        obtain ⟨rfl, rfl⟩ := hc
        exact ⟨ho1, hA1, e2, samePassed_trans h3 (samePassed_trans h5 e3), hset1⟩
  obtain ⟨ho, hA, h2, h3, hset⟩ := inv
  obtain ⟨f, hf, hk⟩ := key o ho hA hset
  refine ⟨ho, hA, h2, h3, f, hf, hk.imp_right (Or.imp_right ?_)⟩
  rintro ⟨o', ho', e, hA', _⟩
  exact ⟨o', ho', e, hA'⟩

/-- C56 for `next`, in the same conditions and those of C14: any number of uses of `next`, each overrider passing the arguments that it received. -/
theorem C56_next_partial (hn : E.n2216 = false) (hpl : Covered p m) (hrun : Runs E.cfg H p.rtti s' m args types o as) {r : Res Entered}
    (hc : callNext H p.rtti s' m o as types = some r) : Delivers H p s' m args xs r := by
  obtain ⟨_, _, h2, h3, f, hf, hk⟩ := runs_inv hp hD h hH hm ha hacc hord hcont hr hn hpl hrun
  simp only [callNext, Option.bind_eq_bind, Option.bind_eq_some_iff, Option.some.injEq] at hc
  obtain ⟨bs, hbs, rfl⟩ := hc
  obtain ⟨h4, h5⟩ := h2.convert hH hbs
  rw [hf, Res.ofOption_some, Res.ok_bind]
  rcases hk with rfl | rfl | ⟨o', ho', rfl, hA'⟩
  · exact .inl ⟨_, _, .inl rfl⟩
  · exact .inl ⟨_, _, .inr rfl⟩
  · rw [show enter (.user o'.pf) types = .ok o'.pf from rfl, Res.ok_bind, enterThunk_eq hD hm ho']
    obtain ⟨as', e1, e2, e3⟩ := PassedFor.thunk hH h4 hr hA'
    exact .inr ⟨o', ho', as', e1, hA', e2, samePassed_trans h3 (samePassed_trans h5 e3)⟩

end

/-- The hypothesis about arguments, for `virtual_ptr`s obtained from objects as in C34. -/
theorem refers_chain (hp : p.Good E.cfg) (h1 : OneVar p) (h : Initializes E p s s' rep) {q : Obj} (hq : p.HasId q.type) {w : VirtualPtr}
    (hw : Chain E.cfg p s' q w) (pass : Pass) {σ : Path} (hσ : H.Subobject (p.rtti.ti q.type) σ) {b : Cls} (hb : Hier.OfClass σ b) :
    ∃ v, w = { vp := .boxed v, obj := .to q } ∧ Refers H p s' b ⟨pass, some v, some ⟨q, σ⟩⟩ (p.rtti.ti q.type) := by
  obtain ⟨c, img, R, _⟩ := init_ready hp h
  have hD := chain_designates R.ptr h1 hq hw
  obtain ⟨v, _, rfl, _⟩ := id hD
  refine ⟨v, rfl, _, rfl, hq, rfl, hσ, hb, fun v' hv' => ?_⟩
  obtain rfl := Option.some.inj hv'
  exact hD

/-! ## Concrete calls -/

def wfB : Hier → Bool
  | [] => true
  | (c, bs) :: H => wfB H && !H.any (·.1 == c) && bs.all fun b => H.any (·.1 == b.1)

theorem defined_iff (H : Hier) (c : Cls) : H.any (·.1 == c) = true ↔ H.Defined c := by
  unfold Hier.Defined
  simp only [List.any_eq_true, beq_iff_eq, Prod.exists]
  constructor
  · rintro ⟨c', bs, h, rfl⟩; exact ⟨bs, h⟩
  · rintro ⟨bs, h⟩; exact ⟨c, bs, h, rfl⟩

theorem wf_of (h : wfB H = true) : H.WF := by
  induction H with
  | nil => trivial
  | cons e H ih =>
    obtain ⟨c, bs⟩ := e
    simp only [wfB, Bool.and_eq_true, Bool.not_eq_true', List.all_eq_true, defined_iff] at h
    refine ⟨ih h.1.1, ?_, h.2⟩
    rw [← defined_iff, h.1.2]; simp

def describesB (H : Hier) (p : Program) : Bool :=
  wfB H && p.classes.all fun cr => H.any (·.1 == p.rtti.ti cr.type) && cr.bases.all fun t => (H.only (p.rtti.ti cr.type) (p.rtti.ti t)).isSome

theorem describes (h : describesB H p = true) : H.Describes p := by
  simp only [describesB, Bool.and_eq_true, List.all_eq_true, defined_iff] at h
  have hw := wf_of h.1
  refine ⟨hw, fun cr hcr => (h.2 cr hcr).1, fun cr hcr t ht => ?_⟩
  obtain ⟨σ, hσ⟩ := Option.isSome_iff_exists.1 ((h.2 cr hcr).2 t ht)
  exact ⟨σ, (Hier.only_eq_some hw).1 hσ⟩

theorem noRepeat (hw : H.WF) {x : Cls} (h : ((H.subs x).all fun σ => (H.subs x).all fun τ => σ.getLast? != τ.getLast? || σ == τ) = true) :
    H.NoRepeat x := by
  intro b σ τ h1 h2 h3 h4
  simp only [List.all_eq_true] at h
  have := h σ ((Hier.mem_subs hw).2 h1) τ ((Hier.mem_subs hw).2 h2)
  rw [show σ.getLast? = some b from h3, show τ.getLast? = some b from h4] at this
  simpa using this

/-- An argument for a `virtual_` parameter: subobject `σ` of an object of the class with type id `t`. -/
def refArg (pass : Pass) (t : TypeId) (σ : Path) : VArg := ⟨pass, none, some ⟨⟨7, t⟩, σ⟩⟩

theorem refers (hw : H.WF) {b : Cls} {t : TypeId} {σ : Path} (pass : Pass) (ht : p.HasId t) (h : σ ∈ H.occ (p.rtti.ti t) b) :
    Refers H p s b (refArg pass t σ) (p.rtti.ti t) := by
  obtain ⟨h1, h2⟩ := (Hier.mem_occ hw).1 h
  exact ⟨_, rfl, ht, rfl, h1, h2, fun v hv => by cases hv⟩

/-- A call after `initialize`, until an overrider is entered. -/
def thunkAfter (E : Env) (H : Hier) (p : Program) (m : MethodInfo) (args : List Passed) : Option (Res Entered) :=
  (initOf E p .init).map fun x => callThunk E.cfg H p.rtti x.1 m args []

theorem thunkAfter_eq {r : Res Entered} (h : thunkAfter E H p m args = some r) :
    ∃ s rep, Initializes E p .init s rep ∧ callThunk E.cfg H p.rtti s m args [] = r := by
  unfold thunkAfter at h
  obtain ⟨⟨s, rep⟩, h1, h2⟩ := Option.map_eq_some_iff.1 h
  exact ⟨s, rep, initOf_eq h1, h2⟩

/-- Class 1 is a virtual base of classes 2 and 3, which are bases of class 4; class 5 derives from 4. -/
def vdiamond : Hier := [(5, [(4, false)]), (4, [(2, false), (3, false)]), (3, [(1, true)]), (2, [(1, true)]), (1, [])]

def visit : MethodInfo := meth 0 [false, true, true] [1, 1] [ov [2, 4] 10, ov [1, 1] 11]

def diamondProg : Program := prog [cls 1 [], cls 2 [1], cls 3 [1], cls 4 [1, 2, 3], cls 5 [1, 2, 3, 4]] [visit]

/-- A reference and a pointer to the virtual base of objects of classes 5 and 4. -/
def diamondArgs : List Passed := [.other 3, .virt (refArg .ref 5 [1]), .virt (refArg .pointer 4 [1])]

/-- The overrider for classes 2 and 4 gets the 2 in the object of class 5, and the object of class 4. -/
example : thunkAfter (env hashed) vdiamond diamondProg visit diamondArgs =
    some (.ok (.entered (ov [2, 4] 10) [.other 3, .virt (refArg .ref 5 [5, 4, 2]), .virt (refArg .pointer 4 [4])])) := by decide +kernel

/-- C56_partial applies to it. -/
example : ∃ s rep, Initializes (env hashed) diamondProg .init s rep ∧
    Delivers vdiamond diamondProg s visit diamondArgs [5, 4] (callThunk hashed vdiamond rt s visit diamondArgs []) := by
  obtain ⟨s, rep, h, _⟩ := thunkAfter_eq (E := env hashed) (H := vdiamond) (p := diamondProg) (m := visit) (args := diamondArgs)
    (r := .ok (.entered (ov [2, 4] 10) [.other 3, .virt (refArg .ref 5 [5, 4, 2]), .virt (refArg .pointer 4 [4])])) (by decide +kernel)
  have hw : vdiamond.WF := wf_of (by decide)
  obtain ⟨_, _, _, _, _, hc, _⟩ := run_call (p := diamondProg) (m := visit) (xs := [5, 4]) (r := .ok 10) (by decide +kernel) (by decide +kernel)
    (by decide +kernel)
  refine ⟨s, rep, h, C56_partial (E := env hashed) (good (by decide +kernel)) ⟨by decide, by decide⟩ h (describes (by decide +kernel)) (by decide)
    (.other _ (.virt (refers hw .ref ⟨cls 5 [1, 2, 3, 4], by decide, rfl⟩ (by decide +kernel))
      (.virt (refers hw .pointer ⟨cls 4 [1, 2, 3], by decide, rfl⟩ (by decide +kernel)) .nil)))
    hc.callable.1 hc.order hc.contiguous ?_ []⟩
  intro x hx
  rcases List.mem_cons.1 hx with rfl | hx
  · exact noRepeat hw (by decide +kernel)
  · obtain rfl := List.mem_singleton.1 hx
    exact noRepeat hw (by decide +kernel)

/-- The overrider entered by a call calls `next`. -/
def nextAfter (E : Env) (H : Hier) (p : Program) (m : MethodInfo) (args : List Passed) : Option (Res Entered) :=
  match initOf E p .init with
  | some (s, _) =>
    match callThunk E.cfg H p.rtti s m args [] with
    | .ok (.entered o as) => callNext H p.rtti s m o as []
    | _ => none
  | none => none

theorem nextAfter_eq {r : Res Entered} (h : nextAfter E H p m args = some r) :
    ∃ s rep o as, Initializes E p .init s rep ∧ Runs E.cfg H p.rtti s m args [] o as ∧ callNext H p.rtti s m o as [] = some r := by
  unfold nextAfter at h
  split at h
  · rename_i s rep hi
    split at h
    · rename_i o as hc
      exact ⟨s, rep, o, as, initOf_eq hi, .call hc, h⟩
    · cases h
  · cases h

def greet : MethodInfo := meth 0 [true] [1] [ov [2] 10, ov [4] 11]

def greetProg : Program := prog [cls 1 [], cls 2 [1], cls 3 [1], cls 4 [1, 2, 3], cls 5 [1, 2, 3, 4]] [greet]

/-- A reference to the virtual base is cast to class 4, converted back for `next`, and cast to class 2. -/
theorem greet_next : thunkAfter (env hashed) vdiamond greetProg greet [.virt (refArg .ref 5 [1])] =
      some (.ok (.entered (ov [4] 11) [.virt (refArg .ref 5 [5, 4])])) ∧
    nextAfter (env hashed) vdiamond greetProg greet [.virt (refArg .ref 5 [1])] =
      some (.ok (.entered (ov [2] 10) [.virt (refArg .ref 5 [5, 4, 2])])) := by
  constructor <;> decide +kernel

/-- C56_next_partial applies to it. -/
example : ∃ s o as r, Runs hashed vdiamond rt s greet [.virt (refArg .ref 5 [1])] [] o as ∧ callNext vdiamond rt s greet o as [] = some r ∧
    Delivers vdiamond greetProg s greet [.virt (refArg .ref 5 [1])] [5] r := by
  obtain ⟨s, rep, o, as, hi, hr, hn⟩ := nextAfter_eq greet_next.2
  have hw : vdiamond.WF := wf_of (by decide)
  obtain ⟨_, _, _, _, _, hc, _⟩ := run_call (p := greetProg) (m := greet) (xs := [5]) (r := .ok 11) (by decide +kernel) (by decide +kernel)
    (by decide +kernel)
  refine ⟨s, o, as, _, hr, hn, C56_next_partial (E := env hashed) (good (by decide +kernel)) ⟨by decide, by decide⟩ hi (describes (by decide +kernel))
    (by decide) (.virt (refers hw .ref ⟨cls 5 [1, 2, 3, 4], by decide, rfl⟩ (by decide +kernel)) .nil) hc.callable.1 hc.order hc.contiguous ?_ rfl
    (PlainMethod.covered (good (by decide +kernel) : greetProg.Good hashed).valid (by decide) (.inl rfl)) hr hn⟩
  intro x hx
  obtain rfl := List.mem_singleton.1 hx
  exact noRepeat hw (by decide +kernel)

/-! ## Repeated inheritance -/

/-- Classes 2 and 3 derive from 1, class 4 from 2 and 3: it contains class 1 twice. -/
def twice : Hier := [(4, [(2, false), (3, false)]), (3, [(1, false)]), (2, [(1, false)]), (1, [])]

def poke2 : MethodInfo := meth 0 [true] [1] [ov [2] 10]

/-- Registered by `use_classes<1, 2, 3>` and `use_classes<2, 3, 4>`, which the compiler accepts. -/
def repeatedProg : Program := prog [cls 1 [], cls 2 [1], cls 3 [1], cls 2 [], cls 3 [], cls 4 [2, 3]] [poke2]

/-- A reference to the 1 in the 3 of an object of class 4. The overrider for class 2 accepts class 4, but `static_cast` has undefined behaviour. -/
theorem repeated_ub : thunkAfter (env hashed) twice repeatedProg poke2 [.virt (refArg .ref 4 [4, 3, 1])] = some .ub := by decide +kernel

/-- Class 1 is a virtual base of 2, from which 3 and 4 derive; class 5 derives from 3 and 4: it contains class 2 twice. -/
def repeatedV : Hier := [(5, [(3, false), (4, false)]), (4, [(2, false)]), (3, [(2, false)]), (2, [(1, true)]), (1, [])]

def repeatedVProg : Program := prog [cls 1 [], cls 2 [1], cls 3 [1, 2], cls 4 [1, 2], cls 3 [], cls 4 [], cls 5 [3, 4]] [poke2]

/-- In this case `dynamic_cast` fails: `std::bad_cast` is thrown, or the overrider gets a null pointer. -/
theorem repeated_fails :
    thunkAfter (env hashed) repeatedV repeatedVProg poke2 [.virt (refArg .ref 5 [1])] = some (.ok .badCast) ∧
    thunkAfter (env hashed) repeatedV repeatedVProg poke2 [.virt (refArg .pointer 5 [1])] =
      some (.ok (.entered (ov [2] 10) [.virt ⟨.pointer, none, none⟩])) := by
  constructor <;> decide +kernel

/-- C56 does not hold with repeated inheritance, although the compiler accepts the program, and even if classes are registered after their bases. -/
theorem C56_refuted : ¬ C56 := by
  intro h
  obtain ⟨s, rep, hi, hr⟩ := thunkAfter_eq repeated_ub
  have hw : twice.WF := wf_of (by decide)
  obtain ⟨hd, _⟩ := h (env hashed) twice repeatedProg .init s rep poke2 [.virt (refArg .ref 4 [4, 3, 1])] [4] [] (good (by decide +kernel))
    ⟨by decide, by decide⟩ hi (describes (by decide +kernel)) (by decide)
    (.virt (refers hw .ref ⟨cls 4 [2, 3], by decide, rfl⟩ (by decide +kernel)) .nil) ((Check.accepts (by decide +kernel)).1 (by decide +kernel))
  have hr' : callThunk (env hashed).cfg twice repeatedProg.rtti s poke2 [.virt (refArg .ref 4 [4, 3, 1])] [] = .ub := hr
  rw [hr'] at hd
  rcases hd with ⟨_, _, e | e⟩ | ⟨_, _, _, e, _⟩ <;> cases e

/-! ## `next` with multiple inheritance -/

/-- Class 1 is a virtual base of 3 and 4. -/
def nextHier : Hier := [(5, [(4, false), (3, false)]), (4, [(1, true)]), (3, [(1, true)]), (2, [(1, false)]), (1, [])]

/-- The program of C13_refuted, called with objects of classes 2 and 3: `next` leads to an overrider that requires a 4. -/
theorem next_badCast : nextHier.Describes nextProg ∧ nextHier.NoRepeat 2 ∧ nextHier.NoRepeat 3 ∧
    nextAfter (env hashed) nextHier nextProg nextPair [.virt (refArg .ref 2 [2, 1]), .virt (refArg .ref 3 [1])] = some (.ok .badCast) :=
  ⟨describes (by decide +kernel), noRepeat (wf_of (by decide)) (by decide +kernel), noRepeat (wf_of (by decide)) (by decide +kernel), by decide +kernel⟩

end OpenMethod.Props

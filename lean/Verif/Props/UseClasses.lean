import Verif.Proof.SafeOrder
import Verif.Proof.UseClasses
import Verif.Props.Thunk
import Verif.Props.Dispatch

/-! # C57, C58: C++ inheritance, `use_classes` and calls -/

namespace OpenMethod

namespace Props

open Spec Examples

variable {E : Env} {H : Hier} {us : List UseClasses} {p : Program} {s s' : RegState} {rep : Report} {m : MethodInfo} {args : List Passed} {xs : List Cls}

/-- C57: in the documented conditions, the inheritance that the library knows is that of the C++ classes, whatever the order of registration, and however the
classes are divided among `use_classes`. -/
theorem C57 (h : Registers H us p) (hd : DirectTogether H us) :
    H.Describes p ∧ Acyclic p ∧ (∀ c, Registered p c ↔ Named us c) ∧ ∀ c b, Named us c → (Derives p c b ↔ H.Inherits c b) := by
  refine ⟨h.describes, h.acyclic, fun _ => h.registered, fun c b hc => ⟨h.sound, fun hi => ?_⟩⟩
  have : Derives p c b ∧ Named us b := by
    induction hi with
    | refl => exact ⟨.refl, hc⟩
    | @tail d b _ hb ih =>
      obtain ⟨v, hb'⟩ := id hb
      have ht := hd _ _ _ ih.2 hb'
      obtain ⟨u, hu, _, h2⟩ := id ht
      refine ⟨?_, u, hu, h2⟩
      by_cases he : d = b
      · exact he ▸ ih.1
      · exact ih.1.tail (h.declared.2 ⟨⟨ht, .single hb⟩, he⟩)
  exact this.1

/-- Without the documented condition: what the library knows is true, but it may not know everything. -/
theorem C57_sound (h : Registers H us p) {c b : Cls} (hc : Derives p c b) : H.Inherits c b := h.sound hc

/-- When the classes and all their bases are listed together, in particular in a single `use_classes`, the order of registration does not matter. -/
theorem C57_together (h : Registers H us p) (ha : AllTogether H us) {c : Cls} (hc : Named us c) : ListsAncestors p c := by
  rintro b ⟨h1, hne⟩
  have hb : Named us b := by
    cases h1 with
    | refl => exact hc
    | tail _ h2 => obtain ⟨⟨⟨u, hu, _, h3⟩, _⟩, _⟩ := h.declared.1 h2; exact ⟨u, hu, h3⟩
  have hi := h.sound h1
  exact h.declared.2 ⟨⟨ha c b hc hb hi, hi⟩, hne⟩

/-- With a single `use_classes`, everything is in it. -/
theorem allTogether_one (u : UseClasses) : AllTogether H [u] := by
  intro c b ⟨u1, h1, h2⟩ ⟨u2, h3, h4⟩ _
  obtain rfl := List.mem_singleton.1 h1
  obtain rfl := List.mem_singleton.1 h3
  exact ⟨_, List.mem_cons_self, h2, h4⟩

/-- The static assertion: with an ambiguous base in the list, `use_classes` does not compile. -/
theorem C57_rejects (hw : H.WF) {u : UseClasses} (hd : ∀ c ∈ u.classes, H.Defined c) {c b : Cls} (hc : c ∈ u.classes) (hb : b ∈ u.classes)
    (hi : H.Inherits c b) (hu : ¬ H.Unambiguous c b) : u.records H = none := by
  cases hr : u.records H with
  | none => rfl
  | some rs =>
    obtain ⟨cr, _, R⟩ := (mem_records hw hd hr).1 c hc
    exact absurd (R.unambiguous b hb hi) hu

/-! ## The documented rule, on C++ inheritance -/

section

variable {D D' : Cls → Cls → Prop}

theorem applicableBy_congr {o : OverriderInfo} (h : ∀ x ∈ xs, ∀ b, D x b ↔ D' x b) : ApplicableBy D p o xs ↔ ApplicableBy D' p o xs := by
  unfold ApplicableBy
  generalize classesOf p o.vp = qs
  induction xs generalizing qs with
  | nil => cases qs <;> simp
  | cons x xs ih =>
    cases qs with
    | nil => simp
    | cons q qs =>
      rw [List.forall₂_cons, List.forall₂_cons, h x List.mem_cons_self, ih (fun y hy => h y (List.mem_cons_of_mem _ hy))]

theorem moreSpecificBy_congr {a b : OverriderInfo} (ha : ∀ x ∈ classesOf p a.vp, ∀ y, D x y ↔ D' x y)
    (hb : ∀ x ∈ classesOf p b.vp, ∀ y, D x y ↔ D' x y) : MoreSpecificBy D p a b ↔ MoreSpecificBy D' p a b := by
  unfold MoreSpecificBy
  refine and_congr ?_ ?_
  · refine exists_congr fun i => exists_congr fun x => exists_congr fun y => and_congr_right fun h1 => and_congr_right fun h2 => ?_
    rw [ha x (List.mem_of_getElem? h1)]
  · refine forall_congr' fun i => forall_congr' fun x => forall_congr' fun y => imp_congr_right fun h1 => imp_congr_right fun h2 => ?_
    rw [hb y (List.mem_of_getElem? h2)]

theorem expectedBy_congr (hx : ∀ x ∈ xs, ∀ b, D x b ↔ D' x b) (ho : ∀ o ∈ m.overriders, ∀ x ∈ classesOf p o.vp, ∀ y, D x y ↔ D' x y) (r : Outcome) :
    ExpectedBy D p m xs r ↔ ExpectedBy D' p m xs r := by
  have h1 : ∀ i, ApplicableAtBy D p m xs i ↔ ApplicableAtBy D' p m xs i := fun i =>
    exists_congr fun o => and_congr_right fun _ => applicableBy_congr hx
  have h2 : ∀ i j, DominatesBy D p m i j ↔ DominatesBy D' p m i j := fun i j =>
    exists_congr fun a => exists_congr fun b => and_congr_right fun ha => and_congr_right fun hb =>
      moreSpecificBy_congr (ho a (List.mem_of_getElem? ha)) (ho b (List.mem_of_getElem? hb))
  have h3 : ∀ i, UndominatedBy D p m xs i ↔ UndominatedBy D' p m xs i := fun i => by simp only [UndominatedBy, h1, h2]
  cases r <;> simp only [ExpectedBy, h1, h3]

theorem settledBy_congr (hx : ∀ x ∈ xs, ∀ b, D x b ↔ D' x b) (ho : ∀ o ∈ m.overriders, ∀ x ∈ classesOf p o.vp, ∀ y, D x y ↔ D' x y) :
    SettledBy D p m xs ↔ SettledBy D' p m xs := by
  have h1 : ∀ i, ApplicableAtBy D p m xs i ↔ ApplicableAtBy D' p m xs i := fun i =>
    exists_congr fun o => and_congr_right fun _ => applicableBy_congr hx
  have h2 : ∀ i j, DominatesBy D p m i j ↔ DominatesBy D' p m i j := fun i j =>
    exists_congr fun a => exists_congr fun b => and_congr_right fun ha => and_congr_right fun hb =>
      moreSpecificBy_congr (ho a (List.mem_of_getElem? ha)) (ho b (List.mem_of_getElem? hb))
  simp only [SettledBy, SettledOn, h1, h2]

theorem transitiveBy_congr (hx : ∀ x ∈ xs, ∀ b, D x b ↔ D' x b) (ho : ∀ o ∈ m.overriders, ∀ x ∈ classesOf p o.vp, ∀ y, D x y ↔ D' x y) :
    TransitiveBy D p m xs ↔ TransitiveBy D' p m xs := by
  have h1 : ∀ i, ApplicableAtBy D p m xs i ↔ ApplicableAtBy D' p m xs i := fun i =>
    exists_congr fun o => and_congr_right fun _ => applicableBy_congr hx
  have h2 : ∀ i j, DominatesBy D p m i j ↔ DominatesBy D' p m i j := fun i j =>
    exists_congr fun a => exists_congr fun b => and_congr_right fun ha => and_congr_right fun hb =>
      moreSpecificBy_congr (ho a (List.mem_of_getElem? ha)) (ho b (List.mem_of_getElem? hb))
  simp only [TransitiveBy, h1, h2]

/-- With what is registered, it is the rule of `Verif.Spec`. -/
theorem expectedBy_derives (r : Outcome) : ExpectedBy (Derives p) p m xs r ↔ Expected p m xs r := by
  cases r <;> exact Iff.rfl

end

/-- C58 in full: classes are registered as documented, without repeated inheritance; a call with objects of these classes, passed as references, pointers, smart
pointers or `virtual_ptr`s to the classes of the parameters, has the outcome that the documentation promises, for the inheritance of the C++ classes; the
overrider receives the objects, as its own parameter classes. -/
def C58 : Prop :=
  ∀ (E : Env) (H : Hier) (us : List UseClasses) (p : Program) (s s' : RegState) (rep : Report) (m : MethodInfo) (args : List Passed) (xs : List Cls)
    (types : List TypeId), p.Good E.cfg → p.Distinct → E.n2216 = false → Registers H us p → DirectTogether H us → Initializes E p s s' rep →
    m ∈ p.methods → PassedFor H p s' (classesOf p m.vp) m.params args xs → (∀ x ∈ xs, H.NoRepeat x) →
    ∃ r, ExpectedBy H.Inherits p m xs r ∧ Behaves H p s' m args xs (callThunk E.cfg H p.rtti s' m args types) r

theorem PassedFor.accepts (hR : Registers H us p) (hd : DirectTogether H us) {bs : List Cls} {ks : List Bool}
    (h : PassedFor H p s bs ks args xs) : Accepts p bs xs := by
  induction h with
  | nil => exact .nil
  | virt ha _ ih =>
    obtain ⟨r, _, ⟨cr, hcr, e⟩, rfl, h1, h2, _⟩ := ha
    have hn : Named us (p.rtti.ti r.obj.type) := hR.registered.1 ⟨cr, hcr, by rw [e]⟩
    exact .cons (((C57 hR hd).2.2.2 _ _ hn).2 (h1.inherits h2)) ih
  | other _ _ ih => exact ih

/-- C58, when the order of registration is supported, virtual parameters are contiguous, and the choice among the applicable overriders is settled by direct
comparisons. -/
theorem C58_settled_partial (hp : p.Good E.cfg) (hD : p.Distinct) (hn : E.n2216 = false) (hR : Registers H us p) (hd : DirectTogether H us)
    (h : Initializes E p s s' rep) (hm : m ∈ p.methods) (ha : PassedFor H p s' (classesOf p m.vp) m.params args xs) (hr : ∀ x ∈ xs, H.NoRepeat x)
    (hord : AllTogether H us ∨ ArgsSafe p (classesOf p m.vp) xs) (hcont : m.vp.length = 1 ∨ Contiguous m.params)
    (hs : SettledBy H.Inherits p m xs) (types : List TypeId) :
    ∃ r, ExpectedBy H.Inherits p m xs r ∧ Behaves H p s' m args xs (callThunk E.cfg H p.rtti s' m args types) r := by
  obtain ⟨hH, hac, hreg, hiff⟩ := C57 hR hd
  have hxs : ∀ x ∈ xs, Named us x := fun x hx => (hreg x).1 (ha.registered x hx)
  obtain ⟨c, img, R, _⟩ := init_ready hp h
  obtain ⟨bs, e1, e2⟩ := R.passed ha
  have hacc := PassedFor.accepts hR hd ha
  have hord' := hord.elim (fun hA => OrderSafe.call (fun x hx => (C57_together hR hA (hxs x hx)).allFound.orderSafe) hm hacc) id
  have hc : CallTo p s.fresh img m (bs.map (argPtr E.cfg s')) xs := ⟨hm, e2, ⟨hacc, ha.registered⟩, hord', hcont⟩
  have hx : ∀ x ∈ xs, ∀ b, Derives p x b ↔ H.Inherits x b := fun x hx b => hiff x b (hxs x hx)
  have ho : ∀ o ∈ m.overriders, ∀ x ∈ classesOf p o.vp, ∀ b, Derives p x b ↔ H.Inherits x b := fun o ho x hx b => by
    obtain ⟨t, ht, rfl⟩ := List.mem_map.1 hx
    exact hiff _ _ ((hreg _).1 ((R.ok.lat.mem_order _).1 ((R.ok.methOk m hm).ovp o ho t ht)))
  have ht : Settled p m xs := (settledBy_congr hx ho).2 hs
  have hi := R.install
  rw [hn] at hi
  obtain ⟨r, h1, h2⟩ := C02_settled_partial hp.valid hi hc ht types
  refine ⟨r, (expectedBy_congr hx ho r).1 ((expectedBy_derives r).2 h1), ?_⟩
  unfold callThunk
  rw [e1, Res.ok_bind, R.call hm]
  cases r with
  | run i =>
    obtain ⟨o, ho, e⟩ := h2
    obtain ⟨⟨o', ho', hA⟩, _⟩ := h1.1
    obtain rfl := Option.some.inj (ho.symm.trans ho')
    rw [e, Res.ok_bind, enterThunk_eq hD hm (List.mem_of_getElem? ho)]
    obtain ⟨as', h3, h4, h5⟩ := ha.thunk hH hr hA
    exact ⟨o, as', ho, h3, h4, h5⟩
  | noOverrider =>
    obtain ⟨a, ts, e⟩ := h2
    rw [e]; exact ⟨a, ts, rfl⟩
  | ambiguous =>
    obtain ⟨a, ts, e⟩ := h2
    rw [e]; exact ⟨a, ts, rfl⟩

/-- In particular, when being more specific is transitive among the applicable overriders. -/
theorem C58_transitive_partial (hp : p.Good E.cfg) (hD : p.Distinct) (hn : E.n2216 = false) (hR : Registers H us p) (hd : DirectTogether H us)
    (h : Initializes E p s s' rep) (hm : m ∈ p.methods) (ha : PassedFor H p s' (classesOf p m.vp) m.params args xs) (hr : ∀ x ∈ xs, H.NoRepeat x)
    (hord : AllTogether H us ∨ ArgsSafe p (classesOf p m.vp) xs) (hcont : m.vp.length = 1 ∨ Contiguous m.params)
    (hs : TransitiveBy H.Inherits p m xs) (types : List TypeId) :
    ∃ r, ExpectedBy H.Inherits p m xs r ∧ Behaves H p s' m args xs (callThunk E.cfg H p.rtti s' m args types) r := by
  refine C58_settled_partial hp hD hn hR hd h hm ha hr hord hcont ?_ types
  obtain ⟨hH, hac, hreg, hiff⟩ := C57 hR hd
  obtain ⟨c, img, R, _⟩ := init_ready hp h
  have hx : ∀ x ∈ xs, ∀ b, Derives p x b ↔ H.Inherits x b := fun x hx b => hiff x b ((hreg x).1 (ha.registered x hx))
  have ho : ∀ o ∈ m.overriders, ∀ x ∈ classesOf p o.vp, ∀ b, Derives p x b ↔ H.Inherits x b := fun o ho x hx b => by
    obtain ⟨t, ht, rfl⟩ := List.mem_map.1 hx
    exact hiff _ _ ((hreg _).1 ((R.ok.lat.mem_order _).1 ((R.ok.methOk m hm).ovp o ho t ht)))
  have ht : TransitiveAt p m xs := (transitiveBy_congr hx ho).2 hs
  exact (settledBy_congr hx ho).1 ht.founded.settled

/-- In particular, when there is one virtual parameter, or no multiple inheritance above the arguments. -/
theorem C58_partial (hp : p.Good E.cfg) (hD : p.Distinct) (hn : E.n2216 = false) (hR : Registers H us p) (hd : DirectTogether H us)
    (h : Initializes E p s s' rep) (hm : m ∈ p.methods) (ha : PassedFor H p s' (classesOf p m.vp) m.params args xs) (hr : ∀ x ∈ xs, H.NoRepeat x)
    (hord : AllTogether H us ∨ ArgsSafe p (classesOf p m.vp) xs) (hcont : m.vp.length = 1 ∨ Contiguous m.params)
    (hs : m.vp.length = 1 ∨ ∀ x ∈ xs, H.Chain x) (types : List TypeId) :
    ∃ r, ExpectedBy H.Inherits p m xs r ∧ Behaves H p s' m args xs (callThunk E.cfg H p.rtti s' m args types) r := by
  refine C58_transitive_partial hp hD hn hR hd h hm ha hr hord hcont ?_ types
  obtain ⟨hH, hac, hreg, hiff⟩ := C57 hR hd
  have hxs : ∀ x ∈ xs, Named us x := fun x hx => (hreg x).1 (ha.registered x hx)
  obtain ⟨c, img, R, _⟩ := init_ready hp h
  have hx : ∀ x ∈ xs, ∀ b, Derives p x b ↔ H.Inherits x b := fun x hx b => hiff x b (hxs x hx)
  have ho : ∀ o ∈ m.overriders, ∀ x ∈ classesOf p o.vp, ∀ b, Derives p x b ↔ H.Inherits x b := fun o ho x hx b => by
    obtain ⟨t, ht, rfl⟩ := List.mem_map.1 hx
    exact hiff _ _ ((hreg _).1 ((R.ok.lat.mem_order _).1 ((R.ok.methOk m hm).ovp o ho t ht)))
  refine (transitiveBy_congr hx ho).1 ?_
  rcases hs with h1 | hs
  · exact transitiveAt_one hac (hp.valid.wf m hm) h1 xs
  · refine transitiveAt_single hac fun x hx a b h1 h2 => ?_
    have hna : ∀ a, Derives p x a → Named us a := by
      intro a h
      cases h with
      | refl => exact hxs x hx
      | tail _ h => obtain ⟨⟨⟨u, hu, _, h3⟩, _⟩, _⟩ := hR.declared.1 h; exact ⟨u, hu, h3⟩
    exact (hs x hx a b (hR.sound h1) (hR.sound h2)).imp (hiff a b (hna a h1)).2 (hiff b a (hna b h2)).2

/-! ## Concrete programs -/

/-- `use_classes` in a translation unit where class `n` has type id `n`. -/
def uses (cs : List Nat) : UseClasses := ⟨cs, fun c => BitVec.ofNat 64 c, fun _ => false, id⟩

def registersB (H : Hier) (us : List UseClasses) (p : Program) : Bool :=
  wfB H && (us.all fun u => u.classes.all fun c => H.any (·.1 == c) && p.rtti.ti (u.ids c) == c) && allRecords H us == some p.classes

theorem registers (h : registersB H us p = true) : Registers H us p := by
  simp only [registersB, Bool.and_eq_true, List.all_eq_true, defined_iff, beq_iff_eq] at h
  exact ⟨wf_of h.1.1, fun c ⟨u, hu, hc⟩ => (h.1.2 u hu c hc).1, fun u hu c hc => (h.1.2 u hu c hc).2, _, h.2, .refl _⟩

def directB (H : Hier) (us : List UseClasses) : Bool :=
  H.all fun e => !(us.any fun u => u.classes.contains e.1) || e.2.all fun b => us.any fun u => u.classes.contains e.1 && u.classes.contains b.1

theorem direct (h : directB H us = true) : DirectTogether H us := by
  rintro c b v ⟨u, hu, hc⟩ ⟨bs, he, hb⟩
  simp only [directB, List.all_eq_true, Bool.or_eq_true, Bool.not_eq_true', List.any_eq_false, List.any_eq_true, Bool.and_eq_true,
    List.contains_iff_mem] at h
  rcases h _ he with h | h
  · exact absurd hc (h u hu)
  · obtain ⟨u, hu, h1, h2⟩ := h _ hb
    exact ⟨u, hu, h1, h2⟩

/-- `vdiamond`, registered by one `use_classes`, in another order than that of `diamondProg`. -/
def visitProg : Program := prog [cls' 5 [1, 2, 3, 4, 5], cls' 2 [1, 2], cls' 1 [1], cls' 4 [1, 2, 3, 4], cls' 3 [1, 3]] [greet]
where
  cls' (t : Nat) (bs : List Nat) : ClassInfo := ⟨t, ids bs, false, t⟩

/-- C57 and C58_partial apply to a method with one virtual parameter, called with an object of class 5, of which the virtual base is passed. -/
example : ∃ s rep, Initializes (env hashed) visitProg .init s rep ∧ Registers vdiamond [uses [1, 2, 3, 4, 5]] visitProg ∧
    DirectTogether vdiamond [uses [1, 2, 3, 4, 5]] ∧
    ∃ r, ExpectedBy vdiamond.Inherits visitProg greet [5] r ∧
      Behaves vdiamond visitProg s greet [.virt (refArg .ref 5 [1])] [5] (callThunk hashed vdiamond rt s greet [.virt (refArg .ref 5 [1])] []) r := by
  obtain ⟨s, rep, h, _⟩ := thunkAfter_eq (E := env hashed) (H := vdiamond) (p := visitProg) (m := greet) (args := [.virt (refArg .ref 5 [1])])
    (r := .ok (.entered (ov [4] 11) [.virt (refArg .ref 5 [5, 4])])) (by decide +kernel)
  have hw : vdiamond.WF := wf_of (by decide)
  have hR : Registers vdiamond [uses [1, 2, 3, 4, 5]] visitProg := by
    refine ⟨hw, ?_, by decide +kernel, _, rfl, by decide +kernel⟩
    rintro c ⟨u, hu, hc⟩
    obtain rfl := List.mem_singleton.1 hu
    rw [← defined_iff]
    revert c
    decide
  have hd : DirectTogether vdiamond [uses [1, 2, 3, 4, 5]] := direct (by decide +kernel)
  refine ⟨s, rep, h, hR, hd, C58_partial (E := env hashed) (good (by decide +kernel)) ⟨by decide, by decide⟩ rfl hR hd h (by decide)
    (.virt (refers hw .ref ⟨visitProg.cls' 5 [1, 2, 3, 4, 5], by decide, rfl⟩ (by decide +kernel)) .nil) ?_ (.inl (allTogether_one _)) (.inl rfl) (.inl rfl) []⟩
  intro x hx
  obtain rfl := List.mem_singleton.1 hx
  exact noRepeat hw (by decide +kernel)

/-- `twice`, registered by two `use_classes`. -/
def twoLists : Program := prog [⟨1, ids [1], false, 1⟩, ⟨2, ids [1, 2], false, 2⟩, ⟨3, ids [1, 3], false, 3⟩, ⟨2, ids [2], false, 2⟩, ⟨3, ids [3], false, 3⟩,
  ⟨4, ids [2, 3, 4], false, 4⟩] [poke2]

/-- The static assertion fails if all the classes of `twice` are listed together, not if they are in two lists. -/
example : allRecords twice [uses [1, 2, 3, 4]] = none ∧ Registers twice [uses [1, 2, 3], uses [2, 3, 4]] twoLists ∧
    DirectTogether twice [uses [1, 2, 3], uses [2, 3, 4]] := ⟨by decide +kernel, registers (by decide +kernel), direct (by decide +kernel)⟩

def chainB (H : Hier) (x : Cls) : Bool :=
  H.all fun e => H.all fun f => !H.isBaseOf e.1 x || !H.isBaseOf f.1 x || H.isBaseOf f.1 e.1 || H.isBaseOf e.1 f.1

theorem chain (hw : H.WF) {x : Cls} (hx : H.Defined x) (h : chainB H x = true) : H.Chain x := by
  intro a b ha hb
  have hda := ha.defined hw hx
  have hdb := hb.defined hw hx
  obtain ⟨_, ea⟩ := id hda
  obtain ⟨_, eb⟩ := id hdb
  simp only [chainB, List.all_eq_true, Bool.or_eq_true, Bool.not_eq_true'] at h
  have := h _ ea _ eb
  simp only [← Bool.not_eq_true, isBaseOf_iff hw hx, isBaseOf_iff hw hda, isBaseOf_iff hw hdb] at this
  tauto

/-- The classes of `late`. -/
def chain5 : Hier := [(5, [(4, false)]), (4, [(3, false)]), (3, [(2, false)]), (2, [(1, false)]), (1, [])]

/-- `late` is registered as documented, by four `use_classes`. -/
theorem late_registers : Registers chain5 [uses [5, 4], uses [3, 2], uses [2, 1], uses [4, 3]] late ∧
    DirectTogether chain5 [uses [5, 4], uses [3, 2], uses [2, 1], uses [4, 3]] := ⟨registers (by decide +kernel), direct (by decide +kernel)⟩

def meet5 : MethodInfo := meth 0 [true, true, false] [1, 1] [ov [1, 2] 10, ov [2, 1] 11, ov [3, 3] 12]

def meetProg : Program := prog [cls 5 [4, 3, 2, 1], cls 4 [3, 2, 1], cls 3 [2, 1], cls 2 [1], cls 1 []] [meet5]

/-- C58_partial applies to a method with two virtual parameters; this call is ambiguous. -/
example : ∃ s rep, Initializes (env hashed) meetProg .init s rep ∧
    ∃ r, ExpectedBy chain5.Inherits meetProg meet5 [2, 5] r ∧
      Behaves chain5 meetProg s meet5 [.virt (refArg .ref 2 [2, 1]), .virt (refArg .pointer 5 [5, 4, 3, 2, 1]), .other 9] [2, 5]
        (callThunk hashed chain5 rt s meet5 [.virt (refArg .ref 2 [2, 1]), .virt (refArg .pointer 5 [5, 4, 3, 2, 1]), .other 9] []) r := by
  obtain ⟨s, rep, h, _⟩ := thunkAfter_eq (E := env hashed) (H := chain5) (p := meetProg) (m := meet5)
    (args := [.virt (refArg .ref 2 [2, 1]), .virt (refArg .pointer 5 [5, 4, 3, 2, 1]), .other 9])
    (r := .err (.ambiguousCall 0 [])) (by decide +kernel)
  have hw : chain5.WF := wf_of (by decide)
  have hR : Registers chain5 [uses [5, 4, 3, 2, 1]] meetProg := registers (by decide +kernel)
  refine ⟨s, rep, h, C58_partial (E := env hashed) (good (by decide +kernel)) ⟨by decide, by decide⟩ rfl hR (direct (by decide +kernel)) h (by decide)
    (.virt (refers hw .ref ⟨cls 2 [1], by decide, rfl⟩ (by decide +kernel))
      (.virt (refers hw .pointer ⟨cls 5 [4, 3, 2, 1], by decide, rfl⟩ (by decide +kernel)) (.other _ .nil)))
    ?_ (.inl (allTogether_one _)) (.inr ⟨0, 2, 1, rfl⟩) (.inr ?_) []⟩
  · intro x hx
    rcases List.mem_cons.1 hx with rfl | hx
    · exact noRepeat hw (by decide +kernel)
    · obtain rfl := List.mem_singleton.1 hx
      exact noRepeat hw (by decide +kernel)
  · intro x hx
    rcases List.mem_cons.1 hx with rfl | hx
    · exact chain hw ((defined_iff _ _).1 (by decide)) (by decide +kernel)
    · obtain rfl := List.mem_singleton.1 hx
      exact chain hw ((defined_iff _ _).1 (by decide)) (by decide +kernel)

/-- C58 does not hold: classes are registered as documented, but in an order that the library does not support. The overrider of another method is entered with
the arguments of this one; the model gives this no meaning. -/
theorem C58_refuted : ¬ C58 := by
  intro hC
  obtain ⟨s, rep, hi, hr⟩ := thunkAfter_eq (E := env hashed) (H := chain5) (p := late) (m := f5) (args := [.virt (refArg .ref 5 [5])])
    (r := .ub) (by decide +kernel)
  have hw : chain5.WF := wf_of (by decide)
  obtain ⟨r, _, h2⟩ := hC (env hashed) chain5 _ late .init s rep f5 [.virt (refArg .ref 5 [5])] [5] [] (good (by decide +kernel)) ⟨by decide, by decide⟩ rfl
    late_registers.1 late_registers.2 hi (by decide) (.virt (refers hw .ref ⟨cls 5 [4], by decide, rfl⟩ (by decide +kernel)) .nil)
    (fun x hx => by obtain rfl := List.mem_singleton.1 hx; exact noRepeat hw (by decide +kernel))
  have hr' : callThunk (env hashed).cfg chain5 late.rtti s f5 [.virt (refArg .ref 5 [5])] [] = .ub := hr
  rw [hr'] at h2
  cases r with
  | run i => obtain ⟨_, _, _, e, _⟩ := h2; cases e
  | noOverrider => obtain ⟨_, _, e⟩ := h2; cases e
  | ambiguous => obtain ⟨_, _, e⟩ := h2; cases e

end Props

end OpenMethod

import Verif.Proof.Statements
import Verif.Props.Deduction
import Verif.Props.VirtualPtr

/-!
# C71: statements that give values to virtual pointers
-/

namespace OpenMethod.Props

open Cpp Spec

variable {E : Env} {p : Program} {s s' : RegState} {rep : Report} {T : PtrTypes} {w w' : Ptrs} {n : Nat} {st : Statement} {l : List PtrOp}

/-- Every call of a constructor or assignment operator that the compiler accepts is one of those in the model of values. -/
theorem C71_ops (hf : T.Fits p) {f : Form} {i : Nat} {x : Operand} {c : Cat} :
    (T.ops n (.give f i x c)).isSome = (T.cpp.resolved f (T.type i) T.reg (x.given T) c).ok := by
  cases h : T.cpp.resolved f (T.type i) T.reg (x.given T) c with
  | found o q =>
    obtain ⟨l, hl, _⟩ := ops_of (n := n) hf (by rw [h]; rfl)
    rw [hl]; rfl
  | _ => simp only [PtrTypes.ops, h]; rfl

/-- The uses of `final_virtual_ptr` that the model of values covers are the documented ones, without the lvalues of finding 29. -/
theorem C71_final_ops {i : Nat} {x : Operand} {c : Cat} :
    (T.ops n (.final i x c)).isSome = true ↔
      (x.given T).Offered c ∧ (x.given T).held c = some (T.type i) ∧ ∀ k e, x.given T = .smart k e → c = .rvalue := by
  constructor
  · intro h
    unfold PtrTypes.ops at h
    dsimp only at h
    split at h
    · next t k hk =>
      split at h
      · next ht =>
        obtain ⟨h1, h2, _⟩ := C70_final_sound hk ht
        refine ⟨h1, h2, fun q e hq => ?_⟩
        rw [hq] at hk
        cases c
        · rw [C70_refuted_lvalue] at hk; cases hk
        · obtain ⟨v, h3, h4, _⟩ := C70_refuted_const (r := T.reg) q e
          rw [h3] at hk
          obtain rfl := (Prod.mk.inj (Option.some.inj hk)).1
          rw [h4] at ht; cases ht
        · rfl
        · cases q <;> cases hk
      · cases h
    · cases h
  · rintro ⟨h1, h2, h3⟩
    obtain ⟨t, h4, h5⟩ := C70_final_partial (r := T.reg) h1 h2 h3
    unfold PtrTypes.ops
    dsimp only
    rw [h4]
    dsimp only
    rw [if_pos h5]
    cases x with
    | object _ o => rfl
    | smart _ _ q => rfl
    | _ => cases h2

/-- One statement. -/
theorem gives (R : PtrReady E.cfg p s) (hf : T.Fits p) {C : VirtualPtr → Prop} (O : Okay p s C) (hw : ∀ k, C (w k)) (hn : T.Spare st n) (hl : T.ops n st = some l) (ht : st.Typed T p) (h0 : st.NotNull) :
    ∃ w', runOps (T.env E.cfg) s w l = .ok (w', .returned) ∧ GivesBy C T w w' n st ∧ (w' n = w n ∨ (w' n).obj = st.operand.designated w ∧ C (w' n)) := by
  replace R : PtrReady (T.env E.cfg).cfg p s := R
  obtain ⟨hn1, hn2, hn3⟩ := hn
  have same : ∀ {w' : Ptrs} {lost : Nat → Prop}, Sets C w w' st.target (st.operand.designated w) lost → ¬ lost n → w' n = w n := fun h hl => (h.2.2 n hn1).2 hl
  have kept : ∀ {op : PtrOp}, l = [op] → (∀ k, st.operand = .vptr k → st.cat = .rvalue → ∃ t, T.type st.target = .plain t) →
      (∃ w', op.run (T.env E.cfg) s w = .ok (w', .returned) ∧ Sets C w w' st.target (st.operand.designated w) fun _ => False) →
      ∃ w', runOps (T.env E.cfg) s w l = .ok (w', .returned) ∧ GivesBy C T w w' n st ∧ (w' n = w n ∨ (w' n).obj = st.operand.designated w ∧ C (w' n)) := by
    rintro op rfl hk ⟨w', h1, h2⟩
    refine ⟨w', runOps_one h1, h2.gives fun k => ⟨nofun, ?_⟩, .inl (same h2 id)⟩
    rintro ⟨h3, h4, q, t, h5⟩
    obtain ⟨t', h6⟩ := hk k h3 h4
    rw [h5] at h6; cases h6
  cases st with
  | final i x c =>
    simp only [PtrTypes.ops] at hl
    cases hx : finalPtr T.reg (x.given T) c with
    | none => rw [hx] at hl; cases hl
    | some y =>
      obtain ⟨t, v⟩ := y
      rw [hx] at hl
      cases v with
      | targ _ => cases hl
      | cls k =>
        dsimp only at hl
        split at hl
        · rename_i hh
          obtain ⟨_, h2, h3⟩ := C70_final_sound hx hh
          cases x with
          | object c' o =>
            obtain rfl := (Option.some.inj hl).symm
            obtain h2 := Option.some.inj h2
            rw [← h2] at h3
            obtain rfl : k = c' := VClass.cls.inj h3
            exact kept rfl nofun (run_final O R (hf.var _ (ht.2 ▸ ht.1)) ht.1 ht.2)
          | smart l e q =>
            obtain rfl := (Option.some.inj hl).symm
            obtain h2 := Option.some.inj h2
            rw [← h2] at h3
            obtain rfl : k = e.cls := VClass.cls.inj h3
            cases q with
            | none => exact absurd rfl h0
            | some o =>
              obtain ⟨h4, h5⟩ := ht o rfl
              exact kept rfl nofun (run_final O R (hf.var _ (h5 ▸ h4)) h4 h5)
          | _ => cases hl
        · cases hl
  | give f i x c =>
    obtain ⟨l', h1, h2⟩ := ops_of (n := n) hf (ok_of_ops hl)
    rw [hl] at h1
    obtain rfl := Option.some.inj h1
    clear h1
    cases h2 with
    | null hf => exact kept rfl nofun (run_null O)
    | null_assign => exact kept rfl nofun (assign_null O)
    | object hf h => exact kept rfl nofun (run_ref O R ht.1)
    | object_assign h => exact kept rfl nofun (assigned_object O R ht.1)
    | @object_temporary _ _ o _ _ h =>
      obtain ⟨w1, h1, h2⟩ := run_ref (i := n) (w := w) O R ht.1
      have hw1 : ∀ k, C (w1 k) := by
        intro k
        by_cases hk : k = n
        · rw [hk]; exact h2.2.1
        · rw [(h2.2.2 k hk).2 id]; exact hw k
      obtain ⟨w2, h3, h4⟩ := assign_copy (X := T.env E.cfg) (i := i) (j := n) O hw1
      refine ⟨w2, runOps_two h1 h3, ⟨h4.1.trans h2.1, h4.2.1, fun k hk hkn => ⟨fun h => (nomatch h.1), fun _ => ?_⟩⟩, .inr ?_⟩
      · rw [(h4.2.2 k hk).2 id, (h2.2.2 k hkn).2 id]
      · rw [(h4.2.2 n hn1).2 id]
        exact ⟨h2.1, h2.2.1⟩
    | @pointer _ _ e q _ _ hf h =>
      cases q with
      | none => exact absurd rfl h0
      | some o => exact kept rfl nofun (run_ref O R (ht o rfl).1)
    | @pointer_assign _ e q _ _ h =>
      cases q with
      | none => exact absurd rfl h0
      | some o => exact kept rfl nofun (assigned_object O R (ht o rfl).1)
    | copy hf h => exact kept rfl (fun _ _ hc => h hc) (run_copy O hw)
    | copy_assign h => exact kept rfl (fun _ _ hc => h hc) (assign_copy O hw)
    | @move _ _ j k t hf h =>
      obtain ⟨w', h1, h2⟩ := run_move (X := T.env E.cfg) (i := i) (j := j) O hw (by simp only [PtrTypes.env, h]; exact Held.kind_smart)
      exact ⟨w', runOps_one h1, h2.gives fun k' => ⟨fun e => ⟨by rw [e]; rfl, rfl, k, t, h⟩, fun e => (Operand.vptr.inj e.1).symm⟩,
        .inl (same h2 fun e => hn2 (by rw [e]; rfl))⟩
    | @move_assign _ j k t h =>
      obtain ⟨w', h1, h2⟩ := assign_move (X := T.env E.cfg) (i := i) (j := j) O hw (by simp only [PtrTypes.env, h]; exact Held.kind_smart)
      exact ⟨w', runOps_one h1, h2.gives fun k' => ⟨fun e => ⟨by rw [e]; rfl, rfl, k, t, h⟩, fun e => (Operand.vptr.inj e.1).symm⟩,
        .inl (same h2 fun e => hn2 (by rw [e]; rfl))⟩
    | smart hf h => exact kept rfl nofun (run_smart O R fun o ho => (ht o ho).1)
    | @smart_assign _ _ _ q _ _ hc h =>
      cases q with
      | none => exact absurd rfl (h0 rfl hc)
      | some o => exact kept rfl nofun (assigned_object O R (ht o rfl).1)
    | smart_move h => exact kept rfl nofun (assign_move_smart O R fun o ho => (ht o ho).1)

/-- The class of the object that a statement gives to a virtual pointer derives from the class of the virtual pointer. -/
theorem gives_instance (hf : T.Fits p) (hl : T.ops n st = some l) (ht : st.Typed T p) (hi : ∀ k o, (w k).obj = .to o → T.Instance o (T.type k).elem.cls) {o : Obj}
    (ho : st.operand.designated w = .to o) : T.Instance o (T.type st.target).elem.cls := by
  cases st with
  | give f i x c =>
    have key : ∀ e, (x.given T).elem c = some e → T.Instance o e.cls → T.Instance o (T.type i).elem.cls := by
      rintro e he ⟨d, h1, h2⟩
      exact ⟨d, h1, h2.trans (C69_safe hf.wf (hf.defined i) (ok_of_ops hl) e he).1.inherits⟩
    cases x with
    | object k o' =>
      obtain rfl := ObjPtr.to.inj ho
      exact key ⟨k, c.isConst⟩ rfl ht.2
    | pointer e q =>
      cases q with
      | none => cases ho
      | some o' =>
        obtain rfl := ObjPtr.to.inj ho
        exact key e rfl (ht _ rfl).2
    | smart k e q =>
      cases q with
      | none => cases ho
      | some o' =>
        obtain rfl := ObjPtr.to.inj ho
        exact key e rfl (ht _ rfl).2
    | vptr j => exact key _ rfl (hi j o ho)
    | null => cases ho
  | final i x c =>
    simp only [PtrTypes.ops] at hl
    cases hx : finalPtr T.reg (x.given T) c with
    | none => rw [hx] at hl; cases hl
    | some y =>
      obtain ⟨t, v⟩ := y
      rw [hx] at hl
      cases v with
      | targ _ => cases hl
      | cls k =>
        dsimp only at hl
        split at hl
        · rename_i hh
          obtain ⟨_, h2, _⟩ := C70_final_sound hx hh
          cases x with
          | object c' o' =>
            obtain rfl := ObjPtr.to.inj ho
            show T.Instance o' (T.type i).elem.cls
            rw [← Option.some.inj h2]
            exact ⟨c', ht.2.symm, .refl⟩
          | smart l e q =>
            cases q with
            | none => cases ho
            | some o' =>
              obtain rfl := ObjPtr.to.inj ho
              show T.Instance o' (T.type i).elem.cls
              rw [← Option.some.inj h2]
              exact ⟨e.cls, (ht _ rfl).2.symm, .refl⟩
          | _ => cases hl
        · cases hl

/-- After any statements that the compiler accepts and that avoid null pointers, each virtual pointer is null or designates an object of its class, or of a derived class, and the v-table of the class
of the object. -/
theorem reach_typed (R : PtrReady E.cfg p s) (hf : T.Fits p) (hr : T.Reach E.cfg p s w) :
    ∀ k, Consistent p s (w k) ∧ ∀ o, (w k).obj = .to o → T.Instance o (T.type k).elem.cls := by
  induction hr with
  | start => exact fun k => ⟨.inl rfl, nofun⟩
  | @step w w' st n l e _ hn hl hns ht h0 hrun ih =>
    obtain ⟨w1, h1, ⟨h2, h3, h4⟩, h5⟩ := gives R hf okay_consistent (fun k => (ih k).1) hn hl ht h0
    rw [hrun] at h1
    obtain ⟨rfl, rfl⟩ := Prod.mk.inj (Res.ok.inj h1)
    have hi : ∀ {o}, st.operand.designated w = .to o → T.Instance o (T.type st.target).elem.cls := fun ho => gives_instance hf hl ht (fun k => (ih k).2) ho
    intro k
    by_cases hk : k = st.target
    · subst hk
      exact ⟨h3, fun o ho => hi (h2.symm.trans ho)⟩
    · by_cases hkn : k = n
      · subst hkn
        rcases h5 with h5 | ⟨h5, h6⟩
        · rw [h5]; exact ih k
        · refine ⟨h6, fun o ho => ?_⟩
          rw [hn.2.2]
          exact hi (h5.symm.trans ho)
      · by_cases hm : st.operand = .vptr k ∧ st.cat = .rvalue ∧ ∃ q t, T.type st.target = .smart q t
        · rw [(h4 k hk hkn).1 hm]
          exact ⟨.inl rfl, nofun⟩
        · rw [(h4 k hk hkn).2 hm]
          exact ih k

/-- C71 in full: statements that the compiler accepts, with operands of the declared classes, give the virtual pointers the right values. -/
def C71 : Prop :=
  ∀ (E : Env) (T : PtrTypes) (p : Program) (s s' : RegState) (rep : Report) (w : Ptrs) (st : Statement) (n : Nat) (l : List PtrOp),
    p.Good E.cfg → Initializes E p s s' rep → T.Fits p → T.Reach E.cfg p s' w → T.Spare st n → T.ops n st = some l → st.NotSelf → st.Typed T p →
    ∃ w', runOps (T.env E.cfg) s' w l = .ok (w', .returned) ∧ Gives T p s' w w' n st

/-- C71, without null pointers (`NotNull`). Besides, all virtual pointers can be used in calls in place of the objects, which have the class of the virtual pointer or one that derives from it. -/
theorem C71_partial (hp : p.Good E.cfg) (h : Initializes E p s s' rep) (hf : T.Fits p) (hr : T.Reach E.cfg p s' w) :
    (∀ (st : Statement) (n : Nat) (l : List PtrOp), T.Spare st n → T.ops n st = some l → st.NotSelf → st.Typed T p → st.NotNull →
      ∃ w', runOps (T.env E.cfg) s' w l = .ok (w', .returned) ∧ Gives T p s' w w' n st ∧ T.Reach E.cfg p s' w') ∧
    ∀ i, Consistent p s' (w i) ∧ ∀ o, (w i).obj = .to o → T.Instance o (T.type i).elem.cls ∧ ∃ a, (w i).arg = .ok a ∧
      ∀ m as bs types, call E.cfg s' m (as ++ a :: bs) types = call E.cfg s' m (as ++ .obj o.type :: bs) types := by
  obtain ⟨c, img, R0, _⟩ := init_ready hp h
  have R := R0.ptr
  have hw := reach_typed R hf hr
  refine ⟨fun st n l hn hl hns ht h0 => ?_, fun i => ⟨(hw i).1, fun o ho => ⟨(hw i).2 o ho, ?_⟩⟩⟩
  · obtain ⟨w', h1, h2, _⟩ := gives R hf okay_consistent (fun k => (hw k).1) hn hl ht h0
    exact ⟨w', h1, h2, hr.step hn hl hns ht h0 h1⟩
  · rcases (hw i).1 with hi | ⟨o', ht, hd⟩
    · rw [hi] at ho; cases ho
    · obtain ⟨b, q, e, _⟩ := id hd
      rw [e] at ho
      obtain rfl := ObjPtr.to.inj ho
      obtain ⟨a, ha, ea⟩ := hd.arg R ht
      exact ⟨a, ha, fun m as bs types => call_arg ea types⟩

/-! ## Null pointers -/

/-- `Animal` is class 1 of the program, `Dog` is class 2. There are variables of types `virtual_ptr<Animal>` (0, 6…), `virtual_ptr<Dog>` (1, 7…), `shared_virtual_ptr<Animal>` (2, 8…),
`shared_virtual_ptr<Dog>` (3, 9…), `unique_virtual_ptr<Animal>` (4, 10…) and `unique_virtual_ptr<Dog>` (5, 11…). -/
def pets : PtrTypes :=
  { cpp := polymorphic zoo
    type := fun i =>
      match i % 6 with
      | 0 => .plain ⟨0, false⟩
      | 1 => .plain ⟨1, false⟩
      | 2 => .smart .shared ⟨0, false⟩
      | 3 => .smart .shared ⟨1, false⟩
      | 4 => .smart .unique ⟨0, false⟩
      | _ => .smart .unique ⟨1, false⟩
    reg := 0
    id := fun c => if c = 0 then 1 else if c = 1 then 2 else 99
    var := fun c => if c = 0 then 1 else 2 }

theorem pets_fits : pets.Fits Examples.zoo where
  wf := zoo_wf
  defined := by
    intro i
    have h0 : pets.cpp.hier.Defined 0 := ⟨[], by simp [pets, polymorphic, zoo]⟩
    have h1 : pets.cpp.hier.Defined 1 := ⟨[(0, false)], by simp [pets, polymorphic, zoo]⟩
    show pets.cpp.hier.Defined (match i % 6 with
      | 0 => Held.plain ⟨0, false⟩
      | 1 => .plain ⟨1, false⟩
      | 2 => .smart .shared ⟨0, false⟩
      | 3 => .smart .shared ⟨1, false⟩
      | 4 => .smart .unique ⟨0, false⟩
      | _ => .smart .unique ⟨1, false⟩).elem.cls
    split <;> first | exact h0 | exact h1
  var := by
    intro c hc
    by_cases h0 : c = 0
    · subst h0; unfold Program.StaticVar; decide
    · by_cases h1 : c = 1
      · subst h1; unfold Program.StaticVar; decide
      · obtain ⟨cr, h2, h3⟩ := hc
        have : pets.id c = 99 := by simp [pets, h0, h1]
        rw [this] at h3
        revert h2 h3
        have : ∀ cr ∈ Examples.zoo.classes, cr.type ≠ 99 := by decide
        exact fun h2 h3 => absurd h3 (this cr h2)

/-- The values of some variables after statements. -/
def pet (cfg : Config) (n : Nat) (l : List Statement) (is : List Nat) : Option (Res (List VirtualPtr)) :=
  (Examples.initOf (Examples.env cfg) Examples.zoo .init).map fun x => do
    let w ← l.foldlM (fun w st =>
      match pets.ops n st with
      | some ops => do
        let r ← runOps (pets.env cfg) x.1 w ops
        .ok r.1
      | none => .ub) fun _ => .nul
    .ok (is.map w)

/-- A `const std::shared_ptr` that is null is assigned: the compiler accepts this, and the null pointer is dereferenced. When it is moved, or a virtual pointer is constructed from it, it is not. -/
theorem C71_refuted : ¬ C71 := by
  intro h
  have hrun : (Examples.initOf (Examples.env Examples.mapped) Examples.zoo .init).map
      (fun x => (runOps (pets.env Examples.mapped) x.1 (fun _ => { vp := .null, obj := .null }) [.assign 2 (.smart none)]).bind fun _ => Res.ok ()) = some .ub := by decide +kernel
  rw [Option.map_eq_some_iff] at hrun
  obtain ⟨⟨s1, rep⟩, h1, hrun⟩ := hrun
  obtain ⟨w', h2, _⟩ := h (Examples.env Examples.mapped) pets Examples.zoo .init s1 rep _ (.give .assign 2 (.smart .shared ⟨0, false⟩ none) .constLvalue) 8 [.assign 2 (.smart none)]
    (Examples.good (by decide +kernel)) (Examples.initOf_eq h1) pets_fits .start ⟨by decide, by decide, rfl⟩ (by decide +kernel) trivial nofun
  have h2 : runOps (pets.env Examples.mapped) s1 (fun _ => { vp := .null, obj := .null }) [.assign 2 (.smart none)] = .ok (w', .returned) := h2
  simp only [h2] at hrun
  cases hrun

/-- The other cases: a null pointer, and `final_virtual_ptr` of a null smart pointer. -/
theorem C71_null_refuted :
    pet Examples.mapped 6 [.give .construct 0 (.pointer ⟨1, false⟩ none) .lvalue] [0] = some .ub ∧
    pet Examples.mapped 6 [.give .assign 0 (.pointer ⟨1, false⟩ none) .lvalue] [0] = some .ub ∧
    pet Examples.mapped 6 [.final 3 (.smart .shared ⟨1, false⟩ none) .rvalue] [3] = some .ub ∧
    pet Examples.mapped 6 [.give .construct 2 (.smart .shared ⟨1, false⟩ none) .lvalue, .give .assign 2 (.smart .shared ⟨1, false⟩ none) .rvalue] [2] = some (.ok [.nul]) := by
  decide +kernel

/-! ## The hypotheses are met -/

/-- Two `Dog`s. -/
def rex : Obj := ⟨7, 2⟩
def fido : Obj := ⟨8, 2⟩

theorem rex_suits {c : Cls} (hc : c = 0 ∨ c = 1) : pets.Suits Examples.zoo rex c := by
  refine ⟨⟨Examples.cls 2 [1], by decide, rfl⟩, 1, rfl, ?_⟩
  rcases hc with rfl | rfl
  · exact zoo_derives.inherits
  · exact .refl

/-- A `std::shared_ptr<Dog>` is moved to a `shared_virtual_ptr<Dog>`, which is moved to a `shared_virtual_ptr<Animal>`; a `virtual_ptr<Animal>` is made from that. -/
def walk : List Statement :=
  [.give .construct 3 (.smart .shared ⟨1, false⟩ (some rex)) .rvalue, .give .convert 2 (.vptr 3) .rvalue, .give .assign 0 (.vptr 2) .constLvalue]

example : (pet Examples.mapped 6 walk [0, 2, 3]).map (fun r => r.bind fun l => Res.ok (l.map (·.obj))) = some (.ok [.to rex, .to rex, .null]) := by decide +kernel

/-- All other kinds of operands. -/
example : (pet Examples.mapped 6 [.give .construct 1 (.object 1 rex) .lvalue, .give .assign 0 (.object 1 fido) .lvalue, .give .assign 1 (.pointer ⟨1, false⟩ (some fido)) .rvalue,
    .final 5 (.smart .unique ⟨1, false⟩ (some rex)) .rvalue, .give .assign 4 (.vptr 5) .rvalue, .give .assign 0 .null .rvalue, .final 7 (.object 1 rex) .lvalue] [0, 1, 4, 5, 7]).map
    (fun r => r.bind fun l => Res.ok (l.map (·.obj))) = some (.ok [.null, .to fido, .to rex, .null, .to rex]) := by decide +kernel

/-- Rejected: an `Animal` for a `virtual_ptr<Dog>`, a copy of a `unique_virtual_ptr`, the result of `final_virtual_ptr` for a smart pointer that is an lvalue. -/
example : pets.ops 6 (.give .assign 1 (.object 0 rex) .lvalue) = none ∧ pets.ops 6 (.give .construct 4 (.vptr 5) .lvalue) = none ∧
    pets.ops 6 (.final 3 (.smart .shared ⟨1, false⟩ (some rex)) .lvalue) = none := by decide +kernel

/-- A temporary is used if the class of the virtual pointer is not polymorphic. -/
example : ({ pets with cpp := halfPolymorphic }).ops 6 (.give .assign 0 (.object 1 rex) .lvalue) = some [.construct 6 (.ref rex), .assign 0 (.copy 6)] := by decide +kernel

/-- A state that is reached, with a virtual pointer that is not null. -/
example : ∃ s' rep w, Initializes (Examples.env Examples.mapped) Examples.zoo .init s' rep ∧ pets.Reach Examples.mapped Examples.zoo s' w ∧ (w 2).obj = .to rex ∧ (w 3).obj = .null := by
  have hi : (Examples.initOf (Examples.env Examples.mapped) Examples.zoo .init).isSome = true := by decide +kernel
  obtain ⟨⟨s1, rep⟩, h1⟩ := Option.isSome_iff_exists.1 hi
  have hg : Examples.zoo.Good (Examples.env Examples.mapped).cfg := Examples.good (by decide +kernel)
  obtain ⟨w1, _, ⟨h2, _⟩, hr1⟩ := (C71_partial hg (Examples.initOf_eq h1) pets_fits .start).1 (.give .construct 3 (.smart .shared ⟨1, false⟩ (some rex)) .rvalue) 9 [.construct 3 (.smart (some rex))]
    ⟨by decide, by decide, rfl⟩ (by decide +kernel) (by simp [Statement.NotSelf, Statement.operand]) (by rintro o ho; obtain rfl := Option.some.inj ho; exact rex_suits (.inr rfl)) nofun
  obtain ⟨w2, _, ⟨h3, _, h4⟩, hr2⟩ := (C71_partial hg (Examples.initOf_eq h1) pets_fits hr1).1 (.give .convert 2 (.vptr 3) .rvalue) 8 [.construct 2 (.move 3)]
    ⟨by decide, by decide, rfl⟩ (by decide +kernel) (by simp [Statement.NotSelf, Statement.operand, Statement.target]) trivial trivial
  refine ⟨s1, rep, w2, Examples.initOf_eq h1, hr2, h3.trans h2, ?_⟩
  rw [(h4 3 (by decide) (by decide)).1 ⟨rfl, rfl, _, _, rfl⟩]

end OpenMethod.Props

import Verif.Proof.VirtualPtr
import Verif.Props.Registry

/-! # C34-C36: virtual_ptr -/

namespace OpenMethod.Props

open Spec Examples

variable {E : Env} {p : Program} {s s' : RegState} {rep : Report} {m : MethodInfo} {X : PtrEnv}

/-! ## C34: calling through a virtual_ptr -/

/-- C34 in full: a `virtual_ptr` obtained from an object by a chain of conversions can replace it in any call. -/
def C34 : Prop :=
  ∀ (E : Env) (p : Program) (s s' : RegState) (rep : Report) (o : Obj),
    p.Good E.cfg → Initializes E p s s' rep → p.HasId o.type →
    (∀ poly v, ClassVar p o.type v → ∃ w, VirtualPtr.final E.cfg s' poly o.type v (some o) = .ok w) ∧
    ∀ w, Chain E.cfg p s' o w → ∃ a, w.arg = .ok a ∧ ∀ m as bs types, call E.cfg s' m (as ++ a :: bs) types = call E.cfg s' m (as ++ .obj o.type :: bs) types

theorem call_arg {cfg : Config} {as bs : List Arg} {a b : Arg} (h : argPtr cfg s a = argPtr cfg s b) (types : List TypeId) :
    call cfg s m (as ++ a :: bs) types = call cfg s m (as ++ b :: bs) types := by
  unfold call
  rw [List.map_append, List.map_append, List.map_cons, List.map_cons, h]

/-- The records of each class share its `static_vptr` variable: not the case when a class is registered by several modules that do not
share it. -/
def OneVar (p : Program) : Prop := ∀ a ∈ p.classes, ∀ b ∈ p.classes, p.rtti.ti a.type = p.rtti.ti b.type → a.staticVptr = b.staticVptr

theorem OneVar.static (h1 : OneVar p) {st : TypeId} {v : VarId} (h : ClassVar p st v) : p.StaticVar (p.rtti.ti st) v := by
  obtain ⟨cr, hcr, rfl, rfl⟩ := h
  unfold Program.StaticVar
  rw [Option.map_eq_some_iff]
  cases hf : p.classes.find? fun c => p.rtti.ti c.type = p.rtti.ti cr.type with
  | none =>
    rw [List.find?_eq_none] at hf
    exact absurd (by simp) (hf cr hcr)
  | some c =>
    refine ⟨c, rfl, h1 c (List.mem_of_find?_eq_some hf) cr hcr ?_⟩
    simpa using List.find?_some hf

theorem chain_designates (R : PtrReady E.cfg p s) (h1 : OneVar p) {o : Obj} (ho : p.HasId o.type) {w : VirtualPtr} (h : Chain E.cfg p s o w) :
    Designates p s o w := by
  induction h with
  | ref h =>
    rcases R.ofRef (o := o) (.inl ho) with ⟨x, e, hx, _⟩ | e
    · rw [h] at e; rw [Res.ok.inj e]; exact hx
    · rw [h] at e; cases e
  | smart h =>
    rcases R.ofRef (o := o) (.inl ho) with ⟨x, e, hx, _⟩ | e
    · rw [show VirtualPtr.ofSmart E.cfg s (some o) = VirtualPtr.ofRef E.cfg s o from rfl, e] at h
      rw [← Res.ok.inj h]; exact hx
    · rw [show VirtualPtr.ofSmart E.cfg s (some o) = VirtualPtr.ofRef E.cfg s o from rfl, e] at h
      cases h
  | @final w poly st v hc hv h =>
    have hst : p.HasId st := by obtain ⟨cr, hcr, e, _⟩ := hv; exact ⟨cr, hcr, e⟩
    rcases R.final (o := o) (poly := poly) (h1.static hv) hst (by rintro o' ho'; obtain rfl := Option.some.inj ho'; exact .inl ⟨ho, hc.symm⟩) with
      ⟨x, e, hx, _⟩ | e
    · rw [h] at e; rw [Res.ok.inj e]; exact hx
    · rw [h] at e; cases e
  | copy _ h ih =>
    rw [ih.copy] at h
    rw [← Res.ok.inj h]; exact ih
  | @cast w w' c k _ hi h ih =>
    obtain ⟨b, q, rfl, hb⟩ := ih
    refine ⟨b, q, ?_, hb⟩
    have : VirtualPtr.cast c k ⟨.boxed b, .to o⟩ = .ok (some ⟨.boxed b, .to o⟩) := by
      unfold VirtualPtr.cast
      cases k <;> simp [VirtualPtr.copy, VirtualPtr.castObj, hi]
    rw [this] at h
    exact (Option.some.inj (Res.ok.inj h)).symm

/-- C34, when the records of a class share its `static_vptr`. -/
theorem C34_partial (hp : p.Good E.cfg) (h1 : OneVar p) (h : Initializes E p s s' rep) {o : Obj} (ho : p.HasId o.type) :
    ((∀ poly v, ClassVar p o.type v → ∃ w, VirtualPtr.final E.cfg s' poly o.type v (some o) = .ok w) ∧ ∃ w, VirtualPtr.ofRef E.cfg s' o = .ok w) ∧
    ∀ w, Chain E.cfg p s' o w → ∃ a, w.arg = .ok a ∧ ∀ m as bs types, call E.cfg s' m (as ++ a :: bs) types = call E.cfg s' m (as ++ .obj o.type :: bs) types := by
  obtain ⟨c, img, R0, _⟩ := init_ready hp h
  have R := R0.ptr
  refine ⟨⟨fun poly v hv => ?_, ?_⟩, fun w hw => ?_⟩
  · rcases R.final (o := o) (poly := poly) (h1.static hv) ho (by rintro o' ho'; obtain rfl := Option.some.inj ho'; exact .inl ⟨ho, rfl⟩) with ⟨x, e, _⟩ | e
    · exact ⟨x, e⟩
    · unfold VirtualPtr.final at e
      obtain ⟨q, hq⟩ := R.svptr o.type v ho (h1.static hv)
      simp [R.require, hq] at e
  · rcases R.ofRef (o := o) (.inl ho) with ⟨x, e, _⟩ | e
    · exact ⟨x, e⟩
    · obtain ⟨b, q, hb, _⟩ := R.make _ ho
      unfold VirtualPtr.ofRef at e
      rw [hb] at e; cases e
  · obtain ⟨a, ha, e⟩ := (chain_designates R h1 ho hw).arg R ho
    exact ⟨a, ha, fun m as bs types => call_arg e types⟩

/-- C34 does not hold when a class is registered by several modules that do not share its `static_vptr`: in the second one,
`final_virtual_ptr` uses a variable that was not set. -/
theorem C34_refuted : ¬ C34 := by
  intro h
  have hrun : (initOf (env mapped) twoVars .init).map (fun x => VirtualPtr.final mapped x.1 true 1 101 (some ⟨0, 1⟩)) = some .ub := by decide +kernel
  rw [Option.map_eq_some_iff] at hrun
  obtain ⟨⟨s1, rep⟩, h1, hrun⟩ := hrun
  obtain ⟨w, hw⟩ := (h (env mapped) twoVars .init s1 rep ⟨0, 1⟩ (good (by decide +kernel)) (initOf_eq h1) ⟨cls 1 [], by decide, rfl⟩).1 true 101
    ⟨{ cls 1 [] with staticVptr := 101 }, by decide, rfl, rfl⟩
  have hrun : VirtualPtr.final (env mapped).cfg s1 true 1 101 (some ⟨0, 1⟩) = .ub := hrun
  rw [hrun] at hw
  cases hw

/-! ## C35: virtual_ptr is consistent -/

/-- C35 in full: sequences of operations that meet the documented requirements do not dereference null pointers, and leave consistent
`virtual_ptr`s. -/
def C35 : Prop :=
  ∀ (E : Env) (X : PtrEnv) (p : Program) (s s' : RegState) (rep : Report) (ops : List PtrOp),
    X.cfg = E.cfg → p.Good E.cfg → Initializes E p s s' rep → (∀ op ∈ ops, op.Legal X p) →
    ∃ w, runPtrs X s' (fun _ => .nul) ops = .ok w ∧ ∀ i, Consistent p s' (w i)

/-- C35 for sequences that avoid the operations listed in `PtrOp.Safe`: these do not dereference null pointers, and leave consistent `virtual_ptr`s,
which can be used in calls instead of the object that they designate. -/
theorem C35_partial (he : X.cfg = E.cfg) (hp : p.Good E.cfg) (h : Initializes E p s s' rep) {w : Ptrs} (hw : PtrReach X p s' w) :
    (∀ i, Consistent p s' (w i)) ∧ (∀ op : PtrOp, op.Legal X p → op.Safe X p w → ∃ w' e, op.run X s' w = .ok (w', e)) ∧
    ∀ i o, (w i).obj = .to o → ∃ a, (w i).arg = .ok a ∧
      ∀ m as bs types, call E.cfg s' m (as ++ a :: bs) types = call E.cfg s' m (as ++ .obj o.type :: bs) types := by
  obtain ⟨c, img, R0, _⟩ := init_ready hp h
  have R := R0.ptr
  rw [← he] at R
  have hc := hw.consistent R
  refine ⟨hc, fun op hl hs => ?_, fun i o ho => ?_⟩
  · obtain ⟨w', e, h1, _⟩ := run_consistent R hc hl hs
    exact ⟨w', e, h1⟩
  · rcases hc i with hi | ⟨o', ht, hd⟩
    · rw [hi] at ho; cases ho
    · obtain ⟨b, q, e, _⟩ := id hd
      rw [e] at ho
      obtain rfl := ObjPtr.to.inj ho
      obtain ⟨a, ha, ea⟩ := hd.arg R ht
      rw [he] at ea
      exact ⟨a, ha, fun m as bs types => call_arg ea types⟩

/-- `virtual_ptr`s 0 and 1 are plain, 2 and 3 contain shared pointers, the others unique pointers. -/
def ptrs (cfg : Config) : PtrEnv :=
  { cfg := cfg, cxx20 := true, kind := fun i => if i < 2 then .plain else if i < 4 then .shared else .unique }

/-- The result of operations, after `initialize`. -/
def runAfter (p : Program) (ops : List PtrOp) (i : Nat) : Option (Res VirtualPtr) :=
  (initOf (env mapped) p .init).map fun x => do
    let w ← runPtrs (ptrs mapped) x.1 (fun _ => .nul) ops
    .ok (w i)

theorem runAfter_refutes (h : C35) {p : Program} {ops : List PtrOp} {i : Nat} {r : Res VirtualPtr} (hr : runAfter p ops i = some r)
    (hp : p.Good mapped) (hl : ∀ op ∈ ops, op.Legal (ptrs mapped) p) : ∃ s x, r = .ok x ∧ Consistent p s x := by
  unfold runAfter at hr
  rw [Option.map_eq_some_iff] at hr
  obtain ⟨⟨s1, rep⟩, h1, hr⟩ := hr
  obtain ⟨w, hw, hc⟩ := h (env mapped) (ptrs mapped) p .init s1 rep ops rfl hp (initOf_eq h1) hl
  dsimp only at hr
  rw [hw, Res.ok_bind] at hr
  exact ⟨s1, _, hr.symm, hc i⟩

theorem not_consistent_null {b : Boxed} : ¬ Consistent p s ⟨.boxed b, .null⟩ := by
  rintro (e | ⟨o, _, _, _, e, _⟩) <;> cases e

theorem not_consistent_obj {o : Obj} : ¬ Consistent p s ⟨.null, .to o⟩ := by
  rintro (e | ⟨o, _, _, _, e, _⟩) <;> cases e

/-- An object of class 1 of `gap`, and an object of class 2, which is not registered. -/
def one : Obj := ⟨7, 1⟩
def two : Obj := ⟨8, 2⟩

theorem one_known : Known mapped gap one.type := .inl ⟨cls 1 [], by decide, rfl⟩

/-- A null pointer is dereferenced by the constructor from a pointer and by the assignment from a pointer. -/
theorem C35_null_refuted : runAfter gap [.construct 0 (.pointer none)] 0 = some .ub ∧ runAfter gap [.assign 0 (.object none)] 0 = some .ub := by
  decide +kernel

/-- Likewise by the assignment from a null smart pointer, although the constructor and the assignment by rvalue reference accept it. -/
theorem C35_smart_refuted : runAfter gap [.assign 2 (.smart none)] 2 = some .ub ∧ runAfter gap [.construct 2 (.smart none)] 2 = some (.ok .nul) ∧
    runAfter gap [.assign 2 (.smartMove none)] 2 = some (.ok .nul) := by
  decide +kernel

/-- `std::move(q).cast<…>()` leaves the v-table pointer in `q`. -/
theorem C35_cast_refuted : runAfter gap [.construct 4 (.smart (some one)), .construct 5 (.castMove 4 ⟨true, true⟩)] 4 =
    some (.ok ⟨.boxed (.direct (some ⟨1, 0⟩)), .null⟩) := by
  decide +kernel

/-- A failed cast of a shared pointer has a v-table pointer and no object. -/
theorem C35_failed_cast_refuted : runAfter gap [.construct 2 (.smart (some one)), .construct 3 (.cast 2 ⟨true, false⟩)] 3 =
    some (.ok ⟨.boxed (.direct (some ⟨1, 0⟩)), .null⟩) := by
  decide +kernel

/-- An assignment that reports an error assigns the object, and not the v-table pointer: the `virtual_ptr` now designates an object of class 2
and the v-table of class 1. -/
theorem C35_error_refuted : runAfter gap [.construct 0 (.ref one), .assign 0 (.object (some two))] 0 =
    some (.ok ⟨.boxed (.direct (some ⟨1, 0⟩)), .to two⟩) := by
  decide +kernel

/-- `final_virtual_ptr` dereferences a null smart pointer. -/
theorem C35_final_refuted : runAfter gap [.construct 2 (.final none true 1 1)] 2 = some .ub ∧
    runAfter gap [.construct 2 (.final none false 1 1)] 2 = some (.ok ⟨.boxed (.direct (some ⟨1, 0⟩)), .null⟩) := by
  decide +kernel

/-- C35 does not hold: any of the above shows it. -/
theorem C35_refuted : ¬ C35 := by
  intro h
  obtain ⟨s, x, e, hx⟩ := runAfter_refutes h C35_cast_refuted (good (by decide +kernel)) (by
    intro op hop
    simp only [List.mem_cons, List.not_mem_nil, or_false] at hop
    rcases hop with rfl | rfl
    · refine ⟨by decide, fun o ho => ?_⟩
      obtain rfl := Option.some.inj ho
      exact one_known
    · exact ⟨by decide, by decide, by decide, .inl rfl⟩)
  rw [← Res.ok.inj e] at hx
  exact not_consistent_null hx

/-- The default constructors: a plain `virtual_ptr` cannot be used before it is assigned, a smart one is null. Other `virtual_ptr`s are not affected. -/
theorem C35_default (X : PtrEnv) (s : RegState) (w : Ptrs) (i : Nat) :
    ∃ w', constructPtr X s w i .default = .ok (w', .returned) ∧ (∀ j, j ≠ i → w' j = w j) ∧
      ((X.kind i).smart = true → (w' i).vp = .null ∧ (w' i).obj = .null) ∧
      ((X.kind i).smart = false → (w' i).arg = .ub ∧ ∀ k,
        (∀ src, (src = .copy i ∨ src = .move i ∨ ∃ c, src = .cast i c ∨ src = .castMove i c) → constructPtr X s w' k src = .ub) ∧
        ∀ src, (src = .copy i ∨ src = .move i) → assignPtr X s w' k src = .ub) := by
  refine ⟨_, rfl, fun j hj => Function.update_of_ne hj _ _, fun h => ?_, fun h => ?_⟩
  · rw [Function.update_self]
    cases hk : X.kind i <;> rw [hk] at h <;> first | exact ⟨rfl, rfl⟩ | cases h
  · have hk : X.kind i = .plain := by
      cases hk : X.kind i <;> rw [hk] at h <;> first | rfl | cases h
    have hc : (Function.update w i (VirtualPtr.default (X.kind i)) i).copy = .ub := by rw [Function.update_self, hk]; rfl
    refine ⟨by rw [Function.update_self, hk]; rfl, fun k => ⟨?_, ?_⟩⟩
    · rintro src (rfl | rfl | ⟨c, rfl | rfl⟩)
      · simp only [constructPtr, hc]; rfl
      · simp only [constructPtr, movePtr, hc]; rfl
      · simp only [constructPtr, VirtualPtr.cast, hc]; rfl
      · simp only [constructPtr, VirtualPtr.cast, hc]; rfl
    · rintro src (rfl | rfl)
      · simp only [assignPtr, hc]; rfl
      · simp only [assignPtr, movePtr, hc]; rfl

/-- Both kinds occur; an assignment makes the plain one usable. -/
example : (ptrs mapped).kind 0 = .plain ∧ ((ptrs mapped).kind 2).smart = true ∧
    runAfter gap [.construct 0 .default, .construct 1 (.copy 0)] 1 = some .ub ∧
    (runAfter gap [.construct 0 .default, .assign 0 (.object (some one)), .construct 1 (.copy 0)] 1).isSome ∧
    runAfter gap [.construct 0 .default, .assign 0 (.object (some one)), .construct 1 (.copy 0)] 1 ≠ some .ub := by decide +kernel

/-! ## C36: final_virtual_ptr -/

/-- C36 in full. -/
def C36 : Prop :=
  ∀ (E : Env) (p : Program) (s s' : RegState) (rep : Report) (o : Obj) (st : TypeId) (v : VarId),
    p.Good E.cfg → Initializes E p s s' rep → E.cfg.checks = true → p.HasId o.type → p.HasId st → p.StaticVar (p.rtti.ti st) v →
    (VirtualPtr.final E.cfg s' true st v (some o) = .err (.finalError st o.type) ↔ p.rtti.ti o.type ≠ p.rtti.ti st) ∧
    (p.rtti.ti o.type = p.rtti.ti st → ∃ w a, VirtualPtr.final E.cfg s' true st v (some o) = .ok w ∧ w.arg = .ok a ∧
      argPtr E.cfg s' a = argPtr E.cfg s' (.obj o.type))

/-- What is checked: type ids, not classes. -/
theorem C36_actual (hp : p.Good E.cfg) (h : Initializes E p s s' rep) (hk : E.cfg.checks = true) {o : Obj} {st : TypeId} {v : VarId} (hst : p.HasId st)
    (hv : p.StaticVar (p.rtti.ti st) v) :
    (VirtualPtr.final E.cfg s' true st v (some o) = .err (.finalError st o.type) ↔ o.type ≠ st) ∧
    (o.type = st → ∃ w a, VirtualPtr.final E.cfg s' true st v (some o) = .ok w ∧ w.arg = .ok a ∧ argPtr E.cfg s' a = argPtr E.cfg s' (.obj o.type)) := by
  obtain ⟨c, img, R0, _⟩ := init_ready hp h
  have R := R0.ptr
  have hno : o.type = st → ∃ w, VirtualPtr.final E.cfg s' true st v (some o) = .ok w ∧ Designates p s' o w := by
    intro e
    rcases R.final (o := o) (poly := true) hv hst (fun _ _ => .inr ⟨hk, rfl⟩) with ⟨x, e1, hx, _⟩ | e1
    · exact ⟨x, e1, hx⟩
    · unfold VirtualPtr.final at e1
      obtain ⟨q, hq⟩ := R.svptr st v hst hv
      simp [R.require, hq, e] at e1
  refine ⟨⟨fun e1 e => ?_, fun e => ?_⟩, fun e => ?_⟩
  · obtain ⟨x, ex, _⟩ := hno e
    rw [ex] at e1; cases e1
  · unfold VirtualPtr.final
    simp [R.require, hk, e]
  · obtain ⟨x, ex, hx⟩ := hno e
    obtain ⟨a, ha, ea⟩ := hx.arg R (by rw [e]; exact hst)
    exact ⟨x, a, ex, ha, ea⟩

/-- C36, for classes that have one type id. -/
theorem C36_partial (hp : p.Good E.cfg) (h : Initializes E p s s' rep) (hk : E.cfg.checks = true) {o : Obj} {st : TypeId} {v : VarId} (hst : p.HasId st)
    (hv : p.StaticVar (p.rtti.ti st) v) (hid : p.rtti.ti o.type = p.rtti.ti st → o.type = st) :
    (VirtualPtr.final E.cfg s' true st v (some o) = .err (.finalError st o.type) ↔ p.rtti.ti o.type ≠ p.rtti.ti st) ∧
    (p.rtti.ti o.type = p.rtti.ti st → ∃ w a, VirtualPtr.final E.cfg s' true st v (some o) = .ok w ∧ w.arg = .ok a ∧
      argPtr E.cfg s' a = argPtr E.cfg s' (.obj o.type)) := by
  obtain ⟨h1, h2⟩ := C36_actual (o := o) hp h hk hst hv
  exact ⟨h1.trans ⟨fun h e => h (hid e), fun h e => h (by rw [e])⟩, fun e => h2 (hid e)⟩

/-- C36 does not hold for a class that has several type ids. -/
theorem C36_refuted : ¬ C36 := by
  intro h
  have hrun : (initOf (env plain) twoIds .init).map (fun x => VirtualPtr.final plain x.1 true 2 2 (some ⟨0, 13⟩)) = some (.err (.finalError 2 13)) := by decide +kernel
  rw [Option.map_eq_some_iff] at hrun
  obtain ⟨⟨s1, rep⟩, h1, hrun⟩ := hrun
  have hid : twoIds.HasId 2 := ⟨cls 2 [1], by decide, rfl⟩
  have hid' : twoIds.HasId 13 := ⟨{ cls 2 [1] with type := 13 }, by decide, rfl⟩
  have := (h (env plain) twoIds .init s1 rep ⟨0, 13⟩ 2 2 (good (by decide +kernel)) (initOf_eq h1) rfl hid' hid (by unfold Program.StaticVar; decide)).1.1 hrun
  exact this (by decide)

/-! ## The hypotheses are met -/

/-- A chain: reference, copy, cast. -/
example : OneVar zoo := by unfold OneVar; decide
/-- A reference to an object of class 4, a copy, and a cast. -/
example : ∃ s' rep w, Initializes (env mapped) zoo .init s' rep ∧ Chain mapped zoo s' ⟨0, 4⟩ w := by
  have hrun : (initOf (env mapped) zoo .init).map (fun x => VirtualPtr.ofRef mapped x.1 ⟨0, 4⟩ >>= VirtualPtr.copy >>= VirtualPtr.cast ⟨false, true⟩ .plain) ≠ none := by decide +kernel
  cases hi : initOf (env mapped) zoo .init with
  | none => rw [hi] at hrun; exact absurd rfl hrun
  | some x =>
    obtain ⟨⟨_, w, hw⟩, _⟩ := C34_partial (o := ⟨0, 4⟩) (good (by decide +kernel)) (by unfold OneVar; decide) (initOf_eq hi) ⟨cls 4 [2, 1], by decide, rfl⟩
    obtain ⟨c, img, R, _⟩ := init_ready (E := env mapped) (good (by decide +kernel)) (initOf_eq hi)
    have hd := chain_designates R.ptr (by unfold OneVar; decide) (o := ⟨0, 4⟩) ⟨cls 4 [2, 1], by decide, rfl⟩ (.ref hw)
    exact ⟨x.1, x.2, w, initOf_eq hi, (Chain.ref hw).copy hd.copy⟩

/-- Several operations, and the resulting `virtual_ptr`. -/
example : runAfter zoo [.construct 2 (.final (some ⟨0, 4⟩) true 4 4), .construct 3 (.move 2), .construct 0 (.copy 3), .assign 1 (.copy 0), .construct 2 (.cast 3 ⟨true, true⟩),
    .assign 3 .nullptr] 1 =
    (initOf (env mapped) zoo .init).map (fun x => VirtualPtr.ofRef mapped x.1 ⟨0, 4⟩) := by decide +kernel

/-- `final_virtual_ptr` with an object of class 4 as class 4 and as class 2. -/
example : (initOf (env mapped) zoo .init).map (fun x => isOk (VirtualPtr.final mapped x.1 true 4 4 (some ⟨0, 4⟩))) = some true ∧
    (initOf (env mapped) zoo .init).map (fun x => VirtualPtr.final mapped x.1 true 2 2 (some ⟨0, 4⟩)) = some (.err (.finalError 2 4)) := by decide +kernel

end OpenMethod.Props

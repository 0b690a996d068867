import Verif.SpecStatements
import Verif.Proof.VirtualPtr
import Verif.Proof.Conversions
import Verif.Proof.Params

/-! # Lemmas about the statements that give values to virtual pointers -/

namespace OpenMethod

open Cpp

variable {p : Program} {s : RegState} {cfg : Config} {X : PtrEnv} {w w' : Ptrs} {i j : Nat} {q : ObjPtr} {T : PtrTypes} {C : VirtualPtr → Prop}

/-- An invariant of virtual pointers. -/
structure Okay (p : Program) (s : RegState) (C : VirtualPtr → Prop) : Prop where
  nul : C .nul
  designates : ∀ {o x}, p.HasId o.type → Designates p s o x → C x
  copy : ∀ {x}, C x → x.copy = .ok x

theorem okay_consistent : Okay p s (Consistent p s) := ⟨consistent_nul, fun ho h => .inr ⟨_, ho, h⟩, fun h => h.copy⟩

/-- Variable `i` designates `q`, and no other variable has changed, except those in `lost`, which are null. -/
def Sets (C : VirtualPtr → Prop) (w w' : Ptrs) (i : Nat) (q : ObjPtr) (lost : Nat → Prop) : Prop :=
  (w' i).obj = q ∧ C (w' i) ∧ ∀ k, k ≠ i → (lost k → w' k = .nul) ∧ (¬ lost k → w' k = w k)

theorem sets_update {x : VirtualPtr} (hx : C x) (hq : x.obj = q) : Sets C w (Function.update w i x) i q fun _ => False := by
  refine ⟨by rw [Function.update_self, hq], by rw [Function.update_self]; exact hx, fun k hk => ⟨nofun, fun _ => ?_⟩⟩
  rw [Function.update_of_ne hk]

theorem Sets.to_designated {x : VirtualPtr} {o : Obj} (h : Designates p s o x) : x.obj = .to o := by
  obtain ⟨b, q, rfl, _⟩ := h
  rfl

theorem run_null (O : Okay p s C) : ∃ w', (PtrOp.construct i .nullptr).run X s w = .ok (w', .returned) ∧ Sets C w w' i .null fun _ => False :=
  ⟨_, rfl, sets_update O.nul rfl⟩

theorem run_ref (O : Okay p s C) (R : PtrReady X.cfg p s) {o : Obj} (ho : p.HasId o.type) :
    ∃ w', (PtrOp.construct i (.ref o)).run X s w = .ok (w', .returned) ∧ Sets C w w' i (.to o) fun _ => False := by
  obtain ⟨b, q, hb, hu, hq⟩ := R.make _ ho
  refine ⟨_, ?_, sets_update (x := ⟨.boxed b, .to o⟩) (O.designates ho ⟨b, q, rfl, hu, hq⟩) rfl⟩
  simp [PtrOp.run, constructPtr, VirtualPtr.ofRef, hb, constructPtr.made]

theorem run_smart (O : Okay p s C) (R : PtrReady X.cfg p s) {q : Option Obj} (ho : ∀ o ∈ q, p.HasId o.type) :
    ∃ w', (PtrOp.construct i (.smart q)).run X s w = .ok (w', .returned) ∧ Sets C w w' i (.ofOption q) fun _ => False := by
  cases q with
  | none => exact ⟨_, rfl, sets_update O.nul rfl⟩
  | some o => exact run_ref O R (ho o rfl)

theorem run_copy (O : Okay p s C) (hw : ∀ k, C (w k)) : ∃ w', (PtrOp.construct i (.copy j)).run X s w = .ok (w', .returned) ∧ Sets C w w' i (w j).obj fun _ => False := by
  refine ⟨_, ?_, sets_update (hw j) rfl⟩
  simp [PtrOp.run, constructPtr, O.copy (hw j), constructPtr.made]

theorem movePtr_sets (O : Okay p s C) (hw : ∀ k, C (w k)) {k : PtrKind} (hk : k.smart = true) :
    ∃ w', movePtr k w i j = .ok w' ∧ Sets C w w' i (w j).obj fun k => k = j := by
  unfold movePtr
  rw [O.copy (hw j), Res.ok_bind, if_pos hk]
  refine ⟨_, rfl, by rw [Function.update_self], by rw [Function.update_self]; exact hw j, fun k hk => ⟨?_, fun h => ?_⟩⟩
  · rintro rfl
    rw [Function.update_of_ne hk, Function.update_self]
  · rw [Function.update_of_ne hk, Function.update_of_ne h]

theorem run_move (O : Okay p s C) (hw : ∀ k, C (w k)) (hk : (X.kind i).smart = true) :
    ∃ w', (PtrOp.construct i (.move j)).run X s w = .ok (w', .returned) ∧ Sets C w w' i (w j).obj fun k => k = j := by
  obtain ⟨w', h, hs⟩ := movePtr_sets (i := i) (j := j) O hw hk
  exact ⟨w', by simp [PtrOp.run, constructPtr, h], hs⟩

theorem run_final (O : Okay p s C) (R : PtrReady X.cfg p s) {o : Obj} {poly : Bool} {st : TypeId} {v : VarId} (hv : p.StaticVar (p.rtti.ti st) v) (ho : p.HasId o.type) (hst : o.type = st) :
    ∃ w', (PtrOp.construct i (.final (some o) poly st v)).run X s w = .ok (w', .returned) ∧ Sets C w w' i (.to o) fun _ => False := by
  subst hst
  rcases R.final (o := o) (poly := poly) hv ho (by rintro o' ho'; obtain rfl := Option.some.inj ho'; exact .inl ⟨ho, rfl⟩) with ⟨x, h1, h2, _⟩ | h1
  · exact ⟨_, by simp [PtrOp.run, constructPtr, h1, constructPtr.made], sets_update (O.designates ho h2) (Sets.to_designated h2)⟩
  · unfold VirtualPtr.final at h1
    obtain ⟨q, hq⟩ := R.svptr o.type v ho hv
    simp [R.require, hq] at h1

theorem assign_null (O : Okay p s C) : ∃ w', (PtrOp.assign i .nullptr).run X s w = .ok (w', .returned) ∧ Sets C w w' i .null fun _ => False :=
  ⟨_, rfl, sets_update O.nul rfl⟩

theorem assigned_object (O : Okay p s C) (R : PtrReady X.cfg p s) {o : Obj} (ho : p.HasId o.type) :
    ∃ w', assignPtr.assigned w i (VirtualPtr.assignObject X.cfg s (w i) (some o)) = .ok (w', .returned) ∧ Sets C w w' i (.to o) fun _ => False := by
  obtain ⟨b, q, hb, hu, hq⟩ := R.make _ ho
  refine ⟨_, ?_, sets_update (x := ⟨.boxed b, .to o⟩) (O.designates ho ⟨b, q, rfl, hu, hq⟩) rfl⟩
  simp [VirtualPtr.assignObject, hb, assignPtr.assigned]

theorem assign_move_smart (O : Okay p s C) (R : PtrReady X.cfg p s) {q : Option Obj} (ho : ∀ o ∈ q, p.HasId o.type) :
    ∃ w', (PtrOp.assign i (.smartMove q)).run X s w = .ok (w', .returned) ∧ Sets C w w' i (.ofOption q) fun _ => False := by
  cases q with
  | none => exact ⟨_, rfl, sets_update O.nul rfl⟩
  | some o =>
    obtain ⟨b, q, hb, hu, hq⟩ := R.make _ (ho o rfl)
    refine ⟨_, ?_, sets_update (x := ⟨.boxed b, .to o⟩) (O.designates (ho o rfl) ⟨b, q, rfl, hu, hq⟩) rfl⟩
    simp [PtrOp.run, assignPtr, VirtualPtr.assignSmartMove, hb, assignPtr.assigned]

theorem assign_copy (O : Okay p s C) (hw : ∀ k, C (w k)) : ∃ w', (PtrOp.assign i (.copy j)).run X s w = .ok (w', .returned) ∧ Sets C w w' i (w j).obj fun _ => False := by
  refine ⟨_, ?_, sets_update (hw j) rfl⟩
  simp [PtrOp.run, assignPtr, O.copy (hw j)]

theorem assign_move (O : Okay p s C) (hw : ∀ k, C (w k)) (hk : (X.kind i).smart = true) :
    ∃ w', (PtrOp.assign i (.move j)).run X s w = .ok (w', .returned) ∧ Sets C w w' i (w j).obj fun k => k = j := by
  obtain ⟨w', h, hs⟩ := movePtr_sets (i := i) (j := j) O hw hk
  exact ⟨w', by simp [PtrOp.run, assignPtr, h], hs⟩

theorem runOps_one {op : PtrOp} {r : Ptrs × VirtualPtr.End} (h : op.run X s w = .ok r) : runOps X s w [op] = .ok r := by
  obtain ⟨w', e⟩ := r
  simp only [runOps, h, Res.ok_bind]
  split
  · rename_i he; cases he; rfl
  · rfl

theorem runOps_two {a b : PtrOp} {r : Ptrs × VirtualPtr.End} (h : a.run X s w = .ok (w', .returned)) (h' : b.run X s w' = .ok r) : runOps X s w [a, b] = .ok r := by
  have := runOps_one h'
  simp only [runOps, h, Res.ok_bind] at this ⊢
  exact this

theorem Held.kind_smart {k : Smart} {t : Elem} : (Held.smart k t).kind.smart = true := by cases k <;> rfl

/-- `Gives`, in terms of `Sets`. -/
theorem Sets.gives {n : Nat} {st : Statement} {lost : Nat → Prop} (h : Sets C w w' st.target (st.operand.designated w) lost)
    (hl : ∀ k, lost k ↔ st.operand = .vptr k ∧ st.cat = .rvalue ∧ ∃ q t, T.type st.target = .smart q t) : GivesBy C T w w' n st := by
  refine ⟨h.1, h.2.1, fun k hk _ => ?_⟩
  rw [← hl k]
  exact h.2.2 k hk

/-- The operations that statements consist of. -/
inductive OpsOf (T : PtrTypes) (n : Nat) : Form → Nat → Operand → Cat → List PtrOp → Prop
  | null {f i c} (hf : f ≠ .assign) : OpsOf T n f i .null c [.construct i .nullptr]
  | null_assign {i c} : OpsOf T n .assign i .null c [.assign i .nullptr]
  | object {f i k o c t} (hf : f ≠ .assign) (ht : T.type i = .plain t) : OpsOf T n f i (.object k o) c [.construct i (.ref o)]
  | object_assign {i k o c t} (ht : T.type i = .plain t) : OpsOf T n .assign i (.object k o) c [.assign i (.object (some o))]
  | object_temporary {i k o c t} (ht : T.type i = .plain t) : OpsOf T n .assign i (.object k o) c [.construct n (.ref o), .assign i (.copy n)]
  | pointer {f i e q c t} (hf : f ≠ .assign) (ht : T.type i = .plain t) : OpsOf T n f i (.pointer e q) c [.construct i (.pointer q)]
  | pointer_assign {i e q c t} (ht : T.type i = .plain t) : OpsOf T n .assign i (.pointer e q) c [.assign i (.object q)]
  | copy {f i j c} (hf : f ≠ .assign) (ht : c = .rvalue → ∃ t, T.type i = .plain t) : OpsOf T n f i (.vptr j) c [.construct i (.copy j)]
  | copy_assign {i j c} (ht : c = .rvalue → ∃ t, T.type i = .plain t) : OpsOf T n .assign i (.vptr j) c [.assign i (.copy j)]
  | move {f i j k t} (hf : f ≠ .assign) (ht : T.type i = .smart k t) : OpsOf T n f i (.vptr j) .rvalue [.construct i (.move j)]
  | move_assign {i j k t} (ht : T.type i = .smart k t) : OpsOf T n .assign i (.vptr j) .rvalue [.assign i (.move j)]
  | smart {f i k e q c t} (hf : f ≠ .assign) (ht : T.type i = .smart k t) : OpsOf T n f i (.smart k e q) c [.construct i (.smart q)]
  | smart_assign {i k e q c t} (hc : c ≠ .rvalue) (ht : T.type i = .smart k t) : OpsOf T n .assign i (.smart k e q) c [.assign i (.smart q)]
  | smart_move {i k e q t} (ht : T.type i = .smart k t) : OpsOf T n .assign i (.smart k e q) .rvalue [.assign i (.smartMove q)]

/-- What is accepted consists of these operations. -/
theorem ops_of (hf : T.Fits p) {n : Nat} {f : Form} {i : Nat} {x : Operand} {c : Cat} (ha : (T.cpp.resolved f (T.type i) T.reg (x.given T) c).ok = true) :
    ∃ l, T.ops n (.give f i x c) = some l ∧ OpsOf T n f i x c l := by
  have hd := hf.defined i
  simp only [PtrTypes.ops]
  rw [resolved_table hf.wf hd] at ha ⊢
  cases ht : T.type i with
  | plain t =>
    rw [ht] at ha
    rw [convert_plain]
    cases x with
    | object k o =>
      simp only [Operand.given, table, plainTable] at ha ⊢
      split at ha
      · rename_i h1
        simp only [if_pos h1]
        split at ha
        · rename_i h2
          obtain ⟨rfl, h2⟩ := h2
          simp only [h2, and_self, if_true]
          exact ⟨_, rfl, .object_assign ht⟩
        · split at ha
          · rename_i h2 h3
            simp only [if_neg h2, if_pos h3]
            cases f
            · exact ⟨_, rfl, .object nofun ht⟩
            · exact ⟨_, rfl, .object nofun ht⟩
            · exact ⟨_, rfl, .object_temporary ht⟩
          · cases ha
      · cases ha
    | pointer e q =>
      simp only [Operand.given, table, plainTable] at ha ⊢
      split at ha
      · rename_i h1
        simp only [if_pos h1]
        cases f
        · exact ⟨_, rfl, .pointer nofun ht⟩
        · exact ⟨_, rfl, .pointer nofun ht⟩
        · exact ⟨_, rfl, .pointer_assign ht⟩
      · cases ha
    | smart k e q => cases ha
    | vptr j =>
      simp only [Operand.given, table, plainTable] at ha ⊢
      split at ha
      · rename_i h1
        simp only [if_pos h1]
        cases f
        · exact ⟨_, rfl, .copy nofun fun _ => ⟨t, ht⟩⟩
        · exact ⟨_, rfl, .copy nofun fun _ => ⟨t, ht⟩⟩
        · exact ⟨_, rfl, .copy_assign fun _ => ⟨t, ht⟩⟩
      · cases ha
    | null =>
      simp only [Operand.given, table, plainTable] at ha ⊢
      split at ha
      · cases ha
      · rename_i h1
        simp only [if_neg h1]
        cases f
        · exact absurd rfl h1
        · exact ⟨_, rfl, .null nofun⟩
        · exact ⟨_, rfl, .null_assign⟩
  | smart k t =>
    rw [ht] at ha
    cases x with
    | object k o => cases ha
    | pointer e q => cases ha
    | smart l e q =>
      simp only [Operand.given, table, smartTable] at ha ⊢
      split at ha
      · rename_i h1
        simp only [if_pos h1]
        obtain ⟨rfl, _⟩ := h1
        by_cases hc : c = .rvalue
        · subst hc
          cases f
          · exact ⟨_, rfl, .smart nofun ht⟩
          · exact ⟨_, rfl, .smart nofun ht⟩
          · exact ⟨_, rfl, .smart_move ht⟩
        · simp only [if_neg hc]
          cases f
          · exact ⟨_, rfl, .smart nofun ht⟩
          · exact ⟨_, rfl, .smart nofun ht⟩
          · exact ⟨_, rfl, .smart_assign hc ht⟩
      · cases ha
    | vptr j =>
      have hy : T.cpp.table f (.smart k t) T.reg ((Operand.vptr j).given T) c = .found (if c = .rvalue then .move else .copy) .direct := by
        simp only [Operand.given, table, smartTable] at ha ⊢
        split at ha
        · rename_i h1
          simp only [if_pos h1]
          split at ha
          · cases ha
          · rename_i h2
            simp only [if_neg h2]
        · rename_i h1
          simp only [if_neg h1]
          split at ha
          · split at ha
            · rename_i h2
              simp only [if_pos h2]
            · cases ha
          · cases ha
      rw [hy]
      by_cases hc : c = .rvalue
      · subst hc
        cases f
        · exact ⟨_, rfl, .move nofun ht⟩
        · exact ⟨_, rfl, .move nofun ht⟩
        · exact ⟨_, rfl, .move_assign ht⟩
      · simp only [if_neg hc]
        cases f
        · exact ⟨_, rfl, .copy nofun fun h => absurd h hc⟩
        · exact ⟨_, rfl, .copy nofun fun h => absurd h hc⟩
        · exact ⟨_, rfl, .copy_assign fun h => absurd h hc⟩
    | null =>
      simp only [Operand.given, table, smartTable] at ha ⊢
      split at ha
      · cases ha
      · rename_i h1
        simp only [if_neg h1]
        cases f
        · exact absurd rfl h1
        · exact ⟨_, rfl, .null nofun⟩
        · exact ⟨_, rfl, .null_assign⟩

theorem ok_of_ops {n : Nat} {f : Form} {i : Nat} {x : Operand} {c : Cat} {l : List PtrOp} (h : T.ops n (.give f i x c) = some l) :
    (T.cpp.resolved f (T.type i) T.reg (x.given T) c).ok = true := by
  simp only [PtrTypes.ops] at h
  cases hr : T.cpp.resolved f (T.type i) T.reg (x.given T) c with
  | found o p => rfl
  | _ => rw [hr] at h; cases h

end OpenMethod

import Verif.SpecWorld
import Verif.Proof.History

/-! # Independence of registries -/

namespace OpenMethod

open Spec

/-! ## The vptr policy only refers to variables of its registry -/

/-- All variables stored by the policy satisfy `P`. -/
structure VptrState.Vars (P : VarId → Prop) (s : VptrState) : Prop where
  vec : ∀ v, Stored.indirect v ∈ s.vec → P v
  map : ∀ t v, (t, Stored.indirect v) ∈ s.map → P v

theorem storeVec_vars {cfg : Config} {h : HashState} {P : VarId → Prop} (l : List (TypeId × Stored)) (hl : ∀ t v, (t, Stored.indirect v) ∈ l → P v) :
    ∀ (a b : List Stored), (∀ v, Stored.indirect v ∈ a → P v) → l.foldlM (storeVec cfg h) a = .ok b → ∀ v, Stored.indirect v ∈ b → P v := by
  induction l with
  | nil =>
    intro a b ha hab
    obtain rfl := Res.ok.inj hab
    exact ha
  | cons x l ih =>
    intro a b ha hab
    rw [List.foldlM_cons, Res.bind_eq_ok] at hab
    obtain ⟨a', h1, h2⟩ := hab
    refine ih (fun t v hv => hl t v (by simp [hv])) a' b ?_ h2
    unfold storeVec at h1
    rw [Res.bind_eq_ok] at h1
    obtain ⟨i, _, h1⟩ := h1
    split at h1
    · obtain rfl := Res.ok.inj h1
      intro v hv
      rcases List.mem_or_eq_of_mem_set hv with hv | hv
      · exact ha v hv
      · exact hl x.1 v (by rw [hv]; simp)
    · cases h1

theorem ctxPairs_vars {cfg : Config} {mem : VarId → Option Ptr} {cs : List CtxClass} {P : VarId → Prop} (hcs : ∀ c ∈ cs, P c.var) :
    ∀ t v, (t, Stored.indirect v) ∈ ctxPairs cfg mem cs → P v := by
  intro t v h
  obtain ⟨c, hc, _, e⟩ := of_mem_ctxPairs h
  simp only [storedFor] at e
  split at e
  · obtain rfl := Stored.indirect.inj e
    exact hcs c hc
  · cases e

theorem fillVec_vars {cfg : Config} {mem : VarId → Option Ptr} {cs : List CtxClass} {P : VarId → Prop} (hcs : ∀ c ∈ cs, P c.var) {s : VptrState}
    (hs : s.Vars P) {n : Nat} {r : VptrResult} (h : fillVec cfg mem cs s n = .ok r) : r.state.Vars P := by
  unfold fillVec at h
  rw [Res.bind_eq_ok] at h
  obtain ⟨v, h1, h⟩ := h
  obtain rfl := Res.ok.inj h
  refine ⟨storeVec_vars _ (ctxPairs_vars hcs) _ _ ?_ h1, hs.map⟩
  intro v hv
  unfold resize at hv
  rw [List.mem_append] at hv
  rcases hv with hv | hv
  · exact hs.vec v (List.mem_of_mem_take hv)
  · have := List.eq_of_mem_replicate hv; cases this

theorem vptrInit_vars {cfg : Config} {rnd : Nat → BitVec 64} {mem : VarId → Option Ptr} {cs : List CtxClass} {P : VarId → Prop} (hcs : ∀ c ∈ cs, P c.var)
    {s : VptrState} (hs : s.Vars P) {r : VptrResult} (h : vptrInit cfg rnd mem cs s = .ok r) : r.state.Vars P := by
  unfold vptrInit at h
  split at h
  · split at h
    · rw [Res.bind_eq_ok] at h
      obtain ⟨x, _, h⟩ := h
      cases x with
      | found hs' => exact fillVec_vars hcs (s := { s with hash := hs' }) ⟨hs.vec, hs.map⟩ h
      | failed a b hs' => obtain rfl := Res.ok.inj h; exact ⟨hs.vec, hs.map⟩
    · exact fillVec_vars hcs hs h
  · obtain rfl := Res.ok.inj h
    refine ⟨hs.vec, ?_⟩
    have : ∀ (l m : List (TypeId × Stored)), (∀ t v, (t, Stored.indirect v) ∈ l → P v) → (∀ t v, (t, Stored.indirect v) ∈ m → P v) →
        ∀ t v, (t, Stored.indirect v) ∈ l.foldl (fun m x => if m.any (fun y => y.1 == x.1) then m else m ++ [x]) m → P v := by
      intro l
      induction l with
      | nil => intro m _ hm; exact hm
      | cons x l ih =>
        intro m hl hm
        rw [List.foldl_cons]
        refine ih _ (fun t v hv => hl t v (by simp [hv])) ?_
        split
        · exact hm
        · intro t v hv
          rw [List.mem_append, List.mem_singleton] at hv
          rcases hv with hv | hv
          · exact hm t v hv
          · exact hl t v (by simp [hv])
    exact this _ [] (ctxPairs_vars hcs) (by simp)

theorem vptrFinalize_vars {cfg : Config} {P : VarId → Prop} {s : VptrState} (hs : s.Vars P) : (vptrFinalize cfg s).Vars P := by
  unfold vptrFinalize
  refine ⟨?_, ?_⟩
  · intro v hv
    dsimp only at hv
    split at hv
    · simp at hv
    · exact hs.vec v hv
  · intro t v hv
    dsimp only at hv
    split at hv
    · exact hs.map t v hv
    · simp at hv

/-! ## What `initialize` writes -/

/-- The state after `initialize`, successful or not, differs in the variables named in the registrations. -/
theorem init_frame {E : Env} {p : Program} {s : RegState} {r : InitOut} (hp : p.Good E.cfg) (h : initRegistry E p s = .ok r) :
    (∀ v, (∀ cr ∈ p.classes, cr.staticVptr ≠ v) → r.state.svptr v = s.svptr v) ∧
    (∀ id, (∀ m ∈ p.methods, m.id ≠ id) → r.state.ss id = s.ss id) ∧
    (∀ v, (∀ m ∈ p.methods, ∀ o ∈ m.overriders, o.next ≠ v) → r.state.next v = s.next v) ∧
    ∀ P : VarId → Prop, (∀ cr ∈ p.classes, P cr.staticVptr) → s.vptr.Vars P → r.state.vptr.Vars P := by
  rcases init_cases E p s with h0 | ⟨e, _, h0⟩ | ⟨c, hc, h0⟩
  · rw [h0] at h; cases h
  · rw [h0] at h
    obtain rfl := Res.ok.inj h
    exact ⟨fun _ _ => rfl, fun _ _ => rfl, fun _ _ => rfl, fun P _ h => h⟩
  have C := compile_ok hp.valid.acyclic hp.valid.wf hc
  obtain ⟨bases, img, hw, I⟩ := writeGlobal_ok C s.fresh
  have hctx := ctxOk (cfg := E.cfg) C.lat hp.ids
  have hL := compile_lattice hc
  rcases h0 with ⟨e, he⟩ | ⟨img', hw', h0⟩
  · rw [hw] at he; cases he
  obtain rfl := Res.ok.inj (hw.symm.trans hw')
  rcases h0 with ⟨e, he⟩ | ⟨v, hv, h0⟩
  · exact absurd he (vptrInit_no_err hctx e)
  have key : r.state.svptr = (applyImage c.lattice img s).svptr ∧ r.state.ss = (applyImage c.lattice img s).ss ∧ r.state.next = (applyImage c.lattice img s).next ∧
      r.state.vptr = v.state := by
    rcases h0 with ⟨e', hve, h0⟩ | ⟨_, h0⟩ <;>
    · rw [h0] at h
      obtain rfl := Res.ok.inj h
      exact ⟨rfl, rfl, rfl, rfl⟩
  obtain ⟨k1, k2, k3, k4⟩ := key
  have hmeth : ∀ mt ∈ c.meths.zip c.tables, ∃ m ∈ p.methods, mt.1 = toMeth p.rtti c.lattice m := by
    intro mt hmt
    have := (List.of_mem_zip (a := mt.1) (b := mt.2) hmt).1
    rw [C.meths] at this
    obtain ⟨m, hm, e⟩ := List.mem_map.1 this
    exact ⟨m, hm, e.symm⟩
  refine ⟨?_, ?_, ?_, ?_⟩
  · intro u hu
    rw [k1]
    refine writeSvptr_other _ ?_
    intro x hx e
    obtain ⟨cr, hcr, _, e'⟩ := lattice_svptr_mem hL hx
    exact hu cr hcr (e'.trans e)
  · intro id hid
    rw [k2]
    have : slotsStridesAt img id = none := by
      unfold slotsStridesAt
      rw [Option.map_eq_none_iff, List.find?_eq_none]
      intro x hx
      rw [List.mem_reverse, I.slotsStrides] at hx
      unfold slotsStridesOf at hx
      obtain ⟨y, hy, rfl⟩ := List.mem_map.1 hx
      obtain ⟨m, hm, e⟩ := hmeth y.1 (List.fst_mem_of_mem_zipIdx hy)
      have := hid m hm
      simp only [e, toMeth, decide_eq_true_eq]
      exact this
    simp only [applyImage, this]
    rfl
  · intro u hu
    rw [k3]
    have : nextAt img u = none := by
      unfold nextAt
      rw [Option.map_eq_none_iff, List.find?_eq_none]
      intro x hx
      rw [List.mem_reverse, I.next, List.mem_flatMap] at hx
      obtain ⟨mt, hmt, hx⟩ := hx
      obtain ⟨m, hm, e⟩ := hmeth mt hmt
      unfold nextStores at hx
      obtain ⟨y, hy, hx⟩ := List.mem_filterMap.1 hx
      have hyo := List.fst_mem_of_mem_zipIdx hy
      rw [e] at hyo
      simp only [toMeth] at hyo
      obtain ⟨o, ho, e'⟩ := List.mem_map.1 hyo
      have hne := hu m hm o ho
      split at hx
      · rw [Option.map_eq_some_iff] at hx
        obtain ⟨f, _, rfl⟩ := hx
        simp only [decide_eq_true_eq]
        rw [← e']
        exact hne
      · cases hx
    simp only [applyImage, this]
    rfl
  · intro P hP hs
    rw [k4]
    refine vptrInit_vars ?_ hs hv
    intro cc hcc
    obtain ⟨x, hx, rfl⟩ := List.mem_map.1 hcc
    obtain ⟨cr, hcr, _, e'⟩ := lattice_svptr_mem hL hx
    simp only
    rw [← e']
    exact hP cr hcr

/-! ## Steps -/

variable {O : Owner} {cfg : RegId → Config}

/-- Registry `r` sees the same after an operation on another one. -/
structure World.Same (O : Owner) (r : RegId) (w w' : World) : Prop where
  data : w'.data r = w.data r
  gen : w'.gen r = w.gen r
  vptr : w'.vptr r = w.vptr r
  initialized : w'.initialized r = w.initialized r
  svptr : ∀ v, O.svptr v = r → w'.svptr v = w.svptr v
  ss : ∀ id, O.method id = r → w'.ss id = w.ss id
  next : ∀ v, O.next v = r → w'.next v = w.next v

theorem World.Step.same {c : Config} {r r' : RegId} {w w' : World} (hr : r' ≠ r) (h : World.Step O c r' w w') : w.Same O r w' := by
  have key : ∀ {E : Env} {p : Program} {x : InitOut}, O.Program r' p → p.Good E.cfg → initRegistry E p (w.view r') = .ok x → w.Same O r (w.put r' x.state) := by
    intro E p x ho hp hx
    obtain ⟨h1, h2, h3, _⟩ := init_frame hp hx
    refine ⟨Function.update_of_ne hr.symm _ _, Function.update_of_ne hr.symm _ _, Function.update_of_ne hr.symm _ _, Function.update_of_ne hr.symm _ _, ?_, ?_, ?_⟩
    · intro v hv
      exact h1 v (fun cr hcr e => hr (by rw [← ho.svptr cr hcr, e, hv]))
    · intro v hv
      exact h2 v (fun m hm e => hr (by rw [← ho.method m hm, e, hv]))
    · intro v hv
      exact h3 v (fun m hm o ho' e => hr (by rw [← ho.next m hm o ho', e, hv]))
  cases h with
  | ok e ho hp h => exact key ho (by rw [e]; exact hp) h
  | failed e ho hp h => exact key ho (by rw [e]; exact hp) h
  | final e =>
    exact ⟨Function.update_of_ne hr.symm _ _, Function.update_of_ne hr.symm _ _, Function.update_of_ne hr.symm _ _, Function.update_of_ne hr.symm _ _,
      fun _ _ => rfl, fun _ _ => rfl, fun _ _ => rfl⟩

theorem World.Others.same {r : RegId} {w w' : World} (h : World.Others O cfg r w w') : w.Same O r w' := by
  induction h with
  | refl => exact ⟨rfl, rfl, rfl, rfl, fun _ _ => rfl, fun _ _ => rfl, fun _ _ => rfl⟩
  | step _ hr h ih =>
    have := h.same hr
    exact ⟨this.data.trans ih.data, this.gen.trans ih.gen, this.vptr.trans ih.vptr, this.initialized.trans ih.initialized,
      fun v hv => (this.svptr v hv).trans (ih.svptr v hv), fun v hv => (this.ss v hv).trans (ih.ss v hv), fun v hv => (this.next v hv).trans (ih.next v hv)⟩

theorem World.Step.vars {c : Config} {r' : RegId} {w w' : World} (h : World.Step O c r' w w')
    (hw : ∀ r, (w.vptr r).Vars fun v => O.svptr v = r) : ∀ r, (w'.vptr r).Vars fun v => O.svptr v = r := by
  have put : ∀ (s : RegState), s.vptr.Vars (fun v => O.svptr v = r') → ∀ r, ((w.put r' s).vptr r).Vars fun v => O.svptr v = r := by
    intro s hs r
    by_cases hr : r = r'
    · subst hr
      simpa [World.put] using hs
    · simpa [World.put, Function.update_of_ne hr] using hw r
  cases h with
  | ok e ho hp h => exact put _ ((init_frame (by rw [e]; exact hp) h).2.2.2 _ ho.svptr (hw r'))
  | failed e ho hp h => exact put _ ((init_frame (by rw [e]; exact hp) h).2.2.2 _ ho.svptr (hw r'))
  | final e => exact put _ (vptrFinalize_vars (hw r'))

theorem World.Reachable.vars {w : World} (h : World.Reachable O cfg w) : ∀ r, (w.vptr r).Vars fun v => O.svptr v = r := by
  induction h with
  | start => intro r; exact ⟨by simp [World.init, VptrState.init], by simp [World.init, VptrState.init]⟩
  | step _ h ih => exact h.vars ih

/-! ## Calls -/

theorem require_congr {c : Config} {s s' : RegState} (h : s'.initialized = s.initialized) : requireInitialized c s' = requireInitialized c s := by
  unfold requireInitialized
  rw [h]

theorem acquire_congr {c : Config} {s s' : RegState} (h : s'.initialized = s.initialized) (h' : s'.vptr = s.vptr) (t : TypeId) :
    acquireVptr c s' t = acquireVptr c s t := by
  unfold acquireVptr
  rw [require_congr h, h']

theorem dynamicVptr_vars {c : Config} {P : VarId → Prop} {s : VptrState} (hs : s.Vars P) {t : TypeId} {v : VarId} (h : dynamicVptr c s t = .ok (.var v)) : P v := by
  have hr : ∀ x : Stored, x.ref c = .ok (.var v) → x = .indirect v := by
    intro x hx
    cases x with
    | null => simp only [Stored.ref] at hx; split at hx <;> cases hx
    | direct p => cases hx
    | indirect u => cases hx; rfl
  unfold dynamicVptr at h
  split at h
  · rw [Res.bind_eq_ok] at h
    obtain ⟨i, _, h⟩ := h
    split at h
    · cases h
    · split at h
      · cases h
      · next x hx =>
        have := hr x h
        subst this
        exact hs.vec v (List.mem_of_getElem? hx)
  · split at h
    · split at h <;> cases h
    · next x hx =>
      have := hr x.2 h
      have hm := List.mem_of_find?_eq_some hx
      refine hs.map x.1 v ?_
      rw [← this]; exact hm

theorem World.Same.argPtr {r : RegId} {w w' : World} (h : w.Same O r w') (hv : (w.vptr r).Vars fun v => O.svptr v = r) {c : Config} {a : Arg} (ha : O.Arg r a) :
    argPtr c (w'.view r) a = argPtr c (w.view r) a := by
  cases a with
  | obj t =>
    have h1 : acquireVptr c (w'.view r) t = acquireVptr c (w.view r) t := acquire_congr h.initialized h.vptr t
    unfold OpenMethod.argPtr
    simp only [h1]
    cases hq : acquireVptr c (w.view r) t with
    | ub => rfl
    | err e => rfl
    | ok x =>
      simp only [Res.ok_bind]
      cases x with
      | value p => rfl
      | var v =>
        have : O.svptr v = r := by
          unfold acquireVptr at hq
          rw [Res.bind_eq_ok] at hq
          obtain ⟨_, _, hq⟩ := hq
          exact dynamicVptr_vars hv hq
        simp only [VRef.read, World.view, h.svptr v this]
  | vptr b =>
    cases b with
    | direct p => rfl
    | indirect v =>
      unfold OpenMethod.argPtr unboxVptr
      simp only [World.view, h.svptr v ha]

theorem World.Same.call {r : RegId} {w w' : World} (h : w.Same O r w') (hv : (w.vptr r).Vars fun v => O.svptr v = r) {c : Config} {m : MethodInfo}
    (hm : O.method m.id = r) {args : List Arg} (ha : ∀ a ∈ args, O.Arg r a) (types : List TypeId) :
    call c (w'.view r) m args types = call c (w.view r) m args types := by
  have h1 : args.map (OpenMethod.argPtr c (w'.view r)) = args.map (OpenMethod.argPtr c (w.view r)) :=
    List.map_congr_left fun a hm => h.argPtr hv (ha a hm)
  have h2 : requireInitialized c (w'.view r) = requireInitialized c (w.view r) := require_congr h.initialized
  have h3 : (w'.view r).ss m.id = (w.view r).ss m.id := h.ss m.id hm
  have h4 : (w'.view r).gen = (w.view r).gen := h.gen
  have h5 : (w'.view r).data = (w.view r).data := h.data
  unfold OpenMethod.call
  rw [h1, h2, h3, h4, h5]

end OpenMethod

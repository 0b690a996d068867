import Verif.SpecPtr
import Verif.Proof.History

/-! # Lemmas about virtual_ptr -/

namespace OpenMethod

variable {E : Env} {p : Program} {s : RegState} {rep : Report} {gen : Nat} {c : Compiled} {img : Image} {cfg : Config} {X : PtrEnv}

/-- What is needed of the state of the registry. -/
structure PtrReady (cfg : Config) (p : Program) (s : RegState) : Prop where
  require : requireInitialized cfg s = .ok ()
  make : ∀ t, p.HasId t → ∃ b q, makeVirtualPtr cfg s t = .ok b ∧ unboxVptr s b = some q ∧ IsVptr p s t q
  missing : ∀ t, ¬ p.HasId t → Known cfg p t → makeVirtualPtr cfg s t = .err (.missingClass t)
  svptr : ∀ t v, p.HasId t → p.StaticVar (p.rtti.ti t) v → ∃ q, s.svptr v = some q
  obj : ∀ t q, p.HasId t → IsVptr p s t q → argPtr cfg s (.obj t) = .ok q

theorem Ready.ptr (R : Ready E p rep gen c img s) : PtrReady E.cfg p s where
  require := R.require
  make t ht := by
    have hx := HasId.order R ht
    refine ⟨_, img.ptr gen (p.rtti.ti t), R.box ht, ?_, _, lattice_svptr R.lattice _ hx, R.svptr _ hx⟩
    cases E.cfg.indirect
    · rfl
    · exact R.svptr _ hx
  missing t ht hk := by
    rcases hk with hk | ⟨hd, hn⟩
    · exact absurd hk ht
    · unfold makeVirtualPtr acquireVptr
      simp only [R.require, Res.ok_bind, R.missing hd.checks hd.policy ht hn, Res.err_bind]
  svptr t v ht hv := by
    have hx := HasId.order R ht
    have : some v = some _ := hv.symm.trans (lattice_svptr R.lattice _ hx)
    rw [Option.some.inj this]
    exact ⟨_, R.svptr _ hx⟩
  obj t q ht hq := by
    obtain ⟨v, hv, hq⟩ := hq
    have hx := HasId.order R ht
    have : some v = some _ := hv.symm.trans (lattice_svptr R.lattice _ hx)
    rw [Option.some.inj this, R.svptr _ hx] at hq
    rw [R.argPtr ht, Option.some.inj hq]

theorem Designates.copy {o : Obj} {w : VirtualPtr} (h : Designates p s o w) : w.copy = .ok w := by
  obtain ⟨b, q, rfl, _⟩ := h
  rfl

theorem Consistent.copy {w : VirtualPtr} (h : Consistent p s w) : w.copy = .ok w := by
  rcases h with rfl | ⟨o, _, h⟩
  · rfl
  · exact h.copy

theorem consistent_nul : Consistent p s .nul := .inl rfl

/-- Constructing from an object. -/
theorem PtrReady.ofRef (R : PtrReady cfg p s) {o : Obj} (h : Known cfg p o.type) :
    (∃ w, VirtualPtr.ofRef cfg s o = .ok w ∧ Designates p s o w ∧ p.HasId o.type) ∨ VirtualPtr.ofRef cfg s o = .err (.missingClass o.type) := by
  unfold VirtualPtr.ofRef
  by_cases ht : p.HasId o.type
  · obtain ⟨b, q, hb, hu, hq⟩ := R.make _ ht
    rw [hb]
    exact .inl ⟨_, rfl, ⟨b, q, rfl, hu, hq⟩, ht⟩
  · rw [R.missing _ ht h]
    exact .inr rfl

theorem PtrReady.final (R : PtrReady cfg p s) {o : Obj} {poly : Bool} {st : TypeId} {v : VarId} (hv : p.StaticVar (p.rtti.ti st) v) (hst : p.HasId st)
    (hf : FinalOk cfg p poly st (some o)) :
    (∃ w, VirtualPtr.final cfg s poly st v (some o) = .ok w ∧ Designates p s o w ∧ p.HasId o.type) ∨
    VirtualPtr.final cfg s poly st v (some o) = .err (.finalError st o.type) := by
  unfold VirtualPtr.final
  simp only [R.require, Res.ok_bind, Res.ofOption_some]
  obtain ⟨q, hq⟩ := R.svptr st v hst hv
  have key : ∀ (_ : p.HasId o.type) (_ : p.rtti.ti o.type = p.rtti.ti st),
      Designates p s o { vp := .boxed (if cfg.indirect = true then .indirect v else .direct (some q)), obj := .ofOption (some o) } := by
    intro ht e
    refine ⟨_, q, rfl, ?_, v, by rw [e]; exact hv, hq⟩
    cases cfg.indirect
    · rfl
    · exact hq
  by_cases hk : (cfg.checks && poly) = true
  · rw [if_pos hk]
    by_cases he : o.type = st
    · left
      refine ⟨{ vp := .boxed (if cfg.indirect = true then .indirect v else .direct (some q)), obj := .ofOption (some o) }, ?_,
        key (by rw [he]; exact hst) (by rw [he]), by rw [he]; exact hst⟩
      simp [he, hq]
    · right
      simp [he]
  · rw [if_neg hk]
    have h : p.HasId o.type ∧ p.rtti.ti o.type = p.rtti.ti st := by
      rcases hf o rfl with h | ⟨h1, h2⟩
      · exact h
      · rw [h1, h2] at hk; exact absurd rfl hk
    exact .inl ⟨_, by simp [hq], key h.1 h.2, h.1⟩

theorem update_consistent {w : Ptrs} (hw : ∀ i, Consistent p s (w i)) {i : Nat} {x : VirtualPtr} (hx : Consistent p s x) :
    ∀ j, Consistent p s (Function.update w i x j) := by
  intro j
  by_cases h : j = i
  · subst h; rw [Function.update_self]; exact hx
  · rw [Function.update_of_ne h]; exact hw j

theorem movePtr_consistent {w : Ptrs} (hw : ∀ i, Consistent p s (w i)) (k : PtrKind) (i j : Nat) :
    ∃ w', movePtr k w i j = .ok w' ∧ ∀ n, Consistent p s (w' n) := by
  unfold movePtr
  rw [(hw j).copy, Res.ok_bind]
  split
  · exact ⟨_, rfl, update_consistent (update_consistent hw consistent_nul) (hw j)⟩
  · exact ⟨_, rfl, update_consistent hw (hw j)⟩

/-- Casts of consistent `virtual_ptr`s, when not to be avoided. -/
theorem cast_consistent {x : VirtualPtr} (hx : Consistent p s x) {c : VirtualPtr.Cast} {k : PtrKind} (hc : CastOk c)
    (h1 : x.obj = .null → CastsNull k c) (h2 : k = .shared → c.isInstance = true) :
    ∃ r, VirtualPtr.cast c k x = .ok r ∧ ∀ y ∈ r, Consistent p s y := by
  unfold VirtualPtr.cast
  rw [hx.copy, Res.ok_bind]
  rcases hx with rfl | ⟨o, ht, b, q, rfl, hb⟩
  · rcases h1 rfl with rfl | ⟨rfl, hd⟩
    · refine ⟨_, rfl, ?_⟩
      intro y hy
      obtain rfl := Option.some.inj hy
      exact .inl rfl
    · refine ⟨_, by simp only [VirtualPtr.castObj, hd]; rfl, ?_⟩
      intro y hy
      obtain rfl := Option.some.inj hy
      exact .inl rfl
  · cases hi : c.isInstance with
    | true =>
      refine ⟨some ⟨.boxed b, .to o⟩, by cases k <;> simp [VirtualPtr.castObj, hi], ?_⟩
      intro y hy
      obtain rfl := Option.some.inj hy
      exact .inr ⟨o, ht, b, q, rfl, hb⟩
    | false =>
      have hd : c.dynamic = true := by
        rcases hc with h | h
        · rw [hi] at h; cases h
        · exact h
      refine ⟨none, ?_, by simp⟩
      cases k with
      | shared => have := h2 rfl; rw [hi] at this; cases this
      | _ => simp [VirtualPtr.castObj, hi, hd]

/-- One operation. -/
theorem run_consistent (R : PtrReady X.cfg p s) {w : Ptrs} (hw : ∀ i, Consistent p s (w i)) {op : PtrOp} (hl : op.Legal X p) (hs : op.Safe X p w) :
    ∃ w' e, op.run X s w = .ok (w', e) ∧ ∀ i, Consistent p s (w' i) := by
  have made : ∀ (i : Nat) (r : Res VirtualPtr), ((∃ x, r = .ok x ∧ Consistent p s x) ∨ ∃ e, r = .err e) →
      ∃ w' e, constructPtr.made w i r = .ok (w', e) ∧ ∀ i, Consistent p s (w' i) := by
    rintro i r (⟨x, rfl, hx⟩ | ⟨e, rfl⟩)
    · exact ⟨_, _, rfl, update_consistent hw hx⟩
    · exact ⟨_, _, rfl, hw⟩
  have ofRef : ∀ o : Obj, Known X.cfg p o.type → (∃ x, VirtualPtr.ofRef X.cfg s o = .ok x ∧ Consistent p s x) ∨ ∃ e, VirtualPtr.ofRef X.cfg s o = .err e := by
    intro o ho
    rcases R.ofRef ho with ⟨x, h1, h2, h3⟩ | h
    · exact .inl ⟨x, h1, .inr ⟨o, h3, h2⟩⟩
    · exact .inr ⟨_, h⟩
  have object : ∀ (i : Nat) (o : Obj), p.HasId o.type → ∃ w' e, assignPtr.assigned w i (VirtualPtr.assignObject X.cfg s (w i) (some o)) = .ok (w', e) ∧
      ∀ i, Consistent p s (w' i) := by
    intro i o ho
    obtain ⟨b, q, hb, hu, hq⟩ := R.make _ ho
    simp only [VirtualPtr.assignObject, hb, assignPtr.assigned, Res.ok_bind]
    exact ⟨_, _, rfl, update_consistent hw (.inr ⟨o, ho, b, q, rfl, hu, hq⟩)⟩
  cases op with
  | construct i src =>
    unfold PtrOp.run
    cases src with
    | default =>
      refine ⟨_, _, rfl, update_consistent hw ?_⟩
      have hl : X.kind i ≠ .plain := hl
      cases hk : X.kind i with
      | plain => exact absurd hk hl
      | _ => exact consistent_nul
    | nullptr => exact ⟨_, _, rfl, update_consistent hw consistent_nul⟩
    | ref o => exact made i _ (ofRef o hl.2)
    | pointer q =>
      cases q with
      | none => exact absurd rfl hs
      | some o => exact made i _ (ofRef o (hl.2 o rfl))
    | smart q =>
      cases q with
      | none => exact made i _ (.inl ⟨_, rfl, consistent_nul⟩)
      | some o => exact made i _ (ofRef o (hl.2 o rfl))
    | copy j => exact made i _ (.inl ⟨_, (hw j).copy, hw j⟩)
    | move j =>
      obtain ⟨w', h1, h2⟩ := movePtr_consistent hw (X.kind i) i j
      refine ⟨w', .returned, ?_, h2⟩
      simp only [constructPtr, h1, Res.ok_bind]
    | cast j c =>
      obtain ⟨r, h1, h2⟩ := cast_consistent (hw j) hl.2.2.2 hs.1 hs.2
      simp only [constructPtr, h1, Res.ok_bind]
      cases r with
      | none => exact ⟨_, _, rfl, hw⟩
      | some x => exact ⟨_, _, rfl, update_consistent hw (h2 x rfl)⟩
    | castMove j c =>
      obtain ⟨hs1, hs2, hs3⟩ := hs
      obtain ⟨r, h1, h2⟩ := cast_consistent (hw j) hl.2.2.2 hs1 fun e => (hs2 e).1
      simp only [constructPtr, h1, Res.ok_bind]
      cases r with
      | none => exact ⟨_, _, rfl, hw⟩
      | some x =>
        refine ⟨_, _, rfl, update_consistent (update_consistent hw ?_) (h2 x rfl)⟩
        have : VirtualPtr.castSource X.cxx20 c (X.kind j) (w j) = w j := by
          unfold VirtualPtr.castSource
          cases hk : X.kind j with
          | plain => rfl
          | intrusive => rfl
          | shared => simp [(hs2 hk).2]
          | unique => simp [hs3 hk]
        rw [this]; exact hw j
    | final q poly st v =>
      cases q with
      | none => exact absurd rfl hs
      | some o =>
        rcases R.final hl.2.1 hl.2.2.1 hl.2.2.2 with ⟨x, h1, h2, h3⟩ | h
        · exact made i _ (.inl ⟨x, h1, .inr ⟨o, h3, h2⟩⟩)
        · exact made i _ (.inr ⟨_, h⟩)
  | assign i src =>
    unfold PtrOp.run
    cases src with
    | nullptr => exact ⟨_, _, rfl, update_consistent hw consistent_nul⟩
    | object q =>
      obtain ⟨o, rfl, ho⟩ := hs
      exact object i o ho
    | smart q =>
      obtain ⟨o, rfl, ho⟩ := hs
      exact object i o ho
    | smartMove q =>
      cases q with
      | none => exact ⟨_, _, rfl, update_consistent hw consistent_nul⟩
      | some o =>
        by_cases ho : p.HasId o.type
        · obtain ⟨b, q, hb, hu, hq⟩ := R.make _ ho
          simp only [assignPtr, VirtualPtr.assignSmartMove, hb, assignPtr.assigned, Res.ok_bind]
          exact ⟨_, _, rfl, update_consistent hw (.inr ⟨o, ho, b, q, rfl, hu, hq⟩)⟩
        · have hb := R.missing _ ho (hl.2 o rfl)
          simp only [assignPtr, VirtualPtr.assignSmartMove, hb, assignPtr.assigned, Res.ok_bind]
          exact ⟨_, _, rfl, update_consistent hw (hw i)⟩
    | copy j =>
      simp only [assignPtr, (hw j).copy, Res.ok_bind]
      exact ⟨_, _, rfl, update_consistent hw (hw j)⟩
    | move j =>
      obtain ⟨w', h1, h2⟩ := movePtr_consistent hw (X.kind i) i j
      refine ⟨w', .returned, ?_, h2⟩
      simp only [assignPtr, h1, Res.ok_bind]

theorem PtrReach.consistent (R : PtrReady X.cfg p s) {w : Ptrs} (h : PtrReach X p s w) : ∀ i, Consistent p s (w i) := by
  induction h with
  | start => exact fun _ => consistent_nul
  | step _ hl hs hr ih =>
    obtain ⟨w', e, h1, h2⟩ := run_consistent R ih hl hs
    rw [hr] at h1
    obtain ⟨rfl, rfl⟩ := Prod.mk.inj (Res.ok.inj h1)
    exact h2

/-- A `virtual_ptr` that designates an object can replace it. -/
theorem Designates.arg (R : PtrReady cfg p s) {o : Obj} (ho : p.HasId o.type) {w : VirtualPtr} (h : Designates p s o w) :
    ∃ a, w.arg = .ok a ∧ argPtr cfg s a = argPtr cfg s (.obj o.type) := by
  obtain ⟨b, q, rfl, hb, hq⟩ := h
  refine ⟨_, rfl, ?_⟩
  rw [R.obj _ _ ho hq]
  unfold argPtr
  simp only [hb, Res.ofOption_some]

end OpenMethod

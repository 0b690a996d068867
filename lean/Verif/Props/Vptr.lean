import Verif.Proof.History
import Verif.Proof.Outcome
import Verif.Examples.Registries

/-! # C22, C26-C28: from objects to v-tables -/

namespace OpenMethod.Props

open Spec Examples

variable {E : Env} {p : Program} {s s' : RegState} {rep : Report} {m : MethodInfo}

/-! ## C22: several ids for one class -/

/-- The same argument, or objects with different type ids of the same class. -/
inductive SameClass (p : Program) : Arg → Arg → Prop
  | same (a : Arg) : SameClass p a a
  | ids (t u : TypeId) : p.HasId t → p.HasId u → p.rtti.ti t = p.rtti.ti u → SameClass p (.obj t) (.obj u)

/-- C22: objects with any of the ids of a class dispatch identically, for all vptr policies, after any history. -/
theorem C22 (hp : p.Good E.cfg) (h : Initializes E p s s' rep) {as bs : List Arg} (hab : List.Forall₂ (SameClass p) as bs) (types : List TypeId) :
    call E.cfg s' m as types = call E.cfg s' m bs types := by
  obtain ⟨c, img, R, _⟩ := init_ready hp h
  have : as.map (argPtr E.cfg s') = bs.map (argPtr E.cfg s') := by
    induction hab with
    | nil => rfl
    | cons h _ ih =>
      rw [List.map_cons, List.map_cons, ih]
      cases h with
      | same a => rfl
      | ids t u ht hu e => rw [R.argPtr ht, R.argPtr hu, e]
  unfold call
  rw [this]

/-! ## C26, C27: the v-table pointer of a class -/

/-- What the policies return for an object of a registered class: the content of the `static_vptr` of the class, which is not
null; a reference to that variable itself when `virtual_ptr`s are indirect. -/
structure Acquired (cfg : Config) (p : Program) (s : RegState) (t : TypeId) : Prop where
  /-- nothing is read outside the vector or the map, no error is reported -/
  result : ∃ r v q, dynamicVptr cfg s.vptr t = .ok r ∧ p.StaticVar (p.rtti.ti t) v ∧ s.svptr v = some q ∧ r.read s.svptr = some q ∧
    (cfg.indirect = true → r = .var v)

theorem acquired (hp : p.Good E.cfg) (h : Initializes E p s s' rep) {t : TypeId} (ht : p.HasId t) : Acquired E.cfg p s' t := by
  obtain ⟨c, img, R, _⟩ := init_ready hp h
  have hx := HasId.order R ht
  have hq := R.svptr _ hx
  refine ⟨_, _, _, R.dynamic ht, lattice_svptr R.lattice _ hx, hq, ?_, ?_⟩
  · cases E.cfg.indirect <;> simp [VRef.read, hq]
  · intro hi; simp [hi]

/-- C26: `vptr_vector`, with or without a hash, direct or indirect, with any previous content. -/
theorem C26 (hp : p.Good E.cfg) (_ : E.cfg.vector = true) (h : Initializes E p s s' rep) {t : TypeId} (ht : p.HasId t) : Acquired E.cfg p s' t :=
  acquired hp h ht

/-- C27: `vptr_map`. -/
theorem C27 (hp : p.Good E.cfg) (hm : E.cfg.vector = false) (h : Initializes E p s s' rep) (t : TypeId) :
    (p.HasId t → Acquired E.cfg p s' t) ∧
    (E.cfg.checks = true → (dynamicVptr E.cfg s'.vptr t = .err (.missingClass t) ↔ ¬ p.HasId t)) := by
  refine ⟨fun ht => acquired hp h ht, fun hk => ⟨fun e ht => ?_, fun ht => ?_⟩⟩
  · obtain ⟨r, v, q, h1, _⟩ := (acquired hp h ht).result
    rw [h1] at e; cases e
  · obtain ⟨c, img, R, _⟩ := init_ready hp h
    exact R.missing hk (fun e => absurd (hm.symm.trans e) (by decide)) ht (fun e => absurd (hm.symm.trans e) (by decide))

/-! ## C28: unregistered classes are detected -/

/-- C28 in full: with runtime_checks, calling a method with objects of unregistered classes reports missing_class. -/
def C28 : Prop :=
  ∀ (E : Env) (p : Program) (s s' : RegState) (rep : Report) (m : MethodInfo) (args : List Arg) (xs : List Cls) (ts : List TypeId) (types : List TypeId),
    p.Good E.cfg → Initializes E p s s' rep → E.cfg.checks = true → m ∈ p.methods → Mixed p m.params args xs ts → ts ≠ [] → noType ∉ ts →
    Callable p m xs → ∃ t ∈ ts, call E.cfg s' m args types = .err (.missingClass t)

/-- Classes 1 and 3 are registered; class 2 derives from class 1 and is not registered. -/
def kick : MethodInfo := meth 0 [true] [1] [ov [1] 10]
def gap : Program := prog [cls 1 [], cls 3 [1]] [kick]

/-- C28 does not hold for `vptr_vector` without a hash: an id smaller than the largest registered id is not detected, and a null
v-table pointer is dereferenced. -/
theorem C28_refuted : ¬ C28 := by
  intro h
  obtain ⟨s, rep, hi, hc⟩ := callAfter_eq (E := env plain) (p := gap) (m := kick) (args := [.obj 2]) (r := .ub) (by decide +kernel)
  obtain ⟨t, _, ht⟩ := h (env plain) gap .init s rep kick [.obj 2] [1] [2] [] (good (by decide +kernel)) hi rfl (by decide)
    (.unregistered 2 1 (by unfold Program.HasId; decide) .nil) (by decide) (by decide) (Check.callable (by decide +kernel) (by decide +kernel))
  rw [hc] at ht; cases ht

/-- For the other policies, the first unregistered
argument is reported, when no slot conflict (C06) or misplaced parameter (C05) makes the call fail before. -/
theorem C28_partial (hp : p.Good E.cfg) (h : Initializes E p s s' rep) (hd : Detects E.cfg) (hm : m ∈ p.methods) {args : List Arg} {xs : List Cls}
    {t : TypeId} {ts : List TypeId} (hargs : Mixed p m.params args xs (t :: ts)) (hn : E.cfg.vector = true → noType ∉ t :: ts)
    (hcall : Callable p m xs) (ho : ArgsSafe p (classesOf p m.vp) xs) (hc : m.vp.length = 1 ∨ Contiguous m.params) (types : List TypeId) :
    call E.cfg s' m args types = .err (.missingClass t) := by
  obtain ⟨c, img, R, _⟩ := init_ready hp h
  exact R.call_missing hp.valid hd.checks hd.policy hm hargs hn hcall ho hc types

/-- For `vptr_vector` without a hash, ids that are larger than all the registered ones are detected. -/
theorem C28_above_partial (hp : p.Good E.cfg) (h : Initializes E p s s' rep) (hk : E.cfg.checks = true) (hv : E.cfg.vector = true)
    (hh : E.cfg.typeHash = false) (hne : p.classes ≠ []) {t : TypeId} (ht : ∀ u, p.HasId u → u.toNat < t.toNat) :
    argPtr E.cfg s' (.obj t) = .err (.missingClass t) := by
  obtain ⟨c, img, R, _⟩ := init_ready hp h
  have hlen := R.vec_length h hv hh
  have h0 : 0 < t.toNat := by
    cases hcl : p.classes with
    | nil => exact absurd hcl hne
    | cons cr _ => exact Nat.lt_of_le_of_lt (Nat.zero_le _) (ht cr.type ⟨cr, by simp [hcl], rfl⟩)
  have h1 := foldl_max_lt (B := t.toNat) ((ctxClasses c.lattice).flatMap (·.ids)) 0 h0 (fun u hu => ht u ((mem_ctxIds R.ok.lat u).1 hu))
  have h2 : s'.vptr.vec.length ≤ t.toNat := by
    rw [hlen]
    unfold vecSize
    exact Nat.le_trans (Nat.mod_le _ _) h1
  unfold argPtr acquireVptr dynamicVptr
  simp [R.require, hv, vecIndex, hh, hk, h2]

/-! ## The hypotheses are met -/

/-- Class 2 has two type ids, 2 and 13. -/
def twoIds : Program :=
  { rtti := { ti := fun t => if t = 13 then 2 else t.toNat, void := 1000#64 }
    classes := [cls 1 [], cls 2 [1], { cls 2 [1] with type := 13 }, cls 3 [1], cls 4 [2, 1]]
    methods := [poke, meet] }

/-- After another registration, for each policy. -/
example : goodB hashed zoo = true ∧ callAfter (env hashed) [gap, zoo] meet [.obj 0, .obj 4, .obj 3, .obj 0] = some (.ok 23) := by decide +kernel
example : callAfter (env (Config.ind hashed)) [gap, zoo] meet [.obj 0, .obj 4, .obj 3, .obj 0] = some (.ok 23) := by decide +kernel
example : callAfter (env plain) [gap, zoo] meet [.obj 0, .obj 4, .obj 3, .obj 0] = some (.ok 23) := by decide +kernel
example : callAfter (env (Config.ind mapped)) [gap, zoo] meet [.obj 0, .obj 4, .obj 3, .obj 0] = some (.ok 23) := by decide +kernel
example : callAfter (env (Config.fast mapped)) [gap, zoo] meet [.obj 0, .obj 4, .obj 3, .obj 0] = some (.ok 23) := by decide +kernel

/-- Ids 2 and 13 of class 2. -/
example : goodB plain twoIds = true ∧ callAfter (env plain) [twoIds] meet [.obj 0, .obj 2, .obj 3, .obj 0] = some (.ok 23) ∧
    callAfter (env plain) [twoIds] meet [.obj 0, .obj 13, .obj 3, .obj 0] = some (.ok 23) ∧
    callAfter (env (Config.ind hashed)) [twoIds] meet [.obj 0, .obj 13, .obj 3, .obj 0] = some (.ok 23) := by decide +kernel

/-- Class 5 is not registered. -/
example : callAfter (env hashed) [zoo] meet [.obj 0, .obj 4, .obj 5, .obj 0] = some (.err (.missingClass 5)) := by decide +kernel
example : callAfter (env mapped) [zoo] meet [.obj 0, .obj 6, .obj 5, .obj 0] = some (.err (.missingClass 6)) := by decide +kernel
example : callAfter (env plain) [gap] kick [.obj 4] = some (.err (.missingClass 4)) := by decide +kernel
example : Mixed zoo meet.params [.obj 0, .obj 4, .obj 5, .obj 0] [4, 1] [5] :=
  .other _ (.virt 4 ⟨cls 4 [2, 1], by decide, rfl⟩ (.unregistered 5 1 (by unfold Program.HasId; decide) (.other _ .nil)))

end OpenMethod.Props

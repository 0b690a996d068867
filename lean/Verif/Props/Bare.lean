import Verif.Proof.Bare
import Verif.Props.VirtualPtr
import Verif.Props.Dispatch

/-! # C77: registries without a vptr policy -/

namespace OpenMethod.Props

open Spec Examples

variable {B : BareEnv} {p : Program} {s s' t t' : RegState} {rep rep' : Report} {m : MethodInfo} {rnd : Nat → BitVec 64}

/-- C77, `initialize`: it does the same as with `vptr_map`, except for the data of that policy. -/
theorem C77_initialize (B : BareEnv) (rnd : Nat → BitVec 64) (p : Program) (h : SameButVptr s t) :
    (initBare B p s = .ub ∧ initRegistry (B.mapped rnd) p t = .ub) ∨
    ∃ r s' t', initBare B p s = .ok { state := s', result := r } ∧ initRegistry (B.mapped rnd) p t = .ok { state := t', result := r } ∧ SameButVptr s' t' :=
  initBare_mapped B rnd p h

/-- C77, over time: after the same operations, the registries are the same, except for that data. -/
theorem C77_history (B : BareEnv) (rnd : Nat → BitVec 64) (h : SameButVptr s t) (ops : List RegOp) :
    (RegState.runBare B s ops = .ub ∧ RegState.run (B.mapped rnd) t ops = .ub) ∨
    ∃ s' t', RegState.runBare B s ops = .ok s' ∧ RegState.run (B.mapped rnd) t ops = .ok t' ∧ SameButVptr s' t' := by
  induction ops generalizing s t with
  | nil => exact .inr ⟨s, t, rfl, rfl, h⟩
  | cons op ops ih =>
    have hs : ∀ (s : RegState), RegState.runBare B s (op :: ops) = (RegState.stepBare B s op >>= fun s => RegState.runBare B s ops) := fun _ => by
      unfold RegState.runBare; rw [List.foldlM_cons]
    have ht : ∀ (t : RegState), RegState.run (B.mapped rnd) t (op :: ops) = (RegState.step (B.mapped rnd) t op >>= fun s => RegState.run (B.mapped rnd) s ops) := fun _ => by
      unfold RegState.run; rw [List.foldlM_cons]
    rw [hs, ht]
    cases op with
    | init p =>
      unfold RegState.stepBare RegState.step
      dsimp only
      rcases initBare_mapped B rnd p h with ⟨e1, e2⟩ | ⟨r, s1, t1, e1, e2, h1⟩
      · rw [e1, e2]; exact .inl ⟨rfl, rfl⟩
      · rw [e1, e2]; exact ih h1
    | final => exact ih (finalizeBare_mapped _ h)

theorem bareChain_designates {c : Compiled} {img : Image} {gen : Nat} (R : Ready (B.mapped rnd) p rep gen c img t) (h : SameButVptr s t) (h1 : OneVar p) {o : Obj}
    (ho : p.HasId o.type) {w : VirtualPtr} (hw : BareChain B p s o w) :
    ∃ b, w = { vp := .boxed b, obj := .to o } ∧ unboxVptr s b = some (img.ptr gen (p.rtti.ti o.type)) := by
  induction hw with
  | @final s0 w poly st v hu he hv hf =>
    have hst : p.HasId st := by obtain ⟨cr, hcr, e, _⟩ := hv; exact ⟨cr, hcr, e⟩
    have hq := R.staticVar hst (h1.static hv)
    rw [he, ← h.svptr] at hq
    unfold VirtualPtr.final at hf
    cases hr : requireInitialized B.cfg s0 with
    | ub => rw [hr] at hf; cases hf
    | err e => rw [hr] at hf; cases hf
    | ok u =>
      rw [hr, Res.ok_bind] at hf
      have key : (Res.ofOption (s0.svptr v) >>= fun vptr =>
          Res.ok ({ vp := .boxed (if B.cfg.indirect then .indirect v else .direct (some vptr)), obj := .ofOption (some o) } : VirtualPtr)) = .ok w := by
        by_cases hk : (B.cfg.checks && poly) = true
        · by_cases he : o.type = st
          · simpa [hk, he] using hf
          · simp [hk, he] at hf
        · simpa [hk] using hf
      rw [Res.bind_eq_ok] at key
      obtain ⟨q, hq0, e⟩ := key
      obtain rfl := Res.ok.inj e
      refine ⟨_, rfl, ?_⟩
      cases hi : B.indirect with
      | true =>
        rw [if_pos (show B.cfg.indirect = true from hi)]
        exact hq
      | false =>
        rw [if_neg (by rw [show B.cfg.indirect = false from hi]; simp)]
        rcases hu with hu | rfl
        · rw [hi] at hu; cases hu
        · rw [hq] at hq0
          simp only [Res.ofOption_some, Res.ok.injEq] at hq0
          rw [← hq0]; rfl
  | @embedded v q hi hv he =>
    have hq := R.staticVar ho (h1.static hv)
    rw [← h.svptr] at hq
    refine ⟨_, rfl, ?_⟩
    have hb : B.cfg.indirect = false := hi
    unfold virtualPtrOfEmbedded acquireEmbedded at he
    cases hr : requireInitialized B.cfg s with
    | ub => rw [hr] at he; cases he
    | err e => rw [hr] at he; cases he
    | ok u =>
      rw [hr] at he
      simp [embed, hb, Embedded.read, boxEmbedded, hq] at he
      rw [← he]; rfl
  | copy _ hc ih =>
    obtain ⟨b, rfl, hb⟩ := ih
    exact ⟨b, (Res.ok.inj hc).symm, hb⟩
  | @cast w w' c k _ hi hc ih =>
    obtain ⟨b, rfl, hb⟩ := ih
    refine ⟨b, ?_, hb⟩
    have : VirtualPtr.cast c k ⟨.boxed b, .to o⟩ = .ok (some ⟨.boxed b, .to o⟩) := by
      unfold VirtualPtr.cast
      cases k <;> simp [VirtualPtr.copy, VirtualPtr.castObj, hi]
    rw [this] at hc
    exact (Option.some.inj (Res.ok.inj hc)).symm

theorem bareFor_ptr {c : Compiled} {img : Image} {gen : Nat} (R : Ready (B.mapped rnd) p rep gen c img t) (h : SameButVptr s t) (h1 : OneVar p) {o : Obj}
    (ho : p.HasId o.type) {a : BareArg} (ha : BareFor B p s o a) : bareArgPtr B s a = .ok (img.ptr gen (p.rtti.ti o.type)) := by
  cases ha with
  | ptr hw harg =>
    obtain ⟨b, rfl, hb⟩ := bareChain_designates R h h1 ho hw
    have hb' := Res.ok.inj harg
    injection hb' with hb'
    subst hb'
    simp only [bareArgPtr, hb, Res.ofOption_some]
  | @embedded s0 v hu hv =>
    have hq := R.staticVar ho (h1.static hv)
    rw [← h.svptr] at hq
    have hreq : requireInitialized B.cfg s = .ok () := by
      unfold requireInitialized
      rw [h.initialized, R.initialized]; simp
    simp only [bareArgPtr, embeddedPtr, acquireEmbedded, hreq, Res.ok_bind]
    cases hi : B.indirect with
    | true => simp [embed, show B.cfg.indirect = true from hi, Embedded.read, hq]
    | false =>
      rcases hu with hu | rfl
      · rw [hi] at hu; cases hu
      · simp [embed, show B.cfg.indirect = false from hi, Embedded.read, hq]

theorem callBare_ready {c : Compiled} {img : Image} {gen : Nat} (R : Ready (B.mapped rnd) p rep gen c img t) (h : SameButVptr s t) (hm : m ∈ p.methods)
    (as : List BareArg) (types : List TypeId) : callBare B s m as types = callMethod gen img m (as.map (bareArgPtr B s)) types := by
  have hi : s.initialized = true := h.initialized.trans R.initialized
  unfold callBare callMethod
  rw [hi, h.ss, R.ss m hm, h.data, R.data, h.gen, R.storage]
  simp

/-- C77, calls: after `initialize`, a call whose virtual arguments are `virtual_ptr`s made by `final_virtual_ptr`, or objects that embed their v-table pointers, has
the result of the call with the objects themselves in a registry with `vptr_map`, whatever happened to that registry before. The reports are the same. -/
theorem C77_call (hp : p.Valid) (hvars : p.VarsOk) (h1 : OneVar p) (h : Boots B p s s' rep) (h' : Initializes (B.mapped rnd) p t t' rep') (hm : m ∈ p.methods)
    {as : List BareArg} {os : List Arg} (ha : BareArgs B p s' m.params as os) (types : List TypeId) :
    callBare B s' m as types = call (B.mapped rnd).cfg t' m os types ∧ rep = rep' := by
  have hg : p.Good (B.mapped rnd).cfg := ⟨hp, hvars, fun e => by cases e⟩
  obtain ⟨s1, hb, hs⟩ := h.mapped rnd
  obtain ⟨c, img, R, _⟩ := init_ready hg hb
  obtain ⟨c', img', R', _⟩ := init_ready hg h'
  obtain rfl : c = c' := Res.ok.inj (R.compiled.symm.trans R'.compiled)
  have hrep : rep = rep' := by
    obtain ⟨t1, ht1⟩ := ((C31_result (B.mapped rnd) p s t).2.1 rep).1 ⟨s1, hb⟩
    unfold Initializes at ht1 h'
    rw [ht1] at h'
    simp only [Res.ok.injEq, InitOut.mk.injEq, Except.ok.injEq] at h'
    exact h'.2
  refine ⟨?_, hrep⟩
  rw [callBare_ready R hs hm, R'.call hm]
  refine (callMethod_moved R.written R'.written m ?_ types).symm
  have hptr : ∀ x, img'.ptr t.fresh x = (img.ptr s.fresh x).moved t.fresh := by
    intro x
    unfold Image.ptr Ptr.moved
    rw [writeGlobal_vptr R.written R'.written]
  generalize m.params = ks at ha ⊢
  induction ha with
  | nil => exact .nil
  | virt o ho hf _ ih =>
    refine .virt ?_ ih
    rw [bareFor_ptr R hs h1 ho hf, R'.argPtr ho, hptr]
    exact .ptr _ rfl
  | other a b _ ih => exact .other _ _ ih

/-- The pointers exist: `final_virtual_ptr` succeeds for objects of registered classes. -/
theorem C77_final (hp : p.Valid) (hvars : p.VarsOk) (h1 : OneVar p) (h : Boots B p s s' rep) {o : Obj} {v : VarId} (hv : ClassVar p o.type v) (poly : Bool) :
    ∃ w b, VirtualPtr.final B.cfg s' poly o.type v (some o) = .ok w ∧ BareChain B p s' o w ∧ w.arg = .ok (.vptr b) := by
  have hg : p.Good (B.mapped fun _ => 0).cfg := ⟨hp, hvars, fun e => by cases e⟩
  obtain ⟨s1, hb, hs⟩ := h.mapped fun _ => 0
  obtain ⟨c, img, R, _⟩ := init_ready hg hb
  have ho : p.HasId o.type := by obtain ⟨cr, hcr, e, _⟩ := hv; exact ⟨cr, hcr, e⟩
  have hq := R.staticVar ho (h1.static hv)
  rw [← hs.svptr] at hq
  have hreq : requireInitialized B.cfg s' = .ok () := by
    unfold requireInitialized
    rw [hs.initialized, R.initialized]; simp
  obtain ⟨w, hw⟩ : ∃ w, VirtualPtr.final B.cfg s' poly o.type v (some o) = .ok w := by
    unfold VirtualPtr.final
    simp [hreq, hq]
  have hc : BareChain B p s' o w := .final (.inr rfl) rfl hv hw
  obtain ⟨b, rfl, _⟩ := bareChain_designates R hs h1 ho hc
  exact ⟨_, b, hw, hc, rfl⟩

/-- C77, dispatch: the call is one of those to which C01-C09 apply. -/
theorem C77_dispatch (hp : p.Valid) (hvars : p.VarsOk) (h1 : OneVar p) (h : Boots B p s s' rep) (hm : m ∈ p.methods) {as : List BareArg} {os : List Arg}
    (ha : BareArgs B p s' m.params as os) {xs : List Cls} (hx : Objects p m.params os xs) (types : List TypeId) :
    ∃ img args, install B.platform B.n2216 p s.fresh = .ok (rep, img) ∧ ArgsFor (img.ptr s.fresh) m.params args xs ∧
      callBare B s' m as types = callMethod s.fresh img m args types := by
  have hg : p.Good (B.mapped fun _ => 0).cfg := ⟨hp, hvars, fun e => by cases e⟩
  obtain ⟨s1, hb, hs⟩ := h.mapped fun _ => 0
  obtain ⟨c, img, R, _⟩ := init_ready hg hb
  refine ⟨img, _, R.install, ?_, callBare_ready R hs hm as types⟩
  generalize m.params = ks at ha hx
  induction ha generalizing xs with
  | nil => cases hx; exact .nil
  | virt o ho hf _ ih =>
    cases hx with
    | virt _ _ hx =>
      rw [List.map_cons, bareFor_ptr R hs h1 ho hf]
      exact .virt _ (ih hx)
  | other a b _ ih =>
    cases hx with
    | other _ hx => exact .other _ (ih hx)

/-- With one virtual parameter, and classes registered in a supported order: the documented outcome. -/
theorem C77_outcome (hn : B.n2216 = false) (hp : p.Valid) (hvars : p.VarsOk) (h1 : OneVar p) (h : Boots B p s s' rep) (hm : m ∈ p.methods) {as : List BareArg}
    {os : List Arg} (ha : BareArgs B p s' m.params as os) {xs : List Cls} (hx : Objects p m.params os xs) (hc : Callable p m xs)
    (ho : ArgsSafe p (classesOf p m.vp) xs) (hone : m.vp.length = 1) (types : List TypeId) : ∃ r, Expected p m xs r ∧ Does m (callBare B s' m as types) r := by
  obtain ⟨img, args, hi, hargs, e⟩ := C77_dispatch hp hvars h1 h hm ha hx types
  rw [hn] at hi
  rw [e]
  exact C01_partial hp hi ⟨hm, hargs, hc, ho, .inl hone⟩ hone types

/-- Before `initialize`, and after `finalize`, with `runtime_checks`: the error is reported. -/
theorem C77_notInitialized (hk : B.checks = true) (s : RegState) (m : MethodInfo) (as : List BareArg) (types : List TypeId) :
    callBare B .init m as types = .err .notInitialized ∧ callBare B (finalizeBare s) m as types = .err .notInitialized := by
  unfold callBare
  simp [hk, RegState.init, finalizeBare]

theorem bareRead_nothing (gen : Nat) (p : Ptr) : readWord gen [] p = .ub := by
  unfold readWord
  split <;> rfl

theorem bareResolve_nothing {ss : List Nat} {arity gen : Nat} : ∀ (ks : List Bool) (as : List (Res Ptr)), (∀ a ∈ as, ∀ e, a ≠ .err e) →
    resolve (readWord gen []) ss arity ks as = .ub := by
  have h1 : ∀ (ks : List Bool) (as : List (Res Ptr)), (∀ a ∈ as, ∀ e, a ≠ .err e) → resolveUni (readWord gen []) ss ks as = .ub := by
    intro ks as
    induction as generalizing ks with
    | nil => intro _; cases ks with
      | nil => rfl
      | cons k ks => cases k <;> rfl
    | cons a as ih =>
      intro ha
      cases ks with
      | nil => rfl
      | cons k ks =>
        cases k with
        | false => exact ih ks fun b hb => ha b (by simp [hb])
        | true =>
          unfold resolveUni
          cases a with
          | ub => rfl
          | err e => exact absurd rfl (ha (.err e) (by simp) e)
          | ok v =>
            rw [Res.ok_bind]
            cases ss[0]? with
            | none => rfl
            | some n => exact bareRead_nothing _ _
  have h2 : ∀ (ks : List Bool) (as : List (Res Ptr)), (∀ a ∈ as, ∀ e, a ≠ .err e) → resolveMultiFirst (readWord gen []) ss arity ks as = .ub := by
    intro ks as
    induction as generalizing ks with
    | nil => intro _; cases ks with
      | nil => rfl
      | cons k ks => cases k <;> rfl
    | cons a as ih =>
      intro ha
      cases ks with
      | nil => rfl
      | cons k ks =>
        cases k with
        | false => exact ih ks fun b hb => ha b (by simp [hb])
        | true =>
          unfold resolveMultiFirst
          cases a with
          | ub => rfl
          | err e => exact absurd rfl (ha (.err e) (by simp) e)
          | ok v =>
            rw [Res.ok_bind]
            cases ss[0]? with
            | none => rfl
            | some n => rw [Res.ofOption_some, Res.ok_bind, bareRead_nothing]; rfl
  intro ks as ha
  unfold resolve
  split
  · rw [h1 ks as ha]; rfl
  · rw [h2 ks as ha]; rfl

/-- Without `runtime_checks`: the behaviour is undefined, whatever the arguments. -/
theorem C77_unchecked (hk : B.checks = false) (s : RegState) (m : MethodInfo) (as : List BareArg) (types : List TypeId) :
    callBare B .init m as types = .ub ∧ callBare B (finalizeBare s) m as types = .ub := by
  have key : ∀ t : RegState, t.data = [] → callBare B t m as types = .ub := by
    intro t ht
    unfold callBare
    simp only [hk, Bool.false_and, Bool.false_eq_true, if_false]
    cases t.ss m.id with
    | none => rfl
    | some ss =>
      rw [ht]
      simp only [Res.ofOption_some, Res.ok_bind]
      rw [bareResolve_nothing]
      · rfl
      · intro a ha e he
        obtain ⟨b, _, rfl⟩ := List.mem_map.1 ha
        cases b with
        | vptr b =>
          simp only [bareArgPtr] at he
          cases hu : unboxVptr t b <;> rw [hu] at he <;> simp [Res.ofOption] at he
        | embedded b =>
          simp only [bareArgPtr, embeddedPtr, acquireEmbedded, requireInitialized, BareEnv.cfg, hk, Bool.false_and, Bool.false_eq_true, if_false] at he
          have hne : ∀ p : Option Ptr, Res.ofOption p ≠ .err e := fun p => by cases p <;> simp [Res.ofOption]
          rcases b with _ | w | w
          · simp only [Embedded.read, Res.ok_bind] at he
            split at he
            · simp at he
            · exact hne none (by simp at he)
          · exact hne _ (by simpa [Embedded.read] using he)
          · exact hne _ (by simpa [Embedded.read] using he)
  exact ⟨key _ rfl, key _ rfl⟩

/-! ## The hypotheses are met -/

/-- `registry<static_rtti>`, and with `indirect_vptr` and `runtime_checks`. -/
def staticRegistry : BareEnv := { checks := false, indirect := false, platform := .std, n2216 := false }
def staticIndirect : BareEnv := { checks := true, indirect := true, platform := .std, n2216 := false }

def bootOf (B : BareEnv) (p : Program) (s : RegState) : Option (RegState × Report) :=
  match initBare B p s with
  | .ok ⟨s', .ok rep⟩ => some (s', rep)
  | _ => none

theorem bootOf_eq (h : bootOf B p s = some (s', rep)) : Boots B p s s' rep := by
  unfold bootOf at h
  split at h
  · next s'' rep' he =>
    simp only [Option.some.injEq, Prod.mk.injEq] at h
    obtain ⟨rfl, rfl⟩ := h
    exact he
  · cases h

/-- `meet` called with a `virtual_ptr` to a bulldog, made by `final_virtual_ptr`, and a dog that embeds its v-table pointer. -/
theorem zoo_meet (B : BareEnv) {s' : RegState} {rep : Report} (h : Boots B zoo .init s' rep) :
    ∃ a, BareArgs B zoo s' meet.params [.vptr (.direct none), a, .embedded (embed B.cfg s' 2), .vptr (.direct none)] [.obj 0, .obj 4, .obj 2, .obj 0] := by
  obtain ⟨w, b, _, hw, hb⟩ := C77_final (o := ⟨0, 4⟩) (v := 4) zoo_valid (good (cfg := mapped) (by decide +kernel)).vars (by unfold OneVar; decide) h
    ⟨cls 4 [2, 1], by decide, rfl, rfl⟩ false
  exact ⟨_, .other _ _ (.virt ⟨0, 4⟩ ⟨cls 4 [2, 1], by decide, rfl⟩ (.ptr hw hb) (.virt ⟨1, 2⟩ ⟨cls 2 [1], by decide, rfl⟩ (.embedded (.inr rfl) ⟨cls 2 [1], by decide, rfl, rfl⟩)
    (.other _ _ .nil)))⟩

/-- The overrider for two dogs runs, in both registries. -/
example : (bootOf staticRegistry zoo .init).map (fun x => (VirtualPtr.final staticRegistry.cfg x.1 false 4 4 (some ⟨0, 4⟩) >>= VirtualPtr.arg >>= fun a =>
      match a with
      | .vptr b => callBare staticRegistry x.1 meet [.vptr (.direct none), .vptr b, .embedded (embed staticRegistry.cfg x.1 2), .vptr (.direct none)] []
      | .obj _ => .ub)) = some (.ok 22) ∧
    (bootOf staticIndirect zoo .init).map (fun x => callBare staticIndirect x.1 meet
      [.vptr (.direct none), .vptr (.indirect 4), .embedded (embed staticIndirect.cfg .init 2), .vptr (.direct none)] []) = some (.ok 22) := by decide +kernel

/-- With `vptr_map` and the objects themselves. -/
example : (initOf (staticRegistry.mapped fun _ => 0) zoo .init).map (fun x => call (staticRegistry.mapped fun _ => 0).cfg x.1 meet [.obj 0, .obj 4, .obj 2, .obj 0] []) =
    some (.ok 22) := by decide +kernel

end OpenMethod.Props

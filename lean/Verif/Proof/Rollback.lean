import Verif.Model.Rollback
import Verif.Proof.History

/-! # Lemmas about the corrections of `initialize` -/

namespace OpenMethod

open Spec

variable {f : FixesR} {E : Env} {p : Program} {s s' : RegState} {rep : Report} {e : Err}

theorem initR_ok : initRegistryR f E p s = .ok { state := s', result := .ok rep } ↔ Initializes E p s s' rep := by
  unfold Initializes initRegistryR initRegistry
  cases compile E.platform E.n2216 p with
  | ub => exact Iff.rfl
  | err e => exact Iff.rfl
  | ok c =>
    dsimp only
    cases writeGlobal c s.fresh with
    | ub => exact Iff.rfl
    | err e => exact Iff.rfl
    | ok img =>
      dsimp only
      cases vptrInit E.cfg E.rnd (applyImage c.lattice img s).svptr (ctxClasses c.lattice) (applyImage c.lattice img s).vptr with
      | ub => exact Iff.rfl
      | err e => constructor <;> intro h <;> simp at h
      | ok v =>
        dsimp only
        cases v.error with
        | some e => constructor <;> intro h <;> simp at h
        | none => exact Iff.rfl

/-- What remains after an error. -/
theorem initR_error (h : FailsWith E p s s' e) : initRegistryR f E p s =
    .ok { state := { (if f.early then s else s') with vptr := if f.keep then s.vptr else s'.vptr }, result := .error e } := by
  unfold FailsWith initRegistry at h
  unfold initRegistryR
  cases hc : compile E.platform E.n2216 p with
  | ub => rw [hc] at h; cases h
  | err e' =>
    rw [hc] at h
    cases h
    simp
  | ok c =>
    rw [hc] at h
    dsimp only at h ⊢
    cases hw : writeGlobal c s.fresh with
    | ub => rw [hw] at h; cases h
    | err e' =>
      rw [hw] at h
      cases h
      simp
    | ok img =>
      rw [hw] at h
      dsimp only at h ⊢
      cases hv : vptrInit E.cfg E.rnd (applyImage c.lattice img s).svptr (ctxClasses c.lattice) (applyImage c.lattice img s).vptr with
      | ub => rw [hv] at h; cases h
      | err e' =>
        rw [hv] at h
        cases h
        obtain ⟨early, keep⟩ := f
        cases early <;> cases keep <;> rfl
      | ok v =>
        rw [hv] at h
        dsimp only at h ⊢
        cases he : v.error with
        | some e' =>
          rw [he] at h
          cases h
          obtain ⟨early, keep⟩ := f
          cases early <;> cases keep <;> rfl
        | none => rw [he] at h; cases h

theorem initR_ub : initRegistryR f E p s = .ub ↔ initRegistry E p s = .ub := by
  unfold initRegistryR initRegistry
  cases compile E.platform E.n2216 p with
  | ub => exact Iff.rfl
  | err e => exact Iff.rfl
  | ok c =>
    dsimp only
    cases writeGlobal c s.fresh with
    | ub => exact Iff.rfl
    | err e => exact Iff.rfl
    | ok img =>
      dsimp only
      cases vptrInit E.cfg E.rnd (applyImage c.lattice img s).svptr (ctxClasses c.lattice) (applyImage c.lattice img s).vptr with
      | ub => exact Iff.rfl
      | err e => constructor <;> intro h <;> simp at h
      | ok v =>
        dsimp only
        cases v.error with
        | some e => constructor <;> intro h <;> simp at h
        | none => exact Iff.rfl

theorem initRegistry_no_err (e : Err) : initRegistry E p s ≠ .err e := by
  intro h
  unfold initRegistry at h
  split at h
  · cases h
  · cases h
  · split at h
    · cases h
    · cases h
    · dsimp only at h
      split at h
      · cases h
      · cases h
      · split at h <;> cases h

/-- Every outcome of the corrected `initialize` comes from one of the library. -/
theorem initR_cases {o : InitOut} (h : initRegistryR f E p s = .ok o) : ∃ s', initRegistry E p s = .ok { state := s', result := o.result } := by
  cases hl : initRegistry E p s with
  | ub => rw [initR_ub.2 hl] at h; cases h
  | err e => exact absurd hl (initRegistry_no_err e)
  | ok o' =>
    obtain ⟨s', r⟩ := o'
    cases r with
    | ok rep => rw [(initR_ok (f := f)).2 hl] at h; cases h; exact ⟨_, rfl⟩
    | error e => rw [initR_error (f := f) hl] at h; cases h; exact ⟨_, rfl⟩

/-! ## The variables of the hash after a failed search -/

theorem probe_factors : ∀ (ids : List TypeId) (h : HashState) (r : Bool × HashState), probe ids h = .ok r → r.2.mult = h.mult ∧ r.2.shift = h.shift
  | [], h, r, e => by rw [← Res.ok.inj e]; exact ⟨rfl, rfl⟩
  | t :: ts, h, r, e => by
    simp only [probe] at e
    split at e
    · cases e
    · split at e
      · rw [← Res.ok.inj e]; exact ⟨rfl, rfl⟩
      · have h' := probe_factors ts _ r e
        exact h'

theorem tryFactors_factors {k : BitVec 64} {ids : List TypeId} : ∀ (n : Nat) (s : Search) (r : Bool × Search),
    tryFactors (fun _ => k) ids n s = .ok r → (n = 0 → s.state.mult = k ||| 1) → r.2.state.mult = k ||| 1 ∧ r.2.state.shift = s.state.shift
  | 0, s, r, e, hm => by rw [← Res.ok.inj e]; exact ⟨hm rfl, rfl⟩
  | n + 1, s, r, e, _ => by
    simp only [tryFactors] at e
    rw [Res.bind_eq_ok] at e
    obtain ⟨q, hq, e⟩ := e
    obtain ⟨h1, h2⟩ := probe_factors _ _ _ hq
    split at e
    · rw [← Res.ok.inj e]; exact ⟨h1, h2⟩
    · obtain ⟨h3, h4⟩ := tryFactors_factors n _ r e (fun _ => h1)
      exact ⟨h3, h4.trans h2⟩

theorem searchPasses_factors {k : BitVec 64} {ids : List TypeId} {a b : Nat} {q : Search} : ∀ (passes M : Nat) (s : Search),
    searchPasses (fun _ => k) ids passes M s = .ok (.failed a b q) → (passes = 0 → s.state.mult = k ||| 1 ∧ s.state.shift = 64 - (M - 1)) →
    q.state.mult = k ||| 1 ∧ q.state.shift = 64 - (M + passes - 1)
  | 0, M, s, e, h0 => by
    simp only [searchPasses, Res.ok.injEq, HashResult.failed.injEq] at e
    rw [← e.2.2]
    exact h0 rfl
  | passes + 1, M, s, e, _ => by
    simp only [searchPasses] at e
    split at e
    · cases e
    · rw [Res.bind_eq_ok] at e
      obtain ⟨r, hr, e⟩ := e
      obtain ⟨h1, h2⟩ := tryFactors_factors _ _ _ hr (fun h => absurd h (by decide))
      split at e
      · cases e
      · obtain ⟨h3, h4⟩ := searchPasses_factors passes (M + 1) r.2 e (fun _ => ⟨h1, by rw [h2]; simp⟩)
        refine ⟨h3, ?_⟩
        rw [h4]
        congr 1
        omega

theorem hashInit_factors {k : BitVec 64} {N : Nat} {ids : List TypeId} {old : HashState} {a b : Nat} {q : Search}
    (h : hashInit (fun _ => k) N ids old = .ok (.failed a b q)) : q.state.mult = k ||| 1 ∧ q.state.shift = 64 - (initialM N + 3) :=
  searchPasses_factors 4 _ _ h (fun e => absurd e (by decide))

/-- As `init_search_fails`: what remains of the state of the policy. -/
theorem init_search_hash {k : BitVec 64} (hk : E.rnd = fun _ => k) (hp : p.Good E.cfg) {c : Compiled} (hc : compile E.platform E.n2216 p = .ok c)
    (hv : E.cfg.vector = true) (ht : E.cfg.typeHash = true) (h : FailsWith E p s s' e) :
    s'.vptr.vec = s.vptr.vec ∧ s'.vptr.hash.mult = k ||| 1 ∧ s'.vptr.hash.shift = 64 - (initialM c.lattice.order.length + 3) := by
  have C := compile_ok hp.valid.acyclic hp.valid.wf hc
  obtain ⟨bases, img, hw, I⟩ := writeGlobal_ok C s.fresh
  have hlen : (ctxClasses c.lattice).length = c.lattice.order.length := by simp [ctxClasses]
  unfold FailsWith initRegistry at h
  simp only [hc, hw] at h
  have hvp : (applyImage c.lattice img s).vptr = s.vptr := rfl
  rw [hvp] at h
  cases hi : vptrInit E.cfg E.rnd (applyImage c.lattice img s).svptr (ctxClasses c.lattice) s.vptr with
  | ub => rw [hi] at h; cases h
  | err e' => exact absurd hi (vptrInit_no_err (ctxOk (cfg := E.cfg) C.lat hp.ids) e')
  | ok v =>
    rw [hi] at h
    dsimp only at h
    cases he : v.error with
    | none => rw [he] at h; cases h
    | some e' =>
      rw [he] at h
      cases h
      unfold vptrInit at hi
      rw [if_pos hv, if_pos ht, Res.bind_eq_ok] at hi
      obtain ⟨r, hr, hi⟩ := hi
      cases r with
      | found h =>
        unfold fillVec at hi
        dsimp only at hi
        rw [Res.bind_eq_ok] at hi
        obtain ⟨vec, _, hi⟩ := hi
        rw [← Res.ok.inj hi] at he
        cases he
      | failed a b q =>
        rw [← Res.ok.inj hi]
        rw [hk, hlen] at hr
        exact ⟨rfl, hashInit_factors hr⟩

end OpenMethod

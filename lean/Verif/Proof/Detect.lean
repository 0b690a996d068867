import Verif.Model.Detect
import Verif.Proof.Missing
import Verif.Proof.History

/-! # Lemmas about the corrections of `vptr_vector` -/

namespace OpenMethod

open Spec

theorem dynamicVptrD_err {f : FixesD} {cfg : Config} {s : VptrState} {t : TypeId} {e : Err} (h : dynamicVptr cfg s t = .err e) :
    dynamicVptrD f cfg s t = .err e := by
  unfold dynamicVptr at h
  unfold dynamicVptrD
  split
  · rename_i hv
    rw [if_pos hv] at h
    cases hi : vecIndex cfg s.hash t with
    | ub => rw [hi] at h; cases h
    | err e' => rw [hi] at h; exact h
    | ok i =>
      rw [hi, Res.ok_bind] at h
      rw [Res.ok_bind]
      split
      · rename_i hb; rw [if_pos hb] at h; exact h
      · rename_i hb
        rw [if_neg hb] at h
        cases hx : s.vec[i]? with
        | none => rw [hx] at h; cases h
        | some x =>
          rw [hx] at h
          exfalso
          unfold Stored.ref at h
          cases x <;> dsimp only at h
          · split at h <;> cases h
          · cases h
          · cases h
  · rename_i hv
    rw [if_neg hv] at h
    exact h

theorem dynamicVptrD_ok {f : FixesD} {cfg : Config} {s : VptrState} {t : TypeId} {r : VRef} (h : dynamicVptr cfg s t = .ok r) (hr : r ≠ .value none) :
    dynamicVptrD f cfg s t = .ok r := by
  unfold dynamicVptr at h
  unfold dynamicVptrD
  split
  · rename_i hv
    rw [if_pos hv] at h
    cases hi : vecIndex cfg s.hash t with
    | ub => rw [hi] at h; cases h
    | err e' => rw [hi] at h; cases h
    | ok i =>
      rw [hi, Res.ok_bind] at h
      rw [Res.ok_bind]
      split
      · rename_i hb; rw [if_pos hb] at h; cases h
      · rename_i hb
        rw [if_neg hb] at h
        cases hx : s.vec[i]? with
        | none => rw [hx] at h; cases h
        | some x =>
          rw [hx] at h
          dsimp only at h ⊢
          have hnn : x.isNull = false := by
            unfold Stored.ref at h
            cases x with
            | null =>
              dsimp only at h
              split at h
              · cases h
              · exact absurd (Res.ok.inj h).symm hr
            | direct p =>
              cases p with
              | none => exact absurd (Res.ok.inj h).symm hr
              | some q => rfl
            | indirect v => rfl
          rw [hnn, Bool.and_false, if_neg (by decide)]
          exact h
  · rename_i hv
    rw [if_neg hv] at h
    exact h

/-- Elements at which nothing is stored remain. -/
theorem storeVec_other {cfg : Config} (ht : cfg.typeHash = false) {h : HashState} {i : Nat} : ∀ (l : List (TypeId × Stored)) (a b : List Stored),
    (∀ x ∈ l, x.1.toNat ≠ i) → l.foldlM (storeVec cfg h) a = .ok b → b[i]? = a[i]?
  | [], a, b, _, hab => by rw [Res.ok.inj hab]
  | y :: l, a, b, hl, hab => by
    rw [List.foldlM_cons, Res.bind_eq_ok] at hab
    obtain ⟨a', h1, h2⟩ := hab
    rw [storeVec_other ht l a' b (fun x hx => hl x (by simp [hx])) h2]
    have hy := hl y (by simp)
    simp only [storeVec, vecIndex, ht, Bool.false_eq_true, if_false, Res.ok_bind] at h1
    split at h1
    · rw [← Res.ok.inj h1, List.getElem?_set_ne hy]
    · cases h1

theorem ctxPairs_id {cfg : Config} {mem : VarId → Option Ptr} {cs : List CtxClass} {x : TypeId × Stored} (h : x ∈ ctxPairs cfg mem cs) :
    x.1 ∈ cs.flatMap (·.ids) := by
  unfold ctxPairs at h
  obtain ⟨c, hc, h⟩ := List.mem_flatMap.1 h
  obtain ⟨t, ht, rfl⟩ := List.mem_map.1 h
  exact List.mem_flatMap.2 ⟨c, hc, ht⟩

/-- After `clear`, elements of unregistered classes are null. -/
theorem vptrInit_cleared {cfg : Config} (hv : cfg.vector = true) (ht : cfg.typeHash = false) {rnd : Nat → BitVec 64} {mem : VarId → Option Ptr}
    {cs : List CtxClass} {s : VptrState} (hs : s.vec = []) {r : VptrResult} (h : vptrInit cfg rnd mem cs s = .ok r) {t : TypeId}
    (hn : t ∉ cs.flatMap (·.ids)) : ∀ x, r.state.vec[t.toNat]? = some x → x = .null := by
  intro x hx
  unfold vptrInit at h
  rw [if_pos hv, if_neg (by simp [ht])] at h
  unfold fillVec at h
  rw [Res.bind_eq_ok] at h
  obtain ⟨v, h1, h⟩ := h
  rw [← Res.ok.inj h] at hx
  dsimp only at hx
  rw [storeVec_other ht _ _ _ (i := t.toNat) (fun y hy e => hn (by rw [← BitVec.eq_of_toNat_eq e]; exact ctxPairs_id hy)) h1, hs] at hx
  simp only [resize, List.take_nil, List.nil_append] at hx
  exact List.eq_of_mem_replicate (List.mem_of_getElem? hx)

def InitializesD (f : FixesD) (E : Env) (p : Program) (s s' : RegState) (rep : Report) : Prop :=
  initRegistryD f E p s = .ok { state := s', result := .ok rep }

/-- The state with an empty vector. -/
def RegState.cleared (f : FixesD) (s : RegState) : RegState :=
  { s with vptr := if f.clear then { s.vptr with vec := [] } else s.vptr }

theorem initializesD_iff {f : FixesD} {E : Env} {p : Program} {s s' : RegState} {rep : Report} :
    InitializesD f E p s s' rep ↔ Initializes E p (s.cleared f) s' rep := by
  unfold InitializesD Initializes initRegistryD initRegistry
  cases compile E.platform E.n2216 p with
  | ub => exact Iff.rfl
  | err e => constructor <;> intro h <;> simp at h
  | ok c =>
    dsimp only
    have hf : (s.cleared f).fresh = s.fresh := rfl
    rw [hf]
    cases writeGlobal c s.fresh with
    | ub => exact Iff.rfl
    | err e => constructor <;> intro h <;> simp at h
    | ok img =>
      have e : vptrInitD f E.cfg E.rnd (applyImage c.lattice img s).svptr (ctxClasses c.lattice) (applyImage c.lattice img s).vptr =
          vptrInit E.cfg E.rnd (applyImage c.lattice img (s.cleared f)).svptr (ctxClasses c.lattice) (applyImage c.lattice img (s.cleared f)).vptr := rfl
      dsimp only
      rw [e]
      cases vptrInit E.cfg E.rnd (applyImage c.lattice img (s.cleared f)).svptr (ctxClasses c.lattice) (applyImage c.lattice img (s.cleared f)).vptr with
      | ub => exact Iff.rfl
      | err e => constructor <;> intro h <;> simp at h
      | ok v =>
        dsimp only
        cases v.error with
        | some e => constructor <;> intro h <;> simp at h
        | none => exact Iff.rfl

variable {E : Env} {p : Program} {rep : Report} {gen : Nat} {c : Compiled} {img : Image} {s s' : RegState} {f : FixesD}

theorem Ready.dynamicD (R : Ready E p rep gen c img s) {t : TypeId} (ht : p.HasId t) :
    dynamicVptrD f E.cfg s.vptr t = .ok (if E.cfg.indirect then .var (c.lattice.staticVptr (p.rtti.ti t)) else .value (some (img.ptr gen (p.rtti.ti t)))) :=
  dynamicVptrD_ok (R.dynamic ht) (by split <;> simp)

theorem Ready.argPtrD (R : Ready E p rep gen c img s) {t : TypeId} (ht : p.HasId t) :
    argPtrD f E.cfg s (.obj t) = OpenMethod.argPtr E.cfg s (.obj t) := by
  unfold OpenMethod.argPtrD OpenMethod.argPtr acquireVptrD acquireVptr
  simp only [R.require, Res.ok_bind, R.dynamic ht, R.dynamicD ht]

/-- With both corrections, unregistered classes are detected whatever the policy. -/
theorem missingD (R : Ready E p rep s.fresh c img s') (h : InitializesD f E p s s' rep) (hnull : f.null = true) (hclear : f.clear = true) (hk : E.cfg.checks = true)
    {t : TypeId} (ht : ¬ p.HasId t) (hn : E.cfg.vector = true → t ≠ noType) : dynamicVptrD f E.cfg s'.vptr t = .err (.missingClass t) := by
  by_cases hh : E.cfg.vector = true → E.cfg.typeHash = true
  · exact dynamicVptrD_err (R.missing hk hh ht hn)
  · have hv : E.cfg.vector = true := by
      cases h' : E.cfg.vector with
      | true => rfl
      | false => exact absurd (fun e => absurd (h'.symm.trans e) (by decide)) hh
    have hth : E.cfg.typeHash = false := by
      cases h' : E.cfg.typeHash with
      | false => rfl
      | true => exact absurd (fun _ => h') hh
    obtain ⟨v, hi, _, hs'⟩ := init_eq (initializesD_iff.1 h) R.compiled R.written
    have hvec : (s.cleared f).vptr.vec = [] := by simp [RegState.cleared, hclear]
    have hnul := vptrInit_cleared hv hth hvec hi (t := t) (fun hm => ht ((mem_ctxIds R.ok.lat t).1 hm))
    have hst : s'.vptr = v.state := by rw [hs']
    rw [← hst] at hnul
    unfold dynamicVptrD
    simp only [hv, if_true, vecIndex, hth, Bool.false_eq_true, if_false, Res.ok_bind, hk, Bool.not_false, Bool.true_and, Bool.and_true, hnull]
    split
    · rfl
    · rename_i hl
      cases hx : s'.vptr.vec[t.toNat]? with
      | none =>
        rw [List.getElem?_eq_none_iff] at hx
        exact absurd (decide_eq_true hx) hl
      | some x =>
        rw [hnul x hx]
        rfl

theorem replD (R : Ready E p rep s.fresh c img s') (h : InitializesD f E p s s' rep) (hnull : f.null = true) (hclear : f.clear = true) (hk : E.cfg.checks = true)
    {ks : List Bool} {args : List Arg} {xs : List Cls} {ts : List TypeId} (hm : Mixed p ks args xs ts) (hn : E.cfg.vector = true → noType ∉ ts) :
    ∃ as, ArgsFor (img.ptr s.fresh) ks as xs ∧ Repl ks as (args.map (OpenMethod.argPtrD f E.cfg s')) ts := by
  induction hm with
  | nil => exact ⟨[], .nil, .nil⟩
  | virt t ht _ ih =>
    obtain ⟨as, h1, h2⟩ := ih hn
    refine ⟨_, .virt _ h1, ?_⟩
    rw [List.map_cons, R.argPtrD ht, R.argPtr ht]
    exact .same _ h2
  | @unregistered ks as xs ts t x ht _ ih =>
    obtain ⟨as, h1, h2⟩ := ih (fun hv hm => hn hv (by simp [hm]))
    refine ⟨_, .virt x h1, ?_⟩
    have hm := missingD R h hnull hclear hk ht (fun hv e => hn hv (by simp [e]))
    have : OpenMethod.argPtrD f E.cfg s' (.obj t) = .err (.missingClass t) := by
      unfold OpenMethod.argPtrD acquireVptrD
      simp only [R.require, Res.ok_bind, hm, Res.err_bind]
    rw [List.map_cons, this]
    exact .bad _ t h2
  | other a _ ih =>
    obtain ⟨as, h1, h2⟩ := ih hn
    exact ⟨_, .other (OpenMethod.argPtrD f E.cfg s' a) h1, by rw [List.map_cons]; exact .other _ _ h2⟩

theorem Ready.callD (R : Ready E p rep gen c img s) {m : MethodInfo} (hm : m ∈ p.methods) (args : List Arg) (types : List TypeId) :
    callD f E.cfg s m args types = callMethod gen img m (args.map (OpenMethod.argPtrD f E.cfg s)) types := by
  unfold OpenMethod.callD callMethod
  rw [R.require, Res.ok_bind, R.ss m hm, R.data, R.storage]

end OpenMethod

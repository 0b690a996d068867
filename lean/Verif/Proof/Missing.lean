import Verif.Proof.Registry

/-! # A call with an argument of an unregistered class -/

namespace OpenMethod

open Spec

/-- The same evaluations of arguments, except that some of the virtual ones report a missing class. -/
inductive Repl : List Bool → List (Res Ptr) → List (Res Ptr) → List TypeId → Prop
  | nil : Repl [] [] [] []
  | same {ks as bs ts} (a : Res Ptr) : Repl ks as bs ts → Repl (true :: ks) (a :: as) (a :: bs) ts
  | bad {ks as bs ts} (a : Res Ptr) (t : TypeId) : Repl ks as bs ts → Repl (true :: ks) (a :: as) (.err (.missingClass t) :: bs) (t :: ts)
  | other {ks as bs ts} (a b : Res Ptr) : Repl ks as bs ts → Repl (false :: ks) (a :: as) (b :: bs) ts

/-- The error for the first missing class, if any. -/
def firstMissing {α : Type} (r : Res α) : List TypeId → Res α
  | [] => r
  | t :: _ => .err (.missingClass t)

theorem Repl.rest_nil {b : Nat} {as bs : List (Res Ptr)} {ts : List TypeId} (h : Repl (List.replicate b false) as bs ts) : ts = [] := by
  induction b generalizing as bs ts with
  | zero => cases h; rfl
  | succ b ih =>
    rw [List.replicate_succ] at h
    cases h with
    | other a b h => exact ih h

theorem resolveMultiNext_repl {rd : Ptr → Res Word} {ss : List Nat} {arity b : Nat} (n : Nat) :
    ∀ (va : Nat) (d : Ptr) (as bs : List (Res Ptr)) (ts : List TypeId) (w : Word), va + (n + 1) = arity →
    Repl (List.replicate (n + 1) true ++ List.replicate b false) as bs ts →
    resolveMultiNext rd ss arity va d (List.replicate (n + 1) true ++ List.replicate b false) as = .ok w →
    resolveMultiNext rd ss arity va d (List.replicate (n + 1) true ++ List.replicate b false) bs = firstMissing (.ok w) ts := by
  induction n with
  | zero =>
    intro va d as bs ts w hva h hr
    simp only [Nat.zero_add, List.replicate_one, List.cons_append, List.nil_append] at h hr ⊢
    cases h with
    | same a h =>
      have hts := h.rest_nil
      subst hts
      have hva' : va + 1 = arity := by omega
      simp only [resolveMultiNext, if_pos hva'] at hr ⊢
      exact hr
    | bad a t h =>
      simp only [resolveMultiNext, nextDispatch, if_true, firstMissing, Res.err_bind]
  | succ n ih =>
    intro va d as bs ts w hva h hr
    rw [List.replicate_succ, List.cons_append] at h hr ⊢
    cases h with
    | same a h =>
      simp only [resolveMultiNext] at hr ⊢
      rw [Res.bind_eq_ok] at hr
      obtain ⟨q, hq, hr⟩ := hr
      rw [hq, Res.ok_bind]
      rw [if_neg (by omega)] at hr ⊢
      exact ih (va + 1) q _ _ _ w (by omega) h hr
    | bad a t h =>
      simp only [resolveMultiNext, nextDispatch, if_true, firstMissing, Res.err_bind]

theorem resolveUni_repl {rd : Ptr → Res Word} {ss : List Nat} {ks : List Bool} {as bs : List (Res Ptr)} {ts : List TypeId} (h : Repl ks as bs ts)
    (hk : ks.count true = 1) {w : Word} (hr : resolveUni rd ss ks as = .ok w) : resolveUni rd ss ks bs = firstMissing (.ok w) ts := by
  induction h with
  | nil => simp at hk
  | @same ks as bs ts a h _ =>
    have hts : ts = [] := by
      have hk0 : ks.count true = 0 := by simpa using hk
      have : ks = List.replicate ks.length false := by
        rw [List.eq_replicate_iff]
        refine ⟨rfl, fun k hk => ?_⟩
        cases k with
        | false => rfl
        | true => exact absurd hk (List.count_eq_zero.1 hk0)
      rw [this] at h
      exact h.rest_nil
    subst hts
    exact hr
  | bad a t _ _ => simp only [resolveUni, firstMissing, Res.err_bind]
  | other a b _ ih =>
    simp only [resolveUni] at hr ⊢
    exact ih (by simpa using hk) hr

theorem resolveMultiFirst_repl {rd : Ptr → Res Word} {ss : List Nat} {arity n b : Nat} (hn : n + 2 = arity) (k : Nat) :
    ∀ (as bs : List (Res Ptr)) (ts : List TypeId) (w : Word),
    Repl (List.replicate k false ++ List.replicate (n + 2) true ++ List.replicate b false) as bs ts →
    resolveMultiFirst rd ss arity (List.replicate k false ++ List.replicate (n + 2) true ++ List.replicate b false) as = .ok w →
    resolveMultiFirst rd ss arity (List.replicate k false ++ List.replicate (n + 2) true ++ List.replicate b false) bs = firstMissing (.ok w) ts := by
  induction k with
  | zero =>
    intro as bs ts w h hr
    rw [List.replicate_zero, List.nil_append, List.replicate_succ, List.cons_append] at h hr ⊢
    cases h with
    | same a h =>
      simp only [resolveMultiFirst] at hr ⊢
      rw [Res.bind_eq_ok] at hr
      obtain ⟨v, rfl, hr⟩ := hr
      rw [Res.bind_eq_ok] at hr
      obtain ⟨slot, hs, hr⟩ := hr
      rw [Res.bind_eq_ok] at hr
      obtain ⟨w', hw, hr⟩ := hr
      rw [Res.bind_eq_ok] at hr
      obtain ⟨d, hd, hr⟩ := hr
      rw [Res.ok_bind, hs, Res.ok_bind, hw, Res.ok_bind, hd, Res.ok_bind]
      exact resolveMultiNext_repl n 1 d _ _ _ w (by omega) h hr
    | bad a t h => simp only [resolveMultiFirst, firstMissing, Res.err_bind]
  | succ k ih =>
    intro as bs ts w h hr
    rw [List.replicate_succ, List.cons_append, List.cons_append] at h hr ⊢
    cases h with
    | other a b' h =>
      simp only [resolveMultiFirst] at hr ⊢
      exact ih _ _ _ w h hr

theorem count_contiguous (a n b : Nat) : (List.replicate a false ++ List.replicate n true ++ List.replicate b false).count true = n := by
  rw [List.count_append, List.count_append, List.count_replicate, List.count_replicate, List.count_replicate]
  simp

theorem resolve_repl {rd : Ptr → Res Word} {ss : List Nat} {m : MethodInfo} (hwf : m.WF) (hc : m.vp.length = 1 ∨ Contiguous m.params)
    {as bs : List (Res Ptr)} {ts : List TypeId} (h : Repl m.params as bs ts) {f : Pf} (hr : resolve rd ss m.arity m.params as = .ok f) :
    resolve rd ss m.arity m.params bs = firstMissing (.ok f) ts := by
  have key : ∀ x : Res Word, ∀ w, w.asPf = .ok f → x = firstMissing (.ok w) ts → (x >>= Word.asPf) = firstMissing (.ok f) ts := by
    rintro _ w hw rfl
    cases ts with
    | nil => exact hw
    | cons t ts => rfl
  unfold resolve at hr ⊢
  dsimp only at hr ⊢
  by_cases h1 : m.arity = 1
  · rw [if_pos h1] at hr ⊢
    rw [Res.bind_eq_ok] at hr
    obtain ⟨w, hw, hf⟩ := hr
    exact key _ w hf (resolveUni_repl h (by rw [hwf.kinds]; exact h1) hw)
  · rw [if_neg h1] at hr ⊢
    rw [Res.bind_eq_ok] at hr
    obtain ⟨w, hw, hf⟩ := hr
    rcases hc with hc | ⟨a, n, b, hc⟩
    · exact absurd hc h1
    have hn : n = m.vp.length := by
      have := hwf.kinds
      rw [hc, count_contiguous] at this
      exact this
    have hpos := hwf.pos
    unfold MethodInfo.arity at h1 hw ⊢
    obtain ⟨n', rfl⟩ : ∃ n', n = n' + 2 := ⟨n - 2, by omega⟩
    rw [hc] at h hw ⊢
    exact key _ w hf (resolveMultiFirst_repl hn a _ _ _ w h hw)

variable {E : Env} {p : Program} {rep : Report} {gen : Nat} {c : Compiled} {img : Image} {s : RegState}

/-- Evaluating arguments some of which are of classes that are not detected or registered. -/
theorem Ready.repl (R : Ready E p rep gen c img s) (hk : E.cfg.checks = true) (hh : E.cfg.vector = true → E.cfg.typeHash = true)
    {ks : List Bool} {args : List Arg} {xs : List Cls} {ts : List TypeId} (h : Mixed p ks args xs ts) (hn : E.cfg.vector = true → noType ∉ ts) :
    ∃ as, ArgsFor (img.ptr gen) ks as xs ∧ Repl ks as (args.map (OpenMethod.argPtr E.cfg s)) ts := by
  induction h with
  | nil => exact ⟨[], .nil, .nil⟩
  | virt t ht _ ih =>
    obtain ⟨as, h1, h2⟩ := ih hn
    refine ⟨_, .virt _ h1, ?_⟩
    rw [List.map_cons, R.argPtr ht]
    exact .same _ h2
  | @unregistered ks as xs ts t x ht _ ih =>
    obtain ⟨as, h1, h2⟩ := ih (fun hv hm => hn hv (by simp [hm]))
    refine ⟨_, .virt x h1, ?_⟩
    have hm := R.missing hk hh ht (fun hv e => hn hv (by simp [e]))
    have : OpenMethod.argPtr E.cfg s (.obj t) = .err (.missingClass t) := by
      unfold OpenMethod.argPtr acquireVptr
      simp only [R.require, Res.ok_bind, hm, Res.err_bind]
    rw [List.map_cons, this]
    exact .bad _ t h2
  | other a _ ih =>
    obtain ⟨as, h1, h2⟩ := ih hn
    exact ⟨_, .other (OpenMethod.argPtr E.cfg s a) h1, by rw [List.map_cons]; exact .other _ _ h2⟩

theorem Ready.call_missing (R : Ready E p rep gen c img s) (hv : p.Valid) (hk : E.cfg.checks = true) (hh : E.cfg.vector = true → E.cfg.typeHash = true)
    {m : MethodInfo} (hm : m ∈ p.methods) {args : List Arg} {xs : List Cls} {t : TypeId} {ts : List TypeId} (h : Mixed p m.params args xs (t :: ts))
    (hn : E.cfg.vector = true → noType ∉ t :: ts) (hcall : Callable p m xs) (ho : ArgsSafe p (classesOf p m.vp) xs) (hc : m.vp.length = 1 ∨ Contiguous m.params)
    (types : List TypeId) : OpenMethod.call E.cfg s m args types = .err (.missingClass t) := by
  obtain ⟨as, h1, h2⟩ := R.repl hk hh h hn
  obtain ⟨c', bases, hcomp, C, hw, I, _, hL⟩ := install_ok hv R.install
  have hM := C.methOk m hm
  obtain ⟨i, hi⟩ := List.getElem?_of_mem hm
  obtain ⟨_, _, _, f, ss, _, _, _, _, hss, hres⟩ := resolve_ok C I hv.ids hi h1 (callable_argsOk C.lat hM hcall)
    (slotSafe_of_argsSafe hv.acyclic C.lat C.meths hL ho) hc
  rw [R.call hm]
  unfold callMethod
  rw [hss, Res.ofOption_some, Res.ok_bind, resolve_repl (hv.wf m hm) hc h2 hres]
  rfl

end OpenMethod

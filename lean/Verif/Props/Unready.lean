import Verif.Proof.Detect
import Verif.Props.Resources

/-!
# C28 and C30: the cases that are not detected

`C30_unchecked`: what C30 becomes without runtime_checks.  `C28_exact`: which unregistered classes `vptr_vector` detects without
a hash, in a registry that was not initialized before or was finalized.
-/

namespace OpenMethod.Props

open Spec Examples

variable {cfg : Config} {E : Env} {p : Program} {s s' : RegState} {rep : Report}

theorem History.no_data (h : History cfg s false) : s.data = [] := by
  generalize hb : false = b at h
  induction h with
  | start => rfl
  | ok _ _ _ _ => cases hb
  | failed _ _ h ih => rw [(fails_keeps h).1, ih hb]
  | exhausted _ _ h ih => rw [← ih hb]; exact h.keeps.1.data
  | final _ _ _ => rfl

/-- Without runtime_checks, acquiring a v-table pointer reports nothing. -/
theorem argPtr_unchecked (hk : cfg.checks = false) (a : Arg) (e : Err) : argPtr cfg s a ≠ .err e := by
  have hne : ∀ q : Option Ptr, Res.ofOption q ≠ .err e := fun q => by cases q <;> simp [Res.ofOption]
  cases a with
  | vptr b => exact hne _
  | obj t =>
    intro he
    have href : ∀ x : Stored, (x.ref cfg >>= fun r => Res.ofOption (r.read s.svptr)) ≠ .err e := by
      intro x
      cases x with
      | null => cases hi : cfg.indirect <;> simp [Stored.ref, hi, Res.ofOption, VRef.read]
      | direct q => exact hne _
      | indirect v => exact hne _
    have hi : ∃ i, vecIndex cfg s.vptr.hash t = .ok i := by
      unfold vecIndex
      rw [hk]
      cases cfg.typeHash <;> exact ⟨_, rfl⟩
    obtain ⟨i, hi⟩ := hi
    simp only [argPtr, acquireVptr, requireInitialized, dynamicVptr, hk, Bool.false_and, Bool.and_false, Bool.false_eq_true, if_false, Res.ok_bind, hi] at he
    split at he
    · cases hx : s.vptr.vec[i]? with
      | none => rw [hx] at he; cases he
      | some x => rw [hx] at he; exact href x he
    · cases hx : s.vptr.map.find? (fun y => y.1 == t) with
      | none => rw [hx] at he; cases he
      | some x => rw [hx] at he; exact href x.2 he

/-- Without runtime_checks, before the first successful `initialize`, and between `finalize` and the next one, every call has
undefined behaviour, whatever the method and the arguments: no overrider is entered and no error is reported. -/
theorem C30_unchecked (hk : cfg.checks = false) (h : History cfg s false) (m : MethodInfo) (args : List Arg) (types : List TypeId) :
    call cfg s m args types = .ub := by
  have hr : requireInitialized cfg s = .ok () := by unfold requireInitialized; rw [hk]; rfl
  unfold call
  rw [hr, Res.ok_bind, History.no_data h]
  cases s.ss m.id with
  | none => rfl
  | some ss =>
    rw [Res.ofOption_some, Res.ok_bind, resolve_nothing]
    · rfl
    · intro a ha e
      obtain ⟨x, _, rfl⟩ := List.mem_map.1 ha
      exact argPtr_unchecked hk x e

/-- The largest element is in the list, or is the initial one. -/
theorem foldl_max_mem (ids : List TypeId) : ∀ n, ids.foldl (fun n t => Nat.max n t.toNat) n = n ∨
    ∃ t ∈ ids, ids.foldl (fun n t => Nat.max n t.toNat) n = t.toNat := by
  induction ids with
  | nil => intro n; exact .inl rfl
  | cons u ids ih =>
    intro n
    rw [List.foldl_cons]
    rcases ih (Nat.max n u.toNat) with h | ⟨t, ht, h⟩
    · rw [h]
      rcases Nat.le_total n u.toNat with hl | hl
      · exact .inr ⟨u, by simp, Nat.max_eq_right hl⟩
      · exact .inl (Nat.max_eq_left hl)
    · exact .inr ⟨t, by simp [ht], h⟩

/-- `vptr_vector` without a hash, with runtime_checks, after `initialize` with an empty vector: an object of an unregistered class
is reported exactly if its type id is larger than all the registered ones, and is not zero.  Otherwise its use has undefined behaviour. -/
theorem C28_exact (hp : p.Good E.cfg) (h : Initializes E p s s' rep) (hs : s.vptr.vec = []) (hk : E.cfg.checks = true) (hv : E.cfg.vector = true)
    (hh : E.cfg.typeHash = false) {t : TypeId} (ht : ¬ p.HasId t) :
    ((t ≠ 0 ∧ ∀ u, p.HasId u → u.toNat < t.toNat) → argPtr E.cfg s' (.obj t) = .err (.missingClass t)) ∧
    (¬ (t ≠ 0 ∧ ∀ u, p.HasId u → u.toNat < t.toNat) → argPtr E.cfg s' (.obj t) = .ub) := by
  obtain ⟨c, img, R, _⟩ := init_ready hp h
  have hlen := R.vec_length h hv hh
  obtain ⟨v, hi, _, hs'⟩ := init_eq h R.compiled R.written
  have hmem : ∀ u, u ∈ (ctxClasses c.lattice).flatMap (·.ids) ↔ p.HasId u := mem_ctxIds R.ok.lat
  have hnul := vptrInit_cleared hv hh hs hi (t := t) (fun hm => ht ((hmem t).1 hm))
  have hst : s'.vptr = v.state := by rw [hs']
  rw [← hst] at hnul
  have h0 : t ≠ 0 ↔ 0 < t.toNat := by
    rw [Nat.pos_iff_ne_zero]
    exact not_congr ⟨fun e => by rw [e]; rfl, fun e => BitVec.eq_of_toNat_eq e⟩
  have hargs : argPtr E.cfg s' (.obj t) = if s'.vptr.vec.length ≤ t.toNat then .err (.missingClass t) else .ub := by
    unfold argPtr acquireVptr dynamicVptr
    simp only [R.require, Res.ok_bind, hv, if_true, vecIndex, hh, hk, Bool.not_false, Bool.true_and, Bool.false_eq_true, if_false, decide_eq_true_eq]
    split
    · rfl
    · rename_i hl
      cases hx : s'.vptr.vec[t.toNat]? with
      | none => exact absurd (List.getElem?_eq_none_iff.1 hx) hl
      | some x =>
        rw [hnul x hx]
        cases hind : E.cfg.indirect <;> simp [Stored.ref, hind, VRef.read, Res.ofOption]
  rw [hargs, hlen]
  have hmax := foldl_max_mem ((ctxClasses c.lattice).flatMap (·.ids)) 0
  refine ⟨fun ⟨hz, hu⟩ => if_pos ?_, fun hn => if_neg fun hle => hn ⟨?_, fun u hu => ?_⟩⟩
  · have := foldl_max_lt (B := t.toNat) ((ctxClasses c.lattice).flatMap (·.ids)) 0 (h0.1 hz) (fun u hm => hu u ((hmem u).1 hm))
    unfold vecSize
    exact Nat.le_trans (Nat.mod_le _ _) this
  · refine h0.2 (Nat.lt_of_lt_of_le ?_ hle)
    have h2 := foldl_max_lt (B := 2 ^ 64 - 1) ((ctxClasses c.lattice).flatMap (·.ids)) 0 (by decide) (fun u hm => toNat_lt_of_ne (R.ctx.valid hv u hm))
    unfold vecSize
    rw [Nat.mod_eq_of_lt (by omega)]
    omega
  · exact Nat.lt_of_lt_of_le (vecSize_gt (R.ctx.valid hv) ((hmem u).2 hu)) hle

/-! ## The hypotheses are met -/

/-- In `gap`, classes 1 and 3 are registered: ids 0 and 2 are not detected, id 4 is. -/
example : goodB plain gap = true ∧ callAfter (env plain) [gap] kick [.obj 2] = some .ub ∧ callAfter (env plain) [gap] kick [.obj 0] = some .ub ∧
    callAfter (env plain) [gap] kick [.obj 4] = some (.err (.missingClass 4)) ∧
    callAfter (env (Config.ind plain)) [gap] kick [.obj 2] = some .ub := by decide +kernel

/-- Without runtime_checks: a call before `initialize`, and the same call after it. -/
example : History unchecked .init false ∧ call unchecked .init poke [.obj 0, .obj 4, .obj 0] [] = .ub ∧
    callAfter (env unchecked) [zoo] poke [.obj 0, .obj 4, .obj 0] = some (.ok 14) := ⟨.start, by decide +kernel, by decide +kernel⟩

end OpenMethod.Props

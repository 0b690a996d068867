import Verif.Proof.Stale
import Verif.Props.Unready
import Verif.Props.Detect

/-!
# C28: `vptr_vector` without a hash, in all histories

`C28_exact` is about registries that were not initialized before.  Otherwise, v-table pointers of classes that were unregistered since
remain in the vector.  With direct v-table pointers they refer to released dispatch data, so that no overrider is entered.
-/

namespace OpenMethod.Props

open Spec Examples

variable {E : Env} {p : Program} {s s' : RegState} {rep : Report} {b : Bool} {t : TypeId}

/-- The argument is detected, or is null, or its v-table was released. -/
theorem stale_arg (h0 : History E.cfg s b) (hp : p.Good E.cfg) (h : Initializes E p s s' rep) (hv : E.cfg.vector = true) (hh : E.cfg.typeHash = false)
    (hd : E.cfg.indirect = false) (ht : ¬ p.HasId t) :
    argPtr E.cfg s' (.obj t) = .err (.missingClass t) ∨ argPtr E.cfg s' (.obj t) = .ub ∨
    ∃ q, argPtr E.cfg s' (.obj t) = .ok q ∧ ∀ k, readWord s'.gen s'.data (q.add k) = .ub := by
  obtain ⟨c, img, R, _⟩ := init_ready hp h
  obtain ⟨v, hi, _, hs'⟩ := init_eq h R.compiled R.written
  have hst : s'.vptr = v.state := by rw [hs']
  have hgen : s'.gen = s.fresh := by rw [hs']
  have hel : ∀ x, s'.vptr.vec[t.toNat]? = some x → x = .null ∨ x ∈ s.vptr.vec := by
    intro x hx
    rw [hst] at hx
    unfold vptrInit at hi
    rw [if_pos hv, if_neg (by simp [hh])] at hi
    unfold fillVec at hi
    rw [Res.bind_eq_ok] at hi
    obtain ⟨vec, h1, hi⟩ := hi
    rw [← Res.ok.inj hi] at hx
    dsimp only at hx
    rw [storeVec_other hh _ _ _ (i := t.toNat) (fun y hy e => ht ((mem_ctxIds R.ok.lat t).1 (by rw [← BitVec.eq_of_toNat_eq e]; exact ctxPairs_id hy))) h1] at hx
    rcases resize_mem (List.mem_of_getElem? hx) with h | h
    · exact .inr h
    · exact .inl h
  unfold argPtr acquireVptr dynamicVptr
  simp only [R.require, Res.ok_bind, hv, if_true, vecIndex, hh, Bool.not_false, Bool.true_and, Bool.false_eq_true, if_false]
  split
  · exact .inl rfl
  · cases hx : s'.vptr.vec[t.toNat]? with
    | none => exact .inr (.inl rfl)
    | some x =>
      cases x with
      | null => exact .inr (.inl (by simp [Stored.ref, hd, VRef.read, Res.ofOption]))
      | direct w =>
        cases w with
        | none => exact .inr (.inl rfl)
        | some q =>
          refine .inr (.inr ⟨q, rfl, fun k => ?_⟩)
          rcases hel _ hx with e | e
          · cases e
          · have := h0.old.vec q e
            unfold readWord
            rw [if_neg]
            rintro ⟨h1, _⟩
            have h1 : q.gen = s'.gen := h1
            omega
      | indirect w =>
        exfalso
        rcases hel _ hx with e | e
        · cases e
        · exact h0.no_indirect hd w e

/-- With direct v-table pointers, whatever was registered before, a call whose first virtual argument is an object of an unregistered
class enters no overrider: it is reported, or its behaviour is undefined because released memory or a null pointer is read. -/
theorem C28_stale (h0 : History E.cfg s b) (hp : p.Good E.cfg) (h : Initializes E p s s' rep) (hv : E.cfg.vector = true) (hh : E.cfg.typeHash = false)
    (hd : E.cfg.indirect = false) (ht : ¬ p.HasId t) {m : MethodInfo} {ks : List Bool} {before after : List Arg}
    (hm : m.params = List.replicate before.length false ++ true :: ks) (types : List TypeId) :
    call E.cfg s' m (before ++ .obj t :: after) types = .err (.missingClass t) ∨ call E.cfg s' m (before ++ .obj t :: after) types = .ub := by
  obtain ⟨c, img, R, _⟩ := init_ready hp h
  have key : (∀ ss : List Nat, ∀ as bs : List (Res Ptr), as.length = before.length →
      (resolveUni (readWord s'.gen s'.data) ss m.params (as ++ argPtr E.cfg s' (.obj t) :: bs) = .err (.missingClass t) ∨
       resolveUni (readWord s'.gen s'.data) ss m.params (as ++ argPtr E.cfg s' (.obj t) :: bs) = .ub) ∧
      (resolveMultiFirst (readWord s'.gen s'.data) ss m.arity m.params (as ++ argPtr E.cfg s' (.obj t) :: bs) = .err (.missingClass t) ∨
       resolveMultiFirst (readWord s'.gen s'.data) ss m.arity m.params (as ++ argPtr E.cfg s' (.obj t) :: bs) = .ub)) := by
    intro ss as bs hl
    rw [hm, ← hl]
    clear hl hm
    induction as with
    | nil =>
      simp only [List.length_nil, List.replicate_zero, List.nil_append, resolveUni, resolveMultiFirst]
      rcases stale_arg h0 hp h hv hh hd ht with e | e | ⟨q, e, hq⟩
      · rw [e]; exact ⟨.inl rfl, .inl rfl⟩
      · rw [e]; exact ⟨.inr rfl, .inr rfl⟩
      · rw [e]
        cases ss[0]? with
        | none => exact ⟨.inr rfl, .inr rfl⟩
        | some k => simp [Res.ofOption, hq k]
    | cons a as ih =>
      simp only [List.length_cons, List.replicate_succ, List.cons_append, resolveUni, resolveMultiFirst]
      exact ih
  unfold call
  rw [R.require, Res.ok_bind]
  cases s'.ss m.id with
  | none => exact .inr rfl
  | some ss =>
    obtain ⟨k1, k2⟩ := key ss (before.map (argPtr E.cfg s')) (after.map (argPtr E.cfg s')) (by simp)
    rw [Res.ofOption_some, Res.ok_bind, List.map_append, List.map_cons]
    unfold resolve
    split
    · rcases k1 with e | e <;> rw [e]
      · exact .inl rfl
      · exact .inr rfl
    · rcases k2 with e | e <;> rw [e]
      · exact .inl rfl
      · exact .inr rfl

/-! ## The hypotheses are met -/

/-- Class 2 is unloaded: the v-table pointer in the vector is that of the first initialization. -/
example : goodB plain gap = true ∧ callAfter (env plain) [DetectExample.loaded, gap] kick [.obj 2] = some .ub ∧
    callAfter (env plain) [DetectExample.loaded, gap] kick [.obj 3] = some (.ok 10) ∧
    callAfter (env plain) [DetectExample.loaded, gap] kick [.obj 4] = some (.err (.missingClass 4)) := by decide +kernel

/-- Class 3 has two type ids, 2 and 3. -/
def aliased : Program :=
  { rtti := { ti := fun t => if t = 2 then 3 else t.toNat, void := 1000#64 }
    classes := [cls 1 [], cls 3 [1], { cls 3 [1] with type := 2 }], methods := [kick] }

/-- As `aliased`, after the library with id 2 was unloaded. -/
def unaliased : Program := { aliased with classes := [cls 1 [], cls 3 [1]] }

/-- With `indirect_vptr`, the address of a `static_vptr` remains, and the call can succeed, although the id is not registered any more. -/
example : goodB (Config.ind plain) aliased = true ∧ goodB (Config.ind plain) unaliased = true ∧
    callAfter (env (Config.ind plain)) [aliased, unaliased] kick [.obj 2] = some (.ok 10) ∧
    callAfter (env plain) [aliased, unaliased] kick [.obj 2] = some .ub := by decide +kernel

end OpenMethod.Props

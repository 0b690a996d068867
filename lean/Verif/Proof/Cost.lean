import Verif.SpecCost
import Verif.Model.Cost
import Verif.Proof.World

/-! # The cost of calls -/

namespace OpenMethod

open Spec

/-! ## What the vptr policies store depends on `indirect_vptr` -/

/-- An element of the vector or map, in a registry with these policies. -/
def Stored.Fits (cfg : Config) : Stored → Prop
  | .null => True
  | .direct _ => cfg.indirect = false
  | .indirect _ => cfg.indirect = true

structure VptrState.Fits (cfg : Config) (s : VptrState) : Prop where
  vec : ∀ x ∈ s.vec, x.Fits cfg
  map : ∀ x ∈ s.map, x.2.Fits cfg

theorem ctxPairs_fits {cfg : Config} {mem : VarId → Option Ptr} {cs : List CtxClass} : ∀ x ∈ ctxPairs cfg mem cs, x.2.Fits cfg := by
  rintro ⟨t, x⟩ h
  obtain ⟨c, _, _, rfl⟩ := of_mem_ctxPairs h
  simp only [storedFor]
  split <;> simp_all [Stored.Fits]

theorem storeVec_fits {cfg : Config} {h : HashState} : ∀ (l : List (TypeId × Stored)) (a b : List Stored), (∀ x ∈ l, x.2.Fits cfg) → (∀ x ∈ a, x.Fits cfg) →
    l.foldlM (storeVec cfg h) a = .ok b → ∀ x ∈ b, x.Fits cfg
  | [], a, b, _, ha, hab => by
    obtain rfl := Res.ok.inj hab
    exact ha
  | y :: l, a, b, hl, ha, hab => by
    rw [List.foldlM_cons, Res.bind_eq_ok] at hab
    obtain ⟨a', h1, h2⟩ := hab
    refine storeVec_fits l a' b (fun x hx => hl x (by simp [hx])) ?_ h2
    unfold storeVec at h1
    rw [Res.bind_eq_ok] at h1
    obtain ⟨i, _, h1⟩ := h1
    split at h1
    · obtain rfl := Res.ok.inj h1
      intro x hx
      rcases List.mem_or_eq_of_mem_set hx with hx | rfl
      · exact ha x hx
      · exact hl y (by simp)
    · cases h1

theorem fillVec_fits {cfg : Config} {mem : VarId → Option Ptr} {cs : List CtxClass} {s : VptrState} (hs : s.Fits cfg) {n : Nat} {r : VptrResult} (h : fillVec cfg mem cs s n = .ok r) :
    r.state.Fits cfg := by
  unfold fillVec at h
  rw [Res.bind_eq_ok] at h
  obtain ⟨v, h1, h⟩ := h
  obtain rfl := Res.ok.inj h
  refine ⟨storeVec_fits _ _ _ ctxPairs_fits ?_ h1, hs.map⟩
  intro x hx
  unfold resize at hx
  rw [List.mem_append] at hx
  rcases hx with hx | hx
  · exact hs.vec x (List.mem_of_mem_take hx)
  · rw [List.eq_of_mem_replicate hx]; trivial

theorem vptrInit_fits {cfg : Config} {rnd : Nat → BitVec 64} {mem : VarId → Option Ptr} {cs : List CtxClass} {s : VptrState} (hs : s.Fits cfg) {r : VptrResult}
    (h : vptrInit cfg rnd mem cs s = .ok r) : r.state.Fits cfg := by
  unfold vptrInit at h
  split at h
  · split at h
    · rw [Res.bind_eq_ok] at h
      obtain ⟨x, _, h⟩ := h
      cases x with
      | found hs' => exact fillVec_fits (s := { s with hash := hs' }) ⟨hs.vec, hs.map⟩ h
      | failed a b hs' => obtain rfl := Res.ok.inj h; exact ⟨hs.vec, hs.map⟩
    · exact fillVec_fits hs h
  · obtain rfl := Res.ok.inj h
    refine ⟨hs.vec, ?_⟩
    have : ∀ (l m : List (TypeId × Stored)), (∀ x ∈ l, x.2.Fits cfg) → (∀ x ∈ m, x.2.Fits cfg) →
        ∀ x ∈ l.foldl (fun m x => if m.any (fun y => y.1 == x.1) then m else m ++ [x]) m, x.2.Fits cfg := by
      intro l
      induction l with
      | nil => intro m _ hm; exact hm
      | cons y l ih =>
        intro m hl hm
        rw [List.foldl_cons]
        refine ih _ (fun x hx => hl x (by simp [hx])) ?_
        split
        · exact hm
        · intro x hx
          rw [List.mem_append, List.mem_singleton] at hx
          rcases hx with hx | rfl
          · exact hm x hx
          · exact hl _ (by simp)
    exact this _ [] ctxPairs_fits (by simp)

theorem initRegistry_fits {E : Env} {p : Program} {s : RegState} {r : InitOut} (hs : s.vptr.Fits E.cfg) (h : initRegistry E p s = .ok r) : r.state.vptr.Fits E.cfg := by
  unfold initRegistry at h
  split at h
  · cases h
  · obtain rfl := Res.ok.inj h; exact hs
  · split at h
    · cases h
    · obtain rfl := Res.ok.inj h; exact hs
    · dsimp only at h
      split at h
      · cases h
      · obtain rfl := Res.ok.inj h; exact hs
      · rename_i hv
        have := vptrInit_fits hs hv
        split at h
        · obtain rfl := Res.ok.inj h; exact this
        · obtain rfl := Res.ok.inj h; exact this

theorem History.fits {cfg : Config} {s : RegState} {b : Bool} (h : History cfg s b) : s.vptr.Fits cfg := by
  induction h with
  | start => exact ⟨nofun, nofun⟩
  | ok _ he hi ih => subst he; exact initRegistry_fits ih hi
  | failed _ he hi ih => subst he; exact initRegistry_fits ih hi
  | exhausted _ he hi ih =>
    rcases hi.vptr with e | ⟨_, _, k, e⟩
    · rw [e]; exact ih
    · rw [e]; exact ⟨ih.vec, ih.map⟩
  | final _ he ih =>
    refine ⟨?_, ?_⟩
    · intro x hx
      simp only [finalize, vptrFinalize] at hx
      split at hx
      · cases hx
      · exact ih.vec x hx
    · intro x hx
      simp only [finalize, vptrFinalize] at hx
      split at hx
      · exact ih.map x hx
      · cases hx

namespace Cost

/-! ## The results are those of the functions without reads -/

variable {α β : Type}

@[simp] theorem bind_snd (x : Cost α) (f : α → Cost β) : (x >>= f).2 = x.2 >>= fun a => (f a).2 := by
  rcases x with ⟨l, a | e | _⟩ <;> rfl

@[simp] theorem pure_snd (a : α) : (pure a : Cost α).2 = .ok a := rfl

@[simp] theorem lift_snd (r : Res α) : (lift r).2 = r := rfl

@[simp] theorem load_snd (x : Load) : (load x).2 = .ok () := rfl

@[simp] theorem requireInitialized_snd (cfg : Config) (s : RegState) : (requireInitialized cfg s).2 = OpenMethod.requireInitialized cfg s := by
  unfold requireInitialized OpenMethod.requireInitialized
  cases cfg.checks <;> simp

@[simp] theorem hashCheck_snd (s : HashState) (i : Nat) (t : TypeId) : (hashCheck s i t).2 = OpenMethod.hashCheck s i t := by
  unfold hashCheck OpenMethod.hashCheck
  simp only [bind_snd, load_snd, Res.ok_bind]
  by_cases h1 : i < s.min
  · simp [h1]
  · by_cases h2 : s.max < i
    · simp [h1, h2]
    · simp only [h1, h2, if_false, or_self, bind_snd, load_snd, Res.ok_bind]
      cases s.buckets[i]? <;> rfl

@[simp] theorem hash_snd (c : Bool) (s : HashState) (t : TypeId) : (hash c s t).2 = OpenMethod.hash c s t := by
  unfold hash OpenMethod.hash
  cases c <;> simp

@[simp] theorem dynamicVptr_snd (cfg : Config) (s : VptrState) (t : TypeId) : (dynamicVptr cfg s t).2 = OpenMethod.dynamicVptr cfg s t := by
  unfold dynamicVptr OpenMethod.dynamicVptr vecIndex
  rcases cfg with ⟨c, i, v, h⟩
  cases v
  · simp only [bind_snd, load_snd, Res.ok_bind, Bool.false_eq_true, if_false]
    cases s.map.find? (fun y => y.1 == t) <;> rfl
  · cases h
    · cases c
      · simp only [bind_snd, load_snd, Res.ok_bind, if_true, Bool.false_eq_true, if_false, lift_snd, Bool.not_false, Bool.false_and, Bool.and_false]
        cases s.vec[t.toNat]? <;> rfl
      · by_cases hl : s.vec.length ≤ t.toNat
        · simp [hl]
        · simp only [bind_snd, load_snd, Res.ok_bind, if_true, Bool.false_eq_true, if_false, lift_snd, Bool.not_false, Bool.true_and, hl, decide_false]
          cases s.vec[t.toNat]? <;> rfl
    · simp only [bind_snd, load_snd, Res.ok_bind, if_true, hash_snd, Bool.not_true, Bool.false_and, Bool.false_eq_true, if_false, lift_snd]
      congr 1
      funext n
      cases s.vec[n]? <;> rfl

@[simp] theorem acquireVptr_snd (cfg : Config) (s : RegState) (t : TypeId) : (acquireVptr cfg s t).2 = OpenMethod.acquireVptr cfg s t := by
  simp [acquireVptr, OpenMethod.acquireVptr]

@[simp] theorem read_snd (mem : VarId → Option Ptr) (r : VRef) : (read mem r).2 = Res.ofOption (r.read mem) := by
  cases r <;> simp [read, VRef.read]

@[simp] theorem argPtr_snd (cfg : Config) (s : RegState) (a : Arg) : (argPtr cfg s a).2 = OpenMethod.argPtr cfg s a := by
  rcases a with t | (p | v) <;> simp [argPtr, OpenMethod.argPtr, unboxVptr, VRef.read]

@[simp] theorem word_snd (rd : Ptr → Res Word) (p : Ptr) : (word rd p).2 = rd p := by simp [word]

@[simp] theorem slotStride_snd (m : Nat) (ss : List Nat) (i : Nat) : (slotStride m ss i).2 = Res.ofOption ss[i]? := by simp [slotStride]

theorem resolveUni_snd (rd : Ptr → Res Word) (m : Nat) (ss : List Nat) : ∀ (ks : List Bool) (as : List (Cost Ptr)), (resolveUni rd m ss ks as).2 = OpenMethod.resolveUni rd ss ks (as.map (·.2))
  | true :: _, a :: _ => by simp [resolveUni, OpenMethod.resolveUni]
  | false :: ks, _ :: as => by simp only [resolveUni, OpenMethod.resolveUni, List.map_cons]; exact resolveUni_snd rd m ss ks as
  | [], _ => by simp [resolveUni, OpenMethod.resolveUni]
  | k :: _, [] => by cases k <;> simp [resolveUni, OpenMethod.resolveUni]

@[simp] theorem nextDispatch_snd (rd : Ptr → Res Word) (m : Nat) (ss : List Nat) (arity va : Nat) (d : Ptr) (k : Bool) (a : Cost Ptr) :
    (nextDispatch rd m ss arity va d k a).2 = OpenMethod.nextDispatch rd ss arity va d k a.2 := by
  unfold nextDispatch OpenMethod.nextDispatch
  cases k <;> simp

theorem resolveMultiNext_snd (rd : Ptr → Res Word) (m : Nat) (ss : List Nat) (arity : Nat) : ∀ (va : Nat) (d : Ptr) (ks : List Bool) (as : List (Cost Ptr)),
    (resolveMultiNext rd m ss arity va d ks as).2 = OpenMethod.resolveMultiNext rd ss arity va d ks (as.map (·.2))
  | va, d, k :: ks, a :: as => by
    simp only [resolveMultiNext, OpenMethod.resolveMultiNext, List.map_cons, bind_snd, nextDispatch_snd]
    congr 1
    funext d'
    split
    · simp
    · exact resolveMultiNext_snd rd m ss arity (va + 1) d' ks as
  | _, _, [], _ => by simp [resolveMultiNext, OpenMethod.resolveMultiNext]
  | _, _, _ :: _, [] => by simp [resolveMultiNext, OpenMethod.resolveMultiNext]

theorem resolveMultiFirst_snd (rd : Ptr → Res Word) (m : Nat) (ss : List Nat) (arity : Nat) : ∀ (ks : List Bool) (as : List (Cost Ptr)),
    (resolveMultiFirst rd m ss arity ks as).2 = OpenMethod.resolveMultiFirst rd ss arity ks (as.map (·.2))
  | true :: ks, a :: as => by simp [resolveMultiFirst, OpenMethod.resolveMultiFirst, resolveMultiNext_snd]
  | false :: ks, _ :: as => by simp only [resolveMultiFirst, OpenMethod.resolveMultiFirst, List.map_cons]; exact resolveMultiFirst_snd rd m ss arity ks as
  | [], _ => by simp [resolveMultiFirst, OpenMethod.resolveMultiFirst]
  | k :: _, [] => by cases k <;> simp [resolveMultiFirst, OpenMethod.resolveMultiFirst]

theorem resolve_snd (rd : Ptr → Res Word) (m : Nat) (ss : List Nat) (arity : Nat) (ks : List Bool) (as : List (Cost Ptr)) :
    (resolve rd m ss arity ks as).2 = OpenMethod.resolve rd ss arity ks (as.map (·.2)) := by
  unfold resolve OpenMethod.resolve
  split <;> simp [resolveUni_snd, resolveMultiFirst_snd]

/-- The reads do not change the outcome. -/
theorem call_snd (cfg : Config) (s : RegState) (m : MethodInfo) (args : List Arg) (types : List TypeId) : (call cfg s m args types).2 = OpenMethod.call cfg s m args types := by
  simp only [call, OpenMethod.call, bind_snd, requireInitialized_snd, lift_snd, resolve_snd, List.map_map]
  have : (args.map ((fun x : Cost Ptr => x.2) ∘ argPtr cfg s)) = args.map (OpenMethod.argPtr cfg s) := List.map_congr_left fun a _ => argPtr_snd cfg s a
  rw [this]

@[simp] theorem makeVirtualPtr_snd (cfg : Config) (s : RegState) (t : TypeId) : (makeVirtualPtr cfg s t).2 = OpenMethod.makeVirtualPtr cfg s t := by
  simp [makeVirtualPtr, OpenMethod.makeVirtualPtr]

/-! ## Numbers of reads -/

/-- `n` reads if there is a result, and no more in any case. -/
structure Takes (n : Nat) (x : Cost α) : Prop where
  le : x.1.length ≤ n
  eq : ∀ a, x.2 = .ok a → x.1.length = n

theorem takes_lift (r : Res α) : Takes 0 (lift r) := ⟨Nat.le_refl _, fun _ _ => rfl⟩

theorem takes_load (l : Load) : Takes 1 (load l) := ⟨Nat.le_refl _, fun _ _ => rfl⟩

/-- Sequencing; the second part is only executed for results that satisfy `P`. -/
theorem Takes.bind' {a b : Nat} {x : Cost α} {f : α → Cost β} {P : α → Prop} (hx : Takes a x) (hp : ∀ v, x.2 = .ok v → P v) (hf : ∀ v, P v → Takes b (f v)) :
    Takes (a + b) (x >>= f) := by
  rcases x with ⟨l, v | e | _⟩
  · have hv := hp v rfl
    have h1 : l.length = a := hx.eq v rfl
    have e : Bind.bind (m := Cost) (l, Res.ok v) f = (l ++ (f v).1, (f v).2) := rfl
    rw [e]
    exact ⟨by simp only [List.length_append]; have := (hf v hv).le; omega, fun w hw => by simp only [List.length_append]; rw [h1, (hf v hv).eq w hw]⟩
  · exact ⟨Nat.le_add_right_of_le hx.le, nofun⟩
  · exact ⟨Nat.le_add_right_of_le hx.le, nofun⟩

theorem Takes.bind {a b : Nat} {x : Cost α} {f : α → Cost β} (hx : Takes a x) (hf : ∀ v, Takes b (f v)) : Takes (a + b) (x >>= f) :=
  hx.bind' (P := fun _ => True) (fun _ _ => trivial) fun v _ => hf v

/-- What fails may take less. -/
theorem Takes.fails {n : Nat} {x : Cost α} (h : x.1.length ≤ n) (hx : ∀ a, x.2 ≠ .ok a) : Takes n x := ⟨h, fun a ha => absurd ha (hx a)⟩

theorem Takes.cast {n k : Nat} {x : Cost α} (h : Takes n x) (e : n = k) : Takes k x := e ▸ h

theorem takes_requireInitialized (cfg : Config) (s : RegState) : Takes (if cfg.checks then 1 else 0) (requireInitialized cfg s) := by
  unfold requireInitialized
  split
  · exact (takes_load _).bind fun _ => takes_lift _
  · exact takes_lift _

theorem takes_hashCheck (s : HashState) (i : Nat) (t : TypeId) : Takes 4 (hashCheck s i t) := by
  unfold hashCheck
  refine ((takes_load _).bind (b := 3) fun _ => ?_)
  split
  · exact .fails (by simp [lift]) nofun
  · refine ((takes_load _).bind (b := 2) fun _ => ?_)
    split
    · exact .fails (by simp [lift]) nofun
    · refine ((takes_load _).bind (b := 1) fun _ => (takes_load _).bind (b := 0) fun _ => ?_)
      split <;> exact takes_lift _

theorem takes_hash (c : Bool) (s : HashState) (t : TypeId) : Takes (if c then 6 else 2) (hash c s t) := by
  unfold hash
  cases c
  · exact (takes_load _).bind (b := 1) fun _ => (takes_load _).bind (b := 0) fun _ => (takes_lift _).bind fun _ => takes_lift _
  · exact (takes_load _).bind (b := 5) fun _ => (takes_load _).bind (b := 4) fun _ => (takes_hashCheck _ _ _).bind fun _ => takes_lift _

/-- The kind of reference that the policies return. -/
def RefFits (cfg : Config) : VRef → Prop
  | .value _ => cfg.indirect = false
  | .var _ => cfg.indirect = true

theorem ref_fits {cfg : Config} {x : Stored} (hx : x.Fits cfg) {r : VRef} (h : x.ref cfg = .ok r) : RefFits cfg r := by
  cases x with
  | null =>
    simp only [Stored.ref] at h
    split at h
    · cases h
    · cases h; simp_all [RefFits]
  | direct p => cases h; exact hx
  | indirect v => cases h; exact hx

theorem dynamicVptr_fits {cfg : Config} {s : VptrState} (hs : s.Fits cfg) {t : TypeId} {r : VRef} (h : OpenMethod.dynamicVptr cfg s t = .ok r) : RefFits cfg r := by
  unfold OpenMethod.dynamicVptr at h
  split at h
  · rw [Res.bind_eq_ok] at h
    obtain ⟨i, _, h⟩ := h
    split at h
    · cases h
    · split at h
      · cases h
      · rename_i hx
        exact ref_fits (hs.vec _ (List.mem_of_getElem? hx)) h
  · split at h
    · split at h <;> cases h
    · rename_i hx
      exact ref_fits (hs.map _ (List.mem_of_find?_eq_some hx)) h

theorem takes_acquireVptr (cfg : Config) (s : RegState) (t : TypeId) : Takes (lookupCost cfg) (acquireVptr cfg s t) := by
  unfold acquireVptr dynamicVptr lookupCost
  have hr := takes_requireInitialized cfg s
  have hv : ∀ i, Takes 2 (do load .vector; load (.vectorAt i); match s.vptr.vec[i]? with
      | none => lift .ub
      | some x => lift (x.ref cfg) : Cost VRef) := fun i =>
    (takes_load _).bind (b := 1) fun _ => (takes_load _).bind (b := 0) fun _ => by split <;> exact takes_lift _
  rcases hc : cfg.checks <;> rcases hv' : cfg.vector <;> rcases hh : cfg.typeHash <;> simp only [hc, hv', hh, if_true, Bool.false_eq_true, if_false, Bool.not_false, Bool.not_true, Bool.and_false, Bool.and_true, Bool.false_and, Bool.true_and] at hr ⊢
  · exact hr.bind (b := 2) fun _ => (takes_load _).bind (b := 1) fun _ => (takes_load _).bind (b := 0) fun _ => by split <;> exact takes_lift _
  · exact hr.bind (b := 2) fun _ => (takes_load _).bind (b := 1) fun _ => (takes_load _).bind (b := 0) fun _ => by split <;> exact takes_lift _
  · exact hr.bind (b := 3) fun _ => (takes_load _).bind (b := 2) fun _ => ((takes_lift _).bind (b := 2) fun _ => ((takes_lift _).bind (b := 2) fun _ => hv _).cast (by rfl)).cast (by rfl)
  · exact hr.bind (b := 5) fun _ => (takes_load _).bind (b := 4) fun _ => ((takes_hash false _ _).bind (b := 2) fun _ => ((takes_lift _).bind (b := 2) fun _ => hv _).cast (by rfl)).cast (by rfl)
  · exact hr.bind (b := 2) fun _ => (takes_load _).bind (b := 1) fun _ => (takes_load _).bind (b := 0) fun _ => by split <;> exact takes_lift _
  · exact hr.bind (b := 2) fun _ => (takes_load _).bind (b := 1) fun _ => (takes_load _).bind (b := 0) fun _ => by split <;> exact takes_lift _
  · exact hr.bind (b := 4) fun _ => (takes_load _).bind (b := 3) fun _ => ((takes_lift _).bind (b := 3) fun _ => (takes_load _).bind (b := 2) fun _ => ((takes_lift _).bind (b := 2) fun _ => hv _).cast (by rfl)).cast (by rfl)
  · exact hr.bind (b := 9) fun _ => (takes_load _).bind (b := 8) fun _ => ((takes_hash true _ _).bind (b := 2) fun _ => ((takes_lift _).bind (b := 2) fun _ => hv _).cast (by rfl)).cast (by rfl)

theorem takes_argPtr {cfg : Config} {s : RegState} (hs : s.vptr.Fits cfg) (a : Arg) : Takes (argCost cfg a) (argPtr cfg s a) := by
  rcases a with t | (p | v)
  · refine (takes_acquireVptr cfg s t).bind' (P := RefFits cfg) ?_ ?_
    · intro r hr
      rw [acquireVptr_snd, OpenMethod.acquireVptr, Res.bind_eq_ok] at hr
      obtain ⟨_, _, hr⟩ := hr
      exact dynamicVptr_fits hs hr
    · intro r hr
      cases r with
      | value p => simp only [RefFits] at hr; simp only [hr, Bool.false_eq_true, if_false]; exact takes_lift _
      | var v => simp only [RefFits] at hr; simp only [hr, if_true]; exact (takes_load _).bind fun _ => takes_lift _
  · exact takes_lift _
  · exact (takes_load _).bind fun _ => takes_lift _

theorem takes_word (rd : Ptr → Res Word) (p : Ptr) : Takes 1 (word rd p) := (takes_load _).bind fun _ => takes_lift _

theorem takes_slotStride (m : Nat) (ss : List Nat) (i : Nat) : Takes 1 (slotStride m ss i) := (takes_load _).bind fun _ => takes_lift _

theorem sum_le {l l' : List Nat} (h : l.Sublist l') : l.sum ≤ l'.sum := by
  induction h with
  | slnil => exact Nat.le_refl _
  | cons a _ ih => rw [List.sum_cons]; omega
  | cons_cons a _ ih => rw [List.sum_cons, List.sum_cons]; omega

/-- The arguments that `resolve_multi_next` looks at: those of virtual parameters, among `n`. -/
def looked {α : Type} : Nat → List Bool → List α → List α
  | 0, _, _ => []
  | n + 1, true :: ks, a :: as => a :: looked n ks as
  | n + 1, false :: ks, _ :: as => looked n ks as
  | _, _, _ => []

/-- The arguments that are looked at: from the first virtual one. -/
def lookedFrom {α : Type} (n : Nat) : List Bool → List α → List α
  | true :: ks, a :: as => looked n (true :: ks) (a :: as)
  | false :: ks, _ :: as => lookedFrom n ks as
  | _, _ => []

theorem looked_sublist : ∀ (n : Nat) (ks : List Bool) (as : List Arg), (looked n ks as).Sublist (virtualArgs ks as)
  | 0, _, _ => by simp [looked]
  | n + 1, true :: ks, a :: as => by simp only [looked, virtualArgs]; exact (looked_sublist n ks as).cons_cons a
  | n + 1, false :: ks, _ :: as => by simp only [looked, virtualArgs]; exact looked_sublist n ks as
  | n + 1, [], _ => by simp [looked]
  | n + 1, k :: _, [] => by cases k <;> simp [looked]

theorem lookedFrom_sublist (n : Nat) : ∀ (ks : List Bool) (as : List Arg), (lookedFrom n ks as).Sublist (virtualArgs ks as)
  | true :: ks, a :: as => looked_sublist n _ _
  | false :: ks, _ :: as => by simp only [lookedFrom, virtualArgs]; exact lookedFrom_sublist n ks as
  | [], _ => by simp [lookedFrom]
  | k :: _, [] => by cases k <;> simp [lookedFrom]

theorem looked_map {α β : Type} (f : α → β) : ∀ (n : Nat) (ks : List Bool) (as : List α), looked n ks (as.map f) = (looked n ks as).map f
  | 0, _, _ => by simp [looked]
  | n + 1, true :: ks, a :: as => by simp [looked, looked_map f n ks as]
  | n + 1, false :: ks, _ :: as => by simp [looked, looked_map f n ks as]
  | n + 1, [], _ => by simp [looked]
  | n + 1, k :: _, [] => by cases k <;> simp [looked]

theorem lookedFrom_map {α β : Type} (f : α → β) (n : Nat) : ∀ (ks : List Bool) (as : List α), lookedFrom n ks (as.map f) = (lookedFrom n ks as).map f
  | true :: ks, a :: as => looked_map f n (true :: ks) (a :: as)
  | false :: ks, _ :: as => by simp only [lookedFrom, List.map_cons]; exact lookedFrom_map f n ks as
  | [], _ => by simp [lookedFrom]
  | k :: _, [] => by cases k <;> simp [lookedFrom]

theorem virtualArgs_length : ∀ (ks : List Bool) (as : List Arg), as.length = ks.length → (virtualArgs ks as).length = ks.count true
  | [], _, _ => by simp [virtualArgs]
  | true :: ks, a :: as, h => by simpa [virtualArgs] using virtualArgs_length ks as (by simpa using h)
  | false :: ks, a :: as, h => by simpa [virtualArgs] using virtualArgs_length ks as (by simpa using h)
  | _ :: _, [], h => by simp at h

theorem virtualArgs_others : ∀ (b : Nat) (as : List Arg), virtualArgs (List.replicate b false) as = []
  | 0, _ => by simp [virtualArgs]
  | b + 1, [] => by simp [virtualArgs, List.replicate_succ]
  | b + 1, _ :: as => by simpa [virtualArgs, List.replicate_succ] using virtualArgs_others b as

theorem looked_block : ∀ (n b : Nat) (as : List Arg), looked n (List.replicate n true ++ List.replicate b false) as = virtualArgs (List.replicate n true ++ List.replicate b false) as
  | 0, b, as => by simp [looked, virtualArgs_others]
  | n + 1, b, [] => by simp [looked, virtualArgs, List.replicate_succ]
  | n + 1, b, a :: as => by simpa [looked, virtualArgs, List.replicate_succ] using looked_block n b as

theorem lookedFrom_contiguous {n : Nat} (hn : 0 < n) (b : Nat) : ∀ (a : Nat) (as : List Arg),
    lookedFrom n (List.replicate a false ++ (List.replicate n true ++ List.replicate b false)) as = virtualArgs (List.replicate a false ++ (List.replicate n true ++ List.replicate b false)) as
  | 0, as => by
    obtain ⟨n, rfl⟩ : ∃ k, n = k + 1 := ⟨n - 1, by omega⟩
    simp only [List.replicate_zero, List.nil_append]
    rw [← looked_block]
    cases as with
    | nil => simp [lookedFrom, looked, List.replicate_succ]
    | cons a as => simp [lookedFrom, List.replicate_succ]
  | a + 1, [] => by simp [lookedFrom, virtualArgs, List.replicate_succ]
  | a + 1, _ :: as => by simpa [lookedFrom, virtualArgs, List.replicate_succ] using lookedFrom_contiguous hn b a as

theorem virtualArgs_none : ∀ (ks : List Bool) (as : List Arg), ks.count true = 0 → virtualArgs ks as = []
  | [], _, _ => by simp [virtualArgs]
  | true :: _, _, h => by simp at h
  | false :: ks, [], _ => by simp [virtualArgs]
  | false :: ks, _ :: as, h => by simpa [virtualArgs] using virtualArgs_none ks as (by simpa using h)

theorem lookedFrom_one : ∀ (ks : List Bool) (as : List Arg), ks.count true = 1 → lookedFrom 1 ks as = virtualArgs ks as
  | [], _, _ => by simp [lookedFrom, virtualArgs]
  | true :: ks, [], _ => by simp [lookedFrom, virtualArgs]
  | true :: ks, a :: as, h => by simp [lookedFrom, looked, virtualArgs, virtualArgs_none ks as (by simpa using h)]
  | false :: ks, [], _ => by simp [lookedFrom, virtualArgs]
  | false :: ks, _ :: as, h => by simpa [lookedFrom, virtualArgs] using lookedFrom_one ks as (by simpa using h)

section

variable {cfg : Config} {s : RegState} (hs : s.vptr.Fits cfg) (rd : Ptr → Res Word) (m : Nat) (ss : List Nat)

include hs

theorem takes_resolveUni : ∀ (ks : List Bool) (as : List Arg), Takes (((lookedFrom 1 ks as).map (argCost cfg)).sum + 2) (resolveUni rd m ss ks (as.map (argPtr cfg s)))
  | true :: ks, a :: as => by
    have := (takes_argPtr hs a).bind (f := fun vtbl => slotStride m ss 0 >>= fun slot => word rd (vtbl.add slot)) (b := 2) fun _ => (takes_slotStride m ss 0).bind (b := 1) fun _ => takes_word rd _
    simpa [lookedFrom, looked, resolveUni] using this
  | false :: ks, _ :: as => takes_resolveUni ks as
  | [], _ => .fails (by simp [resolveUni, lift]) (by simp [resolveUni])
  | k :: _, [] => .fails (by cases k <;> simp [resolveUni, lift]) (by cases k <;> simp [resolveUni])

theorem takes_nextDispatch (arity va : Nat) (d : Ptr) (k : Bool) (a : Arg) : Takes (if k then argCost cfg a + 3 else 0) (nextDispatch rd m ss arity va d k (argPtr cfg s a)) := by
  unfold nextDispatch
  cases k
  · exact takes_lift _
  · exact (takes_argPtr hs a).bind (b := 3) fun _ => (takes_slotStride _ _ _).bind (b := 2) fun _ => (takes_slotStride _ _ _).bind (b := 1) fun _ => (takes_word _ _).bind (b := 0) fun _ =>
      (takes_lift _).bind fun _ => takes_lift _

theorem takes_resolveMultiNext (arity : Nat) : ∀ (n va : Nat) (d : Ptr) (ks : List Bool) (as : List Arg), va + n = arity → 0 < n →
    Takes (((looked n ks as).map (argCost cfg)).sum + 3 * (looked n ks as).length + 1) (resolveMultiNext rd m ss arity va d ks (as.map (argPtr cfg s)))
  | 0, _, _, _, _, _, h => absurd h (Nat.lt_irrefl 0)
  | n + 1, va, d, k :: ks, a :: as, hn, _ => by
    simp only [List.map_cons, resolveMultiNext]
    have h2 : ∀ d', Takes (((looked n ks as).map (argCost cfg)).sum + 3 * (looked n ks as).length + 1)
        (if va + 1 = arity then word rd d' else resolveMultiNext rd m ss arity (va + 1) d' ks (as.map (argPtr cfg s))) := by
      intro d'
      split
      · obtain rfl : n = 0 := by omega
        simpa [looked] using takes_word rd d'
      · exact takes_resolveMultiNext arity n (va + 1) d' ks as (by omega) (by omega)
    refine ((takes_nextDispatch hs rd m ss arity va d k a).bind h2).cast ?_
    cases k
    · simp [looked]
    · simp only [looked, if_true, List.map_cons, List.sum_cons, List.length_cons]; omega
  | n + 1, _, _, [], _, _, _ => .fails (by simp [resolveMultiNext, lift]) (by simp [resolveMultiNext])
  | n + 1, _, _, _ :: _, [], _, _ => .fails (by simp [resolveMultiNext, lift]) (by simp [resolveMultiNext])

theorem takes_resolveMultiFirst {arity : Nat} (ha : 2 ≤ arity) : ∀ (ks : List Bool) (as : List Arg),
    Takes (((lookedFrom arity ks as).map (argCost cfg)).sum + 3 * (lookedFrom arity ks as).length) (resolveMultiFirst rd m ss arity ks (as.map (argPtr cfg s)))
  | true :: ks, a :: as => by
    obtain ⟨n, rfl⟩ : ∃ n, arity = n + 2 := ⟨arity - 2, by omega⟩
    simp only [List.map_cons, resolveMultiFirst]
    refine ((takes_argPtr hs a).bind fun _ => (takes_slotStride m ss 0).bind fun _ => (takes_word rd _).bind fun _ => (takes_lift _).bind fun d =>
      takes_resolveMultiNext hs rd m ss (n + 2) (n + 1) 1 d ks as (by omega) (by omega)).cast ?_
    simp only [lookedFrom, looked, List.map_cons, List.sum_cons, List.length_cons]
    omega
  | false :: ks, _ :: as => takes_resolveMultiFirst ha ks as
  | [], _ => .fails (by simp [resolveMultiFirst, lift]) (by simp [resolveMultiFirst])
  | k :: _, [] => .fails (by cases k <;> simp [resolveMultiFirst, lift]) (by cases k <;> simp [resolveMultiFirst])

/-- The number of reads, for any parameters. -/
theorem takes_resolve {arity : Nat} (ha : 0 < arity) (ks : List Bool) (as : List Arg) :
    Takes (((lookedFrom arity ks as).map (argCost cfg)).sum + if arity = 1 then 2 else 3 * (lookedFrom arity ks as).length) (resolve rd m ss arity ks (as.map (argPtr cfg s))) := by
  unfold resolve
  split
  · next h => subst h; exact (takes_resolveUni hs rd m ss ks as).bind fun _ => takes_lift _
  · exact (takes_resolveMultiFirst hs rd m ss (by omega) ks as).bind fun _ => takes_lift _

end

/-! ## Errors before a function is selected -/

/-- The errors are not those of calls without a unique best overrider. -/
def Early (r : Res α) : Prop := ∀ e, r = .err e → e = .notInitialized ∨ ∃ t, e = .missingClass t

theorem Early.bind {x : Res α} {f : α → Res β} (hx : Early x) (hf : ∀ a, Early (f a)) : Early (x >>= f) := by
  intro e he
  rcases Res.bind_eq_err.1 he with h | ⟨a, _, h⟩
  · exact hx e h
  · exact hf a e h

theorem early_ok (a : α) : Early (.ok a : Res α) := nofun

theorem early_ub : Early (.ub : Res α) := nofun

theorem early_ofOption (x : Option α) : Early (Res.ofOption x) := by cases x <;> nofun

theorem early_missing (t : TypeId) : Early (.err (.missingClass t) : Res α) := fun e he => .inr ⟨t, (Res.err.inj he).symm⟩

theorem early_requireInitialized (cfg : Config) (s : RegState) : Early (OpenMethod.requireInitialized cfg s) := by
  unfold OpenMethod.requireInitialized
  split
  · exact fun e he => .inl (Res.err.inj he).symm
  · exact early_ok _

theorem early_ref (cfg : Config) (x : Stored) : Early (x.ref cfg) := by
  cases x
  · simp only [Stored.ref]; split <;> nofun
  · nofun
  · nofun

theorem early_hash (c : Bool) (s : HashState) (t : TypeId) : Early (OpenMethod.hash c s t) := by
  unfold OpenMethod.hash
  cases c
  · exact early_ok _
  · refine Early.bind (f := fun _ => .ok _) ?_ fun _ => early_ok _
    unfold OpenMethod.hashCheck
    split
    · exact early_missing _
    · split
      · exact early_ub
      · split
        · exact early_missing _
        · exact early_ok _

theorem early_dynamicVptr (cfg : Config) (s : VptrState) (t : TypeId) : Early (OpenMethod.dynamicVptr cfg s t) := by
  unfold OpenMethod.dynamicVptr
  split
  · refine Early.bind ?_ fun i => ?_
    · unfold vecIndex
      split
      · exact early_hash _ _ _
      · exact early_ok _
    · split
      · exact early_missing _
      · split
        · exact early_ub
        · exact early_ref _ _
  · split
    · split
      · exact early_missing _
      · exact early_ub
    · exact early_ref _ _

theorem early_argPtr (cfg : Config) (s : RegState) (a : Arg) : Early (OpenMethod.argPtr cfg s a) := by
  cases a with
  | obj t => exact ((early_requireInitialized _ _).bind fun _ => early_dynamicVptr _ _ _).bind fun _ => early_ofOption _
  | vptr b => exact early_ofOption _

theorem early_readWord (gen : Nat) (data : List Word) (p : Ptr) : Early (readWord gen data p) := by
  unfold readWord
  split
  · exact early_ofOption _
  · exact early_ub

theorem early_asIdx (w : Word) : Early w.asIdx := by cases w <;> nofun

theorem early_asPtr (w : Word) : Early w.asPtr := by cases w <;> nofun

theorem early_asPf (w : Word) : Early w.asPf := by cases w <;> nofun

section

variable {rd : Ptr → Res Word} (hrd : ∀ p, Early (rd p)) (ss : List Nat)

include hrd

theorem early_resolveUni : ∀ (ks : List Bool) (as : List (Res Ptr)), (∀ a ∈ as, Early a) → Early (OpenMethod.resolveUni rd ss ks as)
  | true :: _, a :: _, h => (h a (by simp)).bind fun _ => (early_ofOption _).bind fun _ => hrd _
  | false :: ks, _ :: as, h => early_resolveUni ks as fun a ha => h a (by simp [ha])
  | [], _, _ => by simp only [OpenMethod.resolveUni]; exact early_ub
  | k :: _, [], _ => by cases k <;> (simp only [OpenMethod.resolveUni]; exact early_ub)

theorem early_resolveMultiNext (arity : Nat) : ∀ (va : Nat) (d : Ptr) (ks : List Bool) (as : List (Res Ptr)), (∀ a ∈ as, Early a) → Early (OpenMethod.resolveMultiNext rd ss arity va d ks as)
  | va, d, k :: ks, a :: as, h => by
    simp only [OpenMethod.resolveMultiNext]
    refine Early.bind ?_ fun d' => ?_
    · unfold OpenMethod.nextDispatch
      split
      · exact (h a (by simp)).bind fun _ => (early_ofOption _).bind fun _ => (early_ofOption _).bind fun _ => (hrd _).bind fun w => (early_asIdx w).bind fun _ => early_ok _
      · exact early_ok _
    · split
      · exact hrd _
      · exact early_resolveMultiNext arity (va + 1) d' ks as fun a ha => h a (by simp [ha])
  | _, _, [], _, _ => by simp only [OpenMethod.resolveMultiNext]; exact early_ub
  | _, _, _ :: _, [], _ => by simp only [OpenMethod.resolveMultiNext]; exact early_ub

theorem early_resolveMultiFirst (arity : Nat) : ∀ (ks : List Bool) (as : List (Res Ptr)), (∀ a ∈ as, Early a) → Early (OpenMethod.resolveMultiFirst rd ss arity ks as)
  | true :: ks, a :: as, h => (h a (by simp)).bind fun _ => (early_ofOption _).bind fun _ => (hrd _).bind fun w => (early_asPtr w).bind fun d =>
      early_resolveMultiNext hrd ss arity 1 d ks as fun a ha => h a (by simp [ha])
  | false :: ks, _ :: as, h => early_resolveMultiFirst arity ks as fun a ha => h a (by simp [ha])
  | [], _, _ => by simp only [OpenMethod.resolveMultiFirst]; exact early_ub
  | k :: _, [], _ => by cases k <;> (simp only [OpenMethod.resolveMultiFirst]; exact early_ub)

theorem early_resolve (arity : Nat) (ks : List Bool) (as : List (Res Ptr)) (h : ∀ a ∈ as, Early a) : Early (OpenMethod.resolve rd ss arity ks as) := by
  unfold OpenMethod.resolve
  dsimp only
  split
  · exact (early_resolveUni hrd ss ks as h).bind fun w => early_asPf w
  · exact (early_resolveMultiFirst hrd ss arity ks as h).bind fun w => early_asPf w

end

/-- The number of reads of a call: at most, and exactly if a function is selected. -/
theorem call_reads {cfg : Config} {s : RegState} (hs : s.vptr.Fits cfg) {m : MethodInfo} (ha : 0 < m.arity) (args : List Arg) (types : List TypeId) :
    let n := (if cfg.checks then 1 else 0) + (((lookedFrom m.arity m.params args).map (argCost cfg)).sum + if m.arity = 1 then 2 else 3 * (lookedFrom m.arity m.params args).length)
    (call cfg s m args types).1.length ≤ n ∧ (Selects (OpenMethod.call cfg s m args types) → (call cfg s m args types).1.length = n) := by
  intro n
  have hpre : Takes n (do
      requireInitialized cfg s
      let ss ← lift (Res.ofOption (s.ss m.id))
      resolve (readWord s.gen s.data) m.id ss m.arity m.params (args.map (argPtr cfg s)) : Cost Pf) :=
    (takes_requireInitialized cfg s).bind fun _ => ((takes_lift _).bind fun ss => takes_resolve hs _ m.id ss ha m.params args).cast (Nat.zero_add _)
  have hearly : Early (do
      requireInitialized cfg s
      let ss ← lift (Res.ofOption (s.ss m.id))
      resolve (readWord s.gen s.data) m.id ss m.arity m.params (args.map (argPtr cfg s)) : Cost Pf).2 := by
    simp only [bind_snd, requireInitialized_snd, lift_snd, resolve_snd]
    refine (early_requireInitialized _ _).bind fun _ => (early_ofOption _).bind fun ss => early_resolve (early_readWord _ _) ss _ _ _ ?_
    intro a ha
    simp only [List.mem_map] at ha
    obtain ⟨_, ⟨b, _, rfl⟩, rfl⟩ := ha
    rw [argPtr_snd]
    exact early_argPtr _ _ _
  generalize hx : (do
      requireInitialized cfg s
      let ss ← lift (Res.ofOption (s.ss m.id))
      resolve (readWord s.gen s.data) m.id ss m.arity m.params (args.map (argPtr cfg s)) : Cost Pf) = x at hpre hearly
  have hc : call cfg s m args types = x >>= fun f => lift (enter f types) := by
    rw [← hx]
    unfold call
    rcases requireInitialized cfg s with ⟨l, _ | _ | _⟩
    · rcases hr : s.ss m.id with _ | ss
      · rfl
      · rcases hy : resolve (readWord s.gen s.data) m.id ss m.arity m.params (args.map (argPtr cfg s)) with ⟨l', _ | _ | _⟩ <;>
          (simp [Bind.bind, Cost.bind, lift, hy, Res.ofOption]; try rfl)
    · rfl
    · rfl
  have h2 := call_snd cfg s m args types
  rw [hc] at h2
  rw [hc]
  refine ⟨(hpre.bind fun f => takes_lift _).le, fun hsel => ?_⟩
  rw [← h2] at hsel
  have hb := hpre.bind (f := fun f => lift (enter f types)) fun f => takes_lift _
  rcases x with ⟨l, f | e | _⟩
  · have : ((Bind.bind (m := Cost) (l, Res.ok f) fun f => lift (enter f types)) : Cost Nat).1 = l ++ [] := rfl
    rw [this, List.append_nil]
    exact hpre.eq f rfl
  · have : ((Bind.bind (m := Cost) (l, Res.err e) fun f => lift (enter f types)) : Cost Nat).2 = .err e := rfl
    rw [this] at hsel
    rcases hearly e rfl with rfl | ⟨t, rfl⟩
    · rcases hsel with ⟨_, h⟩ | ⟨_, _, h⟩ | ⟨_, _, h⟩ <;> cases h
    · rcases hsel with ⟨_, h⟩ | ⟨_, _, h⟩ | ⟨_, _, h⟩ <;> cases h
  · have : ((Bind.bind (m := Cost) (l, Res.ub) fun f => lift (enter f types)) : Cost Nat).2 = .ub := rfl
    rw [this] at hsel
    rcases hsel with ⟨_, h⟩ | ⟨_, _, h⟩ | ⟨_, _, h⟩ <;> cases h

end Cost

end OpenMethod

import Verif.Props.Registry

/-! # C51 and C53: what `initialize` allocates and `finalize` releases -/

namespace OpenMethod.Props

open Spec Examples

variable {cfg : Config} {E : Env} {s : RegState} {b : Bool}

/-- The policies that a registry does not have store nothing. -/
structure OnlyOwn (cfg : Config) (v : VptrState) : Prop where
  map : cfg.vector = true → v.map = []
  vec : cfg.vector = false → v.vec = []
  hash : cfg.vector = false ∨ cfg.typeHash = false → v.hash.buckets = []

theorem vptrInit_own {rnd : Nat → BitVec 64} {mem : VarId → Option Ptr} {cs : List CtxClass} {v : VptrState} {r : VptrResult} (ho : OnlyOwn cfg v)
    (h : vptrInit cfg rnd mem cs v = .ok r) : OnlyOwn cfg r.state := by
  unfold vptrInit at h
  split at h
  · rename_i hv
    split at h
    · rename_i ht
      obtain ⟨hr, _, h⟩ := Res.bind_eq_ok.1 h
      split at h
      · obtain ⟨_, h1, _⟩ := fillVec_length h
        exact ⟨fun _ => h1.trans (ho.map hv), fun e => (by rw [hv] at e; cases e), fun e => (by rw [hv, ht] at e; simp at e)⟩
      · obtain rfl := Res.ok.inj h
        exact ⟨ho.map, ho.vec, fun e => (by rw [hv, ht] at e; simp at e)⟩
    · obtain ⟨_, h1, h2⟩ := fillVec_length h
      exact ⟨fun _ => h1.trans (ho.map hv), fun e => (by rw [hv] at e; cases e), fun e => (congrArg HashState.buckets h2).trans (ho.hash e)⟩
  · rename_i hv
    obtain rfl := Res.ok.inj h
    exact ⟨fun e => absurd e hv, ho.vec, ho.hash⟩

theorem initRegistry_own {p : Program} {r : InitOut} (ho : OnlyOwn E.cfg s.vptr) (h : initRegistry E p s = .ok r) : OnlyOwn E.cfg r.state.vptr := by
  unfold initRegistry at h
  split at h
  · cases h
  · obtain rfl := Res.ok.inj h; exact ho
  · split at h
    · cases h
    · obtain rfl := Res.ok.inj h; exact ho
    · dsimp only at h
      split at h
      · cases h
      · obtain rfl := Res.ok.inj h; exact ho
      · rename_i hv
        have := vptrInit_own ho hv
        split at h <;> (obtain rfl := Res.ok.inj h; exact this)

theorem vptrFinalize_own {v : VptrState} (ho : OnlyOwn cfg v) :
    (vptrFinalize cfg v).vec = [] ∧ (vptrFinalize cfg v).map = [] ∧ (vptrFinalize cfg v).hash.buckets = [] := by
  unfold vptrFinalize
  refine ⟨?_, ?_, ?_⟩
  · cases hv : cfg.vector
    · simp [ho.vec hv]
    · rfl
  · cases hv : cfg.vector
    · rfl
    · simp [ho.map hv]
  · cases ht : cfg.typeHash
    · simp [ho.hash (.inr ht)]
    · rfl

theorem history_own (h : History cfg s b) : OnlyOwn cfg s.vptr := by
  induction h with
  | start => exact ⟨fun _ => rfl, fun _ => rfl, fun _ => rfl⟩
  | ok _ hE h ih => subst hE; exact initRegistry_own ih h
  | failed _ hE h ih => subst hE; exact initRegistry_own ih h
  | exhausted _ hE h ih =>
    subst hE
    rcases h.vptr with e | ⟨hv, ht, k, e⟩
    · rw [e]; exact ih
    · rw [e]; exact ⟨ih.map, ih.vec, fun h => (by rw [hv, ht] at h; simp at h)⟩
  | final _ hE ih =>
    subst hE
    obtain ⟨h1, h2, h3⟩ := vptrFinalize_own ih
    exact ⟨fun _ => h2, fun _ => h1, fun _ => h3⟩

/-- C51: whatever happened to a registry before, after `finalize` the dispatch data, the vector and the map of v-table pointers, and the
control table of the hash function are empty, as they were at the start of the program. -/
theorem C51 (h : History cfg s b) (hE : E.cfg = cfg) :
    (finalize E s).data = [] ∧ (finalize E s).vptr.vec = [] ∧ (finalize E s).vptr.map = [] ∧ (finalize E s).vptr.hash.buckets = [] ∧
      (finalize E s).initialized = false := by
  subst hE
  obtain ⟨h1, h2, h3⟩ := vptrFinalize_own (history_own h)
  exact ⟨rfl, h1, h2, h3, rfl⟩

theorem resolve_nothing {ss : List Nat} {gen arity : Nat} {ks : List Bool} {as : List (Res Ptr)} (ha : ∀ a ∈ as, ∀ e, a ≠ .err e) :
    resolve (readWord gen []) ss arity ks as = .ub := by
  have hrd : ∀ q, readWord gen [] q = .ub := by
    intro q
    unfold readWord
    split <;> rfl
  have huni : resolveUni (readWord gen []) ss ks as = .ub := by
    induction ks generalizing as with
    | nil => rfl
    | cons k ks ih =>
      cases as with
      | nil => cases k <;> rfl
      | cons a as =>
        cases k with
        | false => exact ih fun x hx => ha x (List.mem_cons_of_mem _ hx)
        | true =>
          simp only [resolveUni]
          cases h : a with
          | ub => rfl
          | err e => exact absurd h (ha a List.mem_cons_self e)
          | ok v => cases h0 : ss[0]? <;> simp [Res.ofOption, hrd]
  have hmulti : resolveMultiFirst (readWord gen []) ss arity ks as = .ub := by
    clear huni
    induction ks generalizing as with
    | nil => rfl
    | cons k ks ih =>
      cases as with
      | nil => cases k <;> rfl
      | cons a as =>
        cases k with
        | false => exact ih fun x hx => ha x (List.mem_cons_of_mem _ hx)
        | true =>
          simp only [resolveMultiFirst]
          cases h : a with
          | ub => rfl
          | err e => exact absurd h (ha a List.mem_cons_self e)
          | ok v => cases h0 : ss[0]? <;> simp [Res.ofOption, hrd]
  unfold resolve
  split
  · rw [huni]; rfl
  · rw [hmulti]; rfl

/-- Nothing can be dispatched after `finalize`, with any arguments, including `virtual_ptr`s created before: with runtime_checks each call
and each construction of a `virtual_ptr` reports not_initialized, otherwise it has undefined behaviour. In no case is an overrider entered. -/
theorem C51_calls (h : History cfg s b) (hE : E.cfg = cfg) :
    (∀ m args types, call cfg (finalize E s) m args types = if cfg.checks then .err .notInitialized else .ub) ∧
    ∀ t, makeVirtualPtr cfg (finalize E s) t = if cfg.checks then .err .notInitialized else .ub := by
  cases hk : cfg.checks with
  | true =>
    obtain ⟨h1, h2⟩ := C30 hk (.final h hE)
    exact ⟨h1, h2⟩
  | false =>
    obtain ⟨hd, hv, hm, _, _⟩ := C51 h hE
    have hreq : ∀ s, requireInitialized cfg s = .ok () := by
      intro s; unfold requireInitialized; rw [hk]; rfl
    have hdyn : ∀ t, dynamicVptr cfg (finalize E s).vptr t = .ub := by
      intro t
      unfold dynamicVptr
      rw [hv, hm, hk]
      cases cfg.vector with
      | false => rfl
      | true =>
        have : ∃ i, vecIndex cfg (finalize E s).vptr.hash t = .ok i := by
          unfold vecIndex
          rw [hk]
          cases cfg.typeHash <;> exact ⟨_, rfl⟩
        obtain ⟨i, hi⟩ := this
        simp [hi]
    have hacq : ∀ t, acquireVptr cfg (finalize E s) t = .ub := by
      intro t
      unfold acquireVptr
      rw [hreq, hdyn]; rfl
    refine ⟨fun m args types => ?_, fun t => ?_⟩
    · unfold call
      rw [hreq]
      cases hss : (finalize E s).ss m.id with
      | none => rfl
      | some ss =>
        have : resolve (readWord (finalize E s).gen (finalize E s).data) ss m.arity m.params (args.map (argPtr cfg (finalize E s))) = .ub := by
          rw [hd]
          refine resolve_nothing fun a ha e he => ?_
          obtain ⟨x, _, rfl⟩ := List.mem_map.1 ha
          cases x with
          | obj t =>
            simp only [argPtr] at he
            rw [hacq] at he; cases he
          | vptr b =>
            simp only [argPtr] at he
            cases hb : unboxVptr (finalize E s) b <;> rw [hb] at he <;> cases he
        show (Res.ofOption (some ss) >>= fun ss => _) = _
        simp [Res.ofOption, this]
    · unfold makeVirtualPtr
      rw [hacq]; rfl

/-- Without runtime_checks: `vptr_vector` and a hash function. -/
def unchecked : Config := { hashed with checks := false }

/-- Without runtime checks, a call works after `initialize` and has undefined behaviour after `finalize`; so does a call with a `virtual_ptr`
created before. `initialize` did allocate something. -/
example : ((initOf (env unchecked) zoo .init).map fun x =>
      let s' := finalize (env unchecked) x.1
      (call unchecked x.1 poke [.obj 0, .obj 4, .obj 0] [], call unchecked s' poke [.obj 0, .obj 4, .obj 0] [])) = some (.ok 14, .ub) ∧
    ((initOf (env unchecked) zoo .init).map fun x => call unchecked (finalize (env unchecked) x.1) poke
      [.obj 0, .vptr (match makeVirtualPtr unchecked x.1 4 with | .ok b => b | _ => .direct none), .obj 0] []) = some .ub ∧
    ((initOf (env hashed) zoo .init).map fun x => (x.1.data.length, x.1.vptr.vec.length, x.1.vptr.map.length, x.1.vptr.hash.buckets.length)) = some (25, 5, 0, 8) := by
  decide +kernel

/-! ## C53: size of the tables -/

/-- With a hash, the vector of v-table pointers and the control table grow linearly with the number of classes, whatever the type ids. -/
theorem C53_vector {p : Program} {s' : RegState} {rep : Report} (hp : p.Good E.cfg) (h : Initializes E p s s' rep) (hv : E.cfg.vector = true) (ht : E.cfg.typeHash = true) :
    s'.vptr.vec.length ≤ 16 * max 1 (p.classes.length * 5 / 4) ∧ s'.vptr.hash.buckets.length ≤ 16 * max 1 (p.classes.length * 5 / 4) := by
  obtain ⟨c, img, R, _⟩ := init_ready hp h
  obtain ⟨v, hv1, he, rfl⟩ := init_eq h R.compiled R.written
  obtain ⟨h1, h2⟩ := vptrInit_hash_length R.ctx hv ht hv1 he
  have hlen : (ctxClasses c.lattice).length ≤ p.classes.length := by
    have hsub : c.lattice.order ⊆ p.classes.map fun cr => p.rtti.ti cr.type := by
      intro x hx
      obtain ⟨cr, hcr, rfl⟩ := (R.ok.lat.mem_order x).1 hx
      exact List.mem_map.2 ⟨cr, hcr, rfl⟩
    have := (R.ok.lat.nodup_order.subperm hsub).length_le
    rw [List.length_map] at this
    simpa [ctxClasses] using this
  have hle : (ctxClasses c.lattice).length * 5 / 4 ≤ p.classes.length * 5 / 4 := by omega
  have : 16 * max 1 ((ctxClasses c.lattice).length * 5 / 4) ≤ 16 * max 1 (p.classes.length * 5 / 4) := by omega
  exact ⟨Nat.le_trans h1 (Nat.le_trans h2 this), Nat.le_trans h2 this⟩

end OpenMethod.Props

import Verif.Proof.Detect
import Verif.Proof.MemorySame

/-! # V-table pointers that remain from earlier initializations belong to earlier dispatch data -/

namespace OpenMethod

theorem storeVec_mem {cfg : Config} {h : HashState} {x : Stored} : ∀ (l : List (TypeId × Stored)) (a b : List Stored),
    l.foldlM (storeVec cfg h) a = .ok b → x ∈ b → x ∈ a ∨ ∃ y ∈ l, y.2 = x
  | [], a, b, hab, hx => by rw [Res.ok.inj hab]; exact .inl hx
  | y :: l, a, b, hab, hx => by
    rw [List.foldlM_cons, Res.bind_eq_ok] at hab
    obtain ⟨a', h1, h2⟩ := hab
    rcases storeVec_mem l a' b h2 hx with h | ⟨z, hz, e⟩
    · unfold storeVec at h1
      rw [Res.bind_eq_ok] at h1
      obtain ⟨i, _, h1⟩ := h1
      split at h1
      · rw [← Res.ok.inj h1] at h
        rcases List.mem_or_eq_of_mem_set h with h | h
        · exact .inl h
        · exact .inr ⟨y, by simp, h.symm⟩
      · cases h1
    · exact .inr ⟨z, by simp [hz], e⟩

theorem resize_mem {α : Type} {v : List α} {n : Nat} {fill x : α} (h : x ∈ resize v n fill) : x ∈ v ∨ x = fill := by
  unfold resize at h
  rcases List.mem_append.1 h with h | h
  · exact .inl (List.mem_of_mem_take h)
  · exact .inr (List.eq_of_mem_replicate h)

theorem fillVec_mem {cfg : Config} {mem : VarId → Option Ptr} {cs : List CtxClass} {s : VptrState} {n : Nat} {r : VptrResult} {q : Ptr}
    (h : fillVec cfg mem cs s n = .ok r) (hq : Stored.direct (some q) ∈ r.state.vec) : Stored.direct (some q) ∈ s.vec ∨ ∃ v, mem v = some q := by
  unfold fillVec at h
  rw [Res.bind_eq_ok] at h
  obtain ⟨vec, h1, h⟩ := h
  rw [← Res.ok.inj h] at hq
  rcases storeVec_mem _ _ _ h1 hq with h | ⟨y, hy, e⟩
  · rcases resize_mem h with h | h
    · exact .inl h
    · cases h
  · unfold ctxPairs at hy
    obtain ⟨c, _, hy⟩ := List.mem_flatMap.1 hy
    obtain ⟨t, _, rfl⟩ := List.mem_map.1 hy
    dsimp only at e
    unfold storedFor at e
    split at e
    · cases e
    · exact .inr ⟨_, Stored.direct.inj e⟩

theorem vptrInit_mem {cfg : Config} {rnd : Nat → BitVec 64} {mem : VarId → Option Ptr} {cs : List CtxClass} {s : VptrState} {r : VptrResult} {q : Ptr}
    (h : vptrInit cfg rnd mem cs s = .ok r) (hq : Stored.direct (some q) ∈ r.state.vec) : Stored.direct (some q) ∈ s.vec ∨ ∃ v, mem v = some q := by
  unfold vptrInit at h
  split at h
  · split at h
    · rw [Res.bind_eq_ok] at h
      obtain ⟨hr, _, h⟩ := h
      split at h
      · have := fillVec_mem h hq; exact this
      · rw [← Res.ok.inj h] at hq; exact .inl hq
    · exact fillVec_mem h hq
  · rw [← Res.ok.inj h] at hq; exact .inl hq

/-- All v-table pointers are to dispatch data that was created before. -/
structure RegState.Old (s : RegState) : Prop where
  svptr : ∀ v q, s.svptr v = some q → q.gen < s.fresh
  vec : ∀ q, Stored.direct (some q) ∈ s.vptr.vec → q.gen < s.fresh

theorem writeSvptr_old {L : Lattice} {img : Image} {gen : Nat} {mem : VarId → Option Ptr} {v : VarId} {q : Ptr} (h : writeSvptr L img gen mem v = some q) :
    mem v = some q ∨ q.gen = gen := by
  unfold writeSvptr at h
  generalize L.order = l at h
  induction l generalizing mem with
  | nil => exact .inl h
  | cons x l ih =>
    rw [List.foldl_cons] at h
    rcases ih h with h | h
    · by_cases e : v = L.staticVptr x
      · subst e
        rw [Function.update_self] at h
        exact .inr (by rw [← Option.some.inj h])
      · rw [Function.update_of_ne e] at h; exact .inl h
    · exact .inr h

theorem applyImage_old {L : Lattice} {img : Image} {s : RegState} (h : s.Old) : (applyImage L img s).Old := by
  refine ⟨fun v q hq => ?_, fun q hq => Nat.lt_succ_of_lt (h.vec q hq)⟩
  rcases writeSvptr_old hq with h1 | h1
  · exact Nat.lt_succ_of_lt (h.svptr v q h1)
  · exact h1 ▸ Nat.lt_succ_self _

theorem initRegistry_old {E : Env} {p : Program} {s : RegState} {r : InitOut} (hs : s.Old) (h : initRegistry E p s = .ok r) : r.state.Old := by
  unfold initRegistry at h
  split at h
  · cases h
  · rw [← Res.ok.inj h]; exact hs
  · split at h
    · cases h
    · rw [← Res.ok.inj h]; exact hs
    · rename_i c _ _ img _
      have h1 : (applyImage c.lattice img s).Old := applyImage_old hs
      dsimp only at h
      split at h
      · cases h
      · rw [← Res.ok.inj h]; exact h1
      · rename_i v hv
        have h2 : ∀ q, Stored.direct (some q) ∈ v.state.vec → q.gen < (applyImage c.lattice img s).fresh := by
          intro q hq
          rcases vptrInit_mem hv hq with h | ⟨w, h⟩
          · exact h1.vec q h
          · exact h1.svptr w q h
        split at h <;> (rw [← Res.ok.inj h]; exact ⟨h1.svptr, h2⟩)

theorem store_old {s : RegState} {x : Store} (hs : ∀ v q, s.svptr v = some q → q.gen < s.fresh + 1) (hx : ∀ v q, x = .svptr v q → q.gen < s.fresh + 1) :
    ∀ v q, (x.apply s).svptr v = some q → q.gen < s.fresh + 1 := by
  cases x with
  | slotsStrides m l => exact hs
  | next v f => exact hs
  | svptr w p =>
    intro v q h
    by_cases e : v = w
    · subst e
      simp only [Store.apply, Function.update_self, Option.some.injEq] at h
      exact h ▸ hx v p rfl
    · simp only [Store.apply, Function.update_of_ne e] at h
      exact hs v q h

theorem stores_old : ∀ (l : List Store) (s : RegState), (∀ v q, s.svptr v = some q → q.gen < s.fresh + 1) → (∀ v q, Store.svptr v q ∈ l → q.gen < s.fresh + 1) →
    ∀ v q, (l.foldl Store.apply s).svptr v = some q → q.gen < s.fresh + 1
  | [], _, hs, _ => hs
  | x :: l, s, hs, hl => by
    rw [List.foldl_cons]
    have hf : (x.apply s).fresh = s.fresh := (x.apply_keeps s).2.2
    have := stores_old l (x.apply s) (by rw [hf]; exact store_old hs fun v q e => hl v q (by simp [e])) (by rw [hf]; exact fun v q h => hl v q (by simp [h]))
    rw [hf] at this
    exact this

theorem exhausts_old {E : Env} {p : Program} {s s' : RegState} (hs : s.Old) (h : Exhausts E p s s') : s'.Old := by
  have hvec : s'.vptr.vec = s.vptr.vec := by
    rcases h.vptr with e | ⟨_, _, k, e⟩ <;> rw [e]
  have hfr := h.keeps.2
  refine ⟨?_, fun q hq => Nat.lt_of_lt_of_le (hs.vec q (hvec ▸ hq)) hfr⟩
  rcases exhausts_cases h with rfl | ⟨c, img, _, _, ⟨n, rfl⟩ | ⟨_, v, _, rfl⟩⟩
  · exact hs.svptr
  · refine stores_old _ s (fun v q h => Nat.lt_succ_of_lt (hs.svptr v q h)) fun v q hm => ?_
    have hm := List.mem_of_mem_take hm
    unfold stores at hm
    simp only [List.mem_append, List.mem_map] at hm
    rcases hm with (⟨_, _, e⟩ | ⟨_, _, e⟩) | ⟨x, _, e⟩
    · cases e
    · cases e
    · injection e with e1 e2
      rw [← e2]
      exact Nat.lt_succ_self _
  · exact (applyImage_old hs).svptr

theorem History.old {cfg : Config} {s : RegState} {b : Bool} (h : History cfg s b) : s.Old := by
  induction h with
  | start => exact ⟨nofun, nofun⟩
  | ok _ _ h ih => exact initRegistry_old ih h
  | failed _ _ h ih => exact initRegistry_old ih h
  | exhausted _ _ h ih => exact exhausts_old ih h
  | @final s _ E _ _ ih =>
    refine ⟨ih.svptr, fun q hq => ih.vec q ?_⟩
    simp only [finalize, vptrFinalize] at hq
    split at hq
    · cases hq
    · exact hq

/-! ## With direct v-table pointers, the vector contains no addresses of `static_vptr`s -/

theorem vptrInit_indirect {cfg : Config} (hd : cfg.indirect = false) {rnd : Nat → BitVec 64} {mem : VarId → Option Ptr} {cs : List CtxClass} {s : VptrState} {r : VptrResult}
    {w : VarId} (h : vptrInit cfg rnd mem cs s = .ok r) (hw : Stored.indirect w ∈ r.state.vec) : Stored.indirect w ∈ s.vec := by
  have fill : ∀ (s : VptrState) (n : Nat), fillVec cfg mem cs s n = .ok r → Stored.indirect w ∈ s.vec := by
    intro s n h
    unfold fillVec at h
    rw [Res.bind_eq_ok] at h
    obtain ⟨vec, h1, h⟩ := h
    rw [← Res.ok.inj h] at hw
    rcases storeVec_mem _ _ _ h1 hw with h | ⟨y, hy, e⟩
    · rcases resize_mem h with h | h
      · exact h
      · cases h
    · unfold ctxPairs at hy
      obtain ⟨c, _, hy⟩ := List.mem_flatMap.1 hy
      obtain ⟨t, _, rfl⟩ := List.mem_map.1 hy
      simp [storedFor, hd] at e
  unfold vptrInit at h
  split at h
  · split at h
    · rw [Res.bind_eq_ok] at h
      obtain ⟨hr, _, h⟩ := h
      split at h
      · have := fill _ _ h; exact this
      · rw [← Res.ok.inj h] at hw; exact hw
    · exact fill _ _ h
  · rw [← Res.ok.inj h] at hw; exact hw

theorem initRegistry_indirect {E : Env} {p : Program} {s : RegState} {r : InitOut} (hd : E.cfg.indirect = false) (h : initRegistry E p s = .ok r) {w : VarId}
    (hw : Stored.indirect w ∈ r.state.vptr.vec) : Stored.indirect w ∈ s.vptr.vec := by
  unfold initRegistry at h
  split at h
  · cases h
  · rw [← Res.ok.inj h] at hw; exact hw
  · split at h
    · cases h
    · rw [← Res.ok.inj h] at hw; exact hw
    · dsimp only at h
      split at h
      · cases h
      · rw [← Res.ok.inj h] at hw; exact hw
      · rename_i v hv
        refine vptrInit_indirect hd hv ?_
        split at h <;> (rw [← Res.ok.inj h] at hw; exact hw)

theorem History.no_indirect {cfg : Config} {s : RegState} {b : Bool} (h : History cfg s b) (hd : cfg.indirect = false) (w : VarId) :
    Stored.indirect w ∉ s.vptr.vec := by
  induction h with
  | start => exact nofun
  | ok _ he h ih => subst he; exact fun hw => ih (initRegistry_indirect hd h hw)
  | failed _ he h ih => subst he; exact fun hw => ih (initRegistry_indirect hd h hw)
  | exhausted _ _ h ih => rcases h.vptr with e | ⟨_, _, k, e⟩ <;> (rw [e]; exact ih)
  | final _ _ ih =>
    intro hw
    simp only [finalize, vptrFinalize] at hw
    split at hw
    · cases hw
    · exact ih hw

/-! ## With `indirect_vptr`, it contains nothing else -/

theorem vptrInit_direct {cfg : Config} (hd : cfg.indirect = true) {rnd : Nat → BitVec 64} {mem : VarId → Option Ptr} {cs : List CtxClass} {s : VptrState} {r : VptrResult}
    {w : Option Ptr} (h : vptrInit cfg rnd mem cs s = .ok r) (hw : Stored.direct w ∈ r.state.vec) : Stored.direct w ∈ s.vec := by
  have fill : ∀ (s : VptrState) (n : Nat), fillVec cfg mem cs s n = .ok r → Stored.direct w ∈ s.vec := by
    intro s n h
    unfold fillVec at h
    rw [Res.bind_eq_ok] at h
    obtain ⟨vec, h1, h⟩ := h
    rw [← Res.ok.inj h] at hw
    rcases storeVec_mem _ _ _ h1 hw with h | ⟨y, hy, e⟩
    · rcases resize_mem h with h | h
      · exact h
      · cases h
    · unfold ctxPairs at hy
      obtain ⟨c, _, hy⟩ := List.mem_flatMap.1 hy
      obtain ⟨t, _, rfl⟩ := List.mem_map.1 hy
      simp [storedFor, hd] at e
  unfold vptrInit at h
  split at h
  · split at h
    · rw [Res.bind_eq_ok] at h
      obtain ⟨hr, _, h⟩ := h
      split at h
      · have := fill _ _ h; exact this
      · rw [← Res.ok.inj h] at hw; exact hw
    · exact fill _ _ h
  · rw [← Res.ok.inj h] at hw; exact hw

theorem initRegistry_direct {E : Env} {p : Program} {s : RegState} {r : InitOut} (hd : E.cfg.indirect = true) (h : initRegistry E p s = .ok r) {w : Option Ptr}
    (hw : Stored.direct w ∈ r.state.vptr.vec) : Stored.direct w ∈ s.vptr.vec := by
  unfold initRegistry at h
  split at h
  · cases h
  · rw [← Res.ok.inj h] at hw; exact hw
  · split at h
    · cases h
    · rw [← Res.ok.inj h] at hw; exact hw
    · dsimp only at h
      split at h
      · cases h
      · rw [← Res.ok.inj h] at hw; exact hw
      · rename_i v hv
        refine vptrInit_direct hd hv ?_
        split at h <;> (rw [← Res.ok.inj h] at hw; exact hw)

theorem History.no_direct {cfg : Config} {s : RegState} {b : Bool} (h : History cfg s b) (hd : cfg.indirect = true) (w : Option Ptr) :
    Stored.direct w ∉ s.vptr.vec := by
  induction h with
  | start => exact nofun
  | ok _ he h ih => subst he; exact fun hw => ih (initRegistry_direct hd h hw)
  | failed _ he h ih => subst he; exact fun hw => ih (initRegistry_direct hd h hw)
  | exhausted _ _ h ih => rcases h.vptr with e | ⟨_, _, k, e⟩ <;> (rw [e]; exact ih)
  | final _ _ ih =>
    intro hw
    simp only [finalize, vptrFinalize] at hw
    split at hw
    · cases hw
    · exact ih hw

end OpenMethod

import Verif.Model.Vptr
import Verif.Proof.Hash

/-! # The vptr policies store and find v-table pointers -/

namespace OpenMethod

/-- The classes seen by the policies have distinct type ids; for `vptr_vector`, none of these is the largest value. -/
structure CtxOk (cfg : Config) (cs : List CtxClass) : Prop where
  nodup : (cs.flatMap (·.ids)).Nodup
  valid : cfg.vector = true → ∀ t ∈ cs.flatMap (·.ids), t ≠ noType

theorem ctxPairs_keys (cfg : Config) (mem : VarId → Option Ptr) (cs : List CtxClass) : (ctxPairs cfg mem cs).map (·.1) = cs.flatMap (·.ids) := by
  unfold ctxPairs
  rw [List.map_flatMap]
  congr 1
  funext c
  rw [List.map_map]
  exact List.map_id _

theorem mem_ctxPairs {cfg : Config} {mem : VarId → Option Ptr} {cs : List CtxClass} {c : CtxClass} (hc : c ∈ cs) {t : TypeId} (ht : t ∈ c.ids) :
    (t, storedFor cfg mem c) ∈ ctxPairs cfg mem cs := by
  unfold ctxPairs
  rw [List.mem_flatMap]
  exact ⟨c, hc, List.mem_map.2 ⟨t, ht, rfl⟩⟩

theorem of_mem_ctxPairs {cfg : Config} {mem : VarId → Option Ptr} {cs : List CtxClass} {x : TypeId × Stored} (h : x ∈ ctxPairs cfg mem cs) :
    ∃ c ∈ cs, x.1 ∈ c.ids ∧ x.2 = storedFor cfg mem c := by
  unfold ctxPairs at h
  rw [List.mem_flatMap] at h
  obtain ⟨c, hc, h⟩ := h
  obtain ⟨t, ht, rfl⟩ := List.mem_map.1 h
  exact ⟨c, hc, ht, rfl⟩

/-! ## Filling a vector at distinct indices -/

theorem storeVec_fold {cfg : Config} {h : HashState} {ix : TypeId → Nat} {n : Nat} (l : List (TypeId × Stored)) :
    ∀ (v : List Stored), v.length = n → (∀ x ∈ l, vecIndex cfg h x.1 = .ok (ix x.1) ∧ ix x.1 < n) →
    (l.map fun x => ix x.1).Nodup →
    ∃ v', l.foldlM (storeVec cfg h) v = .ok v' ∧ v'.length = n ∧ (∀ x ∈ l, v'[ix x.1]? = some x.2) ∧
      ∀ i, i ∉ (l.map fun x => ix x.1) → v'[i]? = v[i]? := by
  induction l with
  | nil => intro v hv _ _; exact ⟨v, rfl, hv, by simp, by simp⟩
  | cons x l ih =>
    intro v hv hix hnd
    rw [List.map_cons, List.nodup_cons] at hnd
    have hx := hix x (by simp)
    obtain ⟨v', h1, h2, h3, h4⟩ := ih (v.set (ix x.1) x.2) (by simpa using hv) (fun y hy => hix y (by simp [hy])) hnd.2
    refine ⟨v', ?_, h2, ?_, ?_⟩
    · rw [List.foldlM_cons]
      simp only [storeVec, hx.1, Res.ok_bind, hv, hx.2, if_true]
      exact h1
    · intro y hy
      rcases List.mem_cons.1 hy with rfl | hy
      · rw [h4 _ hnd.1, List.getElem?_set, hv]; simp [hx.2]
      · exact h3 y hy
    · intro i hi
      rw [List.map_cons, List.mem_cons, not_or] at hi
      rw [h4 i hi.2, List.getElem?_set_ne (Ne.symm hi.1)]

theorem foldl_max_ge (ids : List TypeId) : ∀ n, n ≤ ids.foldl (fun n t => Nat.max n t.toNat) n ∧
    ∀ t ∈ ids, t.toNat ≤ ids.foldl (fun n t => Nat.max n t.toNat) n := by
  induction ids with
  | nil => intro n; simp
  | cons u ids ih =>
    intro n
    have := ih (Nat.max n u.toNat)
    refine ⟨Nat.le_trans (Nat.le_max_left _ _) this.1, ?_⟩
    intro t ht
    rcases List.mem_cons.1 ht with rfl | ht
    · exact Nat.le_trans (Nat.le_max_right _ _) this.1
    · exact this.2 t ht

theorem foldl_max_lt {B : Nat} (ids : List TypeId) : ∀ n, n < B → (∀ t ∈ ids, t.toNat < B) → ids.foldl (fun n t => Nat.max n t.toNat) n < B := by
  induction ids with
  | nil => intro n h _; exact h
  | cons u ids ih =>
    intro n h hu
    exact ih _ (Nat.max_lt.2 ⟨h, hu u (by simp)⟩) (fun t ht => hu t (by simp [ht]))

theorem toNat_lt_of_ne {t : TypeId} (h : t ≠ noType) : t.toNat < 2 ^ 64 - 1 := by
  have := t.isLt
  rcases Nat.lt_or_ge t.toNat (2 ^ 64 - 1) with h1 | h1
  · exact h1
  · exfalso; apply h
    apply BitVec.eq_of_toNat_eq
    simp only [noType, BitVec.toNat_allOnes]; omega

theorem vecSize_gt {ids : List TypeId} (h : ∀ t ∈ ids, t ≠ noType) {t : TypeId} (ht : t ∈ ids) : t.toNat < vecSize ids := by
  have h1 := (foldl_max_ge ids 0).2 t ht
  have h2 := foldl_max_lt (B := 2 ^ 64 - 1) ids 0 (by decide) (fun t ht => toNat_lt_of_ne (h t ht))
  unfold vecSize
  rw [Nat.mod_eq_of_lt (by omega)]
  omega

/-! ## The map -/

theorem emplace_fold (l : List (TypeId × Stored)) : ∀ (m : List (TypeId × Stored)), (m.map (·.1) ++ l.map (·.1)).Nodup →
    l.foldl (fun m x => if m.any (fun y => y.1 == x.1) then m else m ++ [x]) m = m ++ l := by
  induction l with
  | nil => intro m _; simp
  | cons x l ih =>
    intro m h
    have hx : ¬ (m.any (fun y => y.1 == x.1) = true) := by
      rw [List.any_eq_true]
      rintro ⟨y, hy, e⟩
      rw [List.nodup_append] at h
      exact h.2.2 y.1 (List.mem_map.2 ⟨y, hy, rfl⟩) x.1 (by simp) (by simpa using e)
    rw [List.foldl_cons, if_neg hx, ih (m ++ [x]) (by simpa using h)]
    simp

theorem find_unique {l : List (TypeId × Stored)} (h : (l.map (·.1)).Nodup) {x : TypeId × Stored} (hx : x ∈ l) : l.find? (fun y => y.1 == x.1) = some x := by
  induction l with
  | nil => simp at hx
  | cons y l ih =>
    rw [List.map_cons, List.nodup_cons] at h
    rcases List.mem_cons.1 hx with rfl | hx
    · simp
    · have : ¬ (y.1 == x.1) = true := by
        intro e
        apply h.1
        have e : y.1 = x.1 := by simpa using e
        rw [e]
        exact List.mem_map.2 ⟨x, hx, rfl⟩
      rw [List.find?_cons, Bool.eq_false_iff.2 this]
      exact ih h.2 hx

/-! ## What the policies contain after `initialize` -/

/-- What is known of the state of the policies after `initialize` has stored elements for `l`. -/
structure VptrOk (cfg : Config) (l : List (TypeId × Stored)) (s : VptrState) : Prop where
  hashed : cfg.vector = true → cfg.typeHash = true → ∃ M, HashOk M (l.map (·.1)) s.hash
  index : cfg.vector = true → ∀ x ∈ l, ∃ i, vecIndex cfg s.hash x.1 = .ok i ∧ s.vec[i]? = some x.2
  map : cfg.vector = false → s.map = l

theorem vptrInit_ok {cfg : Config} {rnd : Nat → BitVec 64} {mem : VarId → Option Ptr} {cs : List CtxClass} {s : VptrState} {r : VptrResult}
    (hcs : CtxOk cfg cs) (h : vptrInit cfg rnd mem cs s = .ok r) (hr : r.error = none) : VptrOk cfg (ctxPairs cfg mem cs) r.state := by
  unfold vptrInit at h
  have hkeys := ctxPairs_keys cfg mem cs
  cases hv : cfg.vector with
  | false =>
    rw [hv] at h
    simp only [Bool.false_eq_true, if_false, Res.ok.injEq] at h
    refine ⟨fun e => absurd (hv.symm.trans e) (by decide), fun e => absurd (hv.symm.trans e) (by decide), fun _ => ?_⟩
    rw [← h]
    simp only
    rw [emplace_fold _ _ (by rw [hkeys]; simpa using hcs.nodup)]; rfl
  | true =>
    rw [hv] at h
    simp only [if_true] at h
    -- filling, once the index function is known to be injective and in range
    have fill : ∀ (s0 : VptrState) (size : Nat) (ix : TypeId → Nat), fillVec cfg mem cs s0 size = .ok r →
        (∀ t ∈ cs.flatMap (·.ids), vecIndex cfg s0.hash t = .ok (ix t) ∧ ix t < size) →
        (∀ t ∈ cs.flatMap (·.ids), ∀ u ∈ cs.flatMap (·.ids), ix t = ix u → t = u) →
        (cfg.typeHash = true → ∃ M, HashOk M (cs.flatMap (·.ids)) s0.hash) → VptrOk cfg (ctxPairs cfg mem cs) r.state := by
      intro s0 size ix hf hix hinj hh
      obtain ⟨v', h1, h2, h3, h4⟩ := storeVec_fold (cfg := cfg) (h := s0.hash) (ix := ix) (n := size) (ctxPairs cfg mem cs) (resize s0.vec size .null)
        (resize_length _ _ _)
        (fun x hx => hix x.1 (by rw [← hkeys]; exact List.mem_map.2 ⟨x, hx, rfl⟩))
        (by
          have : ((ctxPairs cfg mem cs).map fun x => ix x.1) = ((ctxPairs cfg mem cs).map (·.1)).map ix := by simp
          rw [this, hkeys]
          exact List.Nodup.map_on (fun t ht u hu e => hinj t ht u hu e) hcs.nodup)
      unfold fillVec at hf
      rw [h1, Res.ok_bind] at hf
      have hf := Res.ok.inj hf
      rw [← hf]
      refine ⟨fun _ e => ?_, fun _ x hx => ⟨ix x.1, ?_, h3 x hx⟩, fun e => by rw [hv] at e; simp at e⟩
      · rw [hkeys]; exact hh e
      · exact (hix x.1 (by rw [← hkeys]; exact List.mem_map.2 ⟨x, hx, rfl⟩)).1
    cases ht : cfg.typeHash with
    | false =>
      rw [ht] at h
      simp only [Bool.false_eq_true, if_false] at h
      refine fill s _ BitVec.toNat h (fun t hm => ⟨by simp [vecIndex, ht], vecSize_gt (hcs.valid hv) hm⟩)
        (fun t _ u _ e => BitVec.eq_of_toNat_eq e) (fun e => by rw [ht] at e; simp at e)
    | true =>
      rw [ht] at h
      simp only [if_true] at h
      rw [Res.bind_eq_ok] at h
      obtain ⟨hres, hh, h⟩ := h
      cases hres with
      | failed a b h' =>
        simp only [Res.ok.injEq] at h
        rw [← h] at hr
        simp at hr
      | found hs =>
        obtain ⟨M, hM, _, H⟩ := hashInit_found (hcs.valid hv) hh
        refine fill _ _ (hashIndex hs.mult hs.shift) h ?_ (fun t ht u hu e => H.inj ht hu e) (fun _ => ⟨M, H⟩)
        intro t hm
        refine ⟨?_, Nat.lt_succ_of_le (H.range hm).2⟩
        simp only [vecIndex, ht, if_true]
        cases hc : cfg.checks with
        | false => rfl
        | true => rw [H.check (hcs.valid hv t hm), if_pos hm]

theorem VptrOk.found {cfg : Config} {mem : VarId → Option Ptr} {cs : List CtxClass} {s : VptrState} (h : VptrOk cfg (ctxPairs cfg mem cs) s)
    (hcs : CtxOk cfg cs) {c : CtxClass} (hc : c ∈ cs) {t : TypeId} (ht : t ∈ c.ids) :
    dynamicVptr cfg s t = (storedFor cfg mem c).ref cfg := by
  have hx := mem_ctxPairs (cfg := cfg) (mem := mem) hc ht
  unfold dynamicVptr
  cases hv : cfg.vector with
  | true =>
    obtain ⟨i, h1, h2⟩ := h.index hv _ hx
    simp only at h1 h2
    have hlt : i < s.vec.length := by
      rw [List.getElem?_eq_some_iff] at h2; exact h2.1
    simp only [if_true, h1, Res.ok_bind, h2]
    rw [if_neg]
    simp only [Bool.and_eq_true, decide_eq_true_eq, not_and]
    intro _; omega
  | false =>
    have hk := ctxPairs_keys cfg mem cs
    simp only [Bool.false_eq_true, if_false, h.map hv]
    have := find_unique (by rw [hk]; exact hcs.nodup) hx
    simp only at this
    rw [this]

theorem storedFor_ref (cfg : Config) (mem : VarId → Option Ptr) (c : CtxClass) :
    (storedFor cfg mem c).ref cfg = .ok (if cfg.indirect then .var c.var else .value (mem c.var)) := by
  unfold storedFor
  cases h : cfg.indirect <;> simp [Stored.ref]

theorem VptrOk.missing {cfg : Config} {mem : VarId → Option Ptr} {cs : List CtxClass} {s : VptrState} (h : VptrOk cfg (ctxPairs cfg mem cs) s)
    (hk : cfg.checks = true) (hp : cfg.vector = true → cfg.typeHash = true) {t : TypeId} (ht : t ∉ cs.flatMap (·.ids)) (hn : cfg.vector = true → t ≠ noType) :
    dynamicVptr cfg s t = .err (.missingClass t) := by
  have hkeys := ctxPairs_keys cfg mem cs
  unfold dynamicVptr
  cases hv : cfg.vector with
  | true =>
    obtain ⟨M, H⟩ := h.hashed hv (hp hv)
    rw [hkeys] at H
    have := H.check (hn hv)
    rw [if_neg ht] at this
    simp only [if_true, vecIndex, hp hv, hk, this]
    rfl
  | false =>
    simp only [Bool.false_eq_true, if_false, h.map hv]
    have : (ctxPairs cfg mem cs).find? (fun y => y.1 == t) = none := by
      rw [List.find?_eq_none]
      intro y hy e
      apply ht
      rw [← hkeys]
      have e : y.1 = t := by simpa using e
      rw [← e]
      exact List.mem_map.2 ⟨y, hy, rfl⟩
    rw [this]
    simp [hk]

theorem storeVec_length {cfg : Config} {h : HashState} (l : List (TypeId × Stored)) :
    ∀ (v v' : List Stored), l.foldlM (storeVec cfg h) v = .ok v' → v'.length = v.length := by
  induction l with
  | nil => intro v v' h; have := Res.ok.inj h; rw [this]
  | cons x l ih =>
    intro v v' h
    rw [List.foldlM_cons, Res.bind_eq_ok] at h
    obtain ⟨w, h1, h2⟩ := h
    rw [ih _ _ h2]
    unfold storeVec at h1
    rw [Res.bind_eq_ok] at h1
    obtain ⟨i, _, h1⟩ := h1
    split at h1
    · have := Res.ok.inj h1; rw [← this]; simp
    · cases h1

theorem fillVec_length {cfg : Config} {mem : VarId → Option Ptr} {cs : List CtxClass} {s : VptrState} {size : Nat} {r : VptrResult}
    (h : fillVec cfg mem cs s size = .ok r) : r.state.vec.length = size ∧ r.state.map = s.map ∧ r.state.hash = s.hash := by
  unfold fillVec at h
  obtain ⟨v, h1, h⟩ := Res.bind_eq_ok.1 h
  obtain rfl := Res.ok.inj h
  exact ⟨(storeVec_length _ _ _ h1).trans (resize_length _ _ _), rfl, rfl⟩

/-- Without hash, an id is reported when it is larger than all registered ids. -/
theorem vptrInit_length {cfg : Config} {rnd : Nat → BitVec 64} {mem : VarId → Option Ptr} {cs : List CtxClass} {s : VptrState} {r : VptrResult}
    (hv : cfg.vector = true) (ht : cfg.typeHash = false) (h : vptrInit cfg rnd mem cs s = .ok r) : r.state.vec.length = vecSize (cs.flatMap (·.ids)) := by
  unfold vptrInit at h
  rw [hv, ht] at h
  simp only [if_true, Bool.false_eq_true, if_false] at h
  exact (fillVec_length h).1

/-- With a hash, the vector is not larger than the control table. -/
theorem vptrInit_hash_length {cfg : Config} {rnd : Nat → BitVec 64} {mem : VarId → Option Ptr} {cs : List CtxClass} {s : VptrState} {r : VptrResult}
    (hc : CtxOk cfg cs) (hv : cfg.vector = true) (ht : cfg.typeHash = true) (h : vptrInit cfg rnd mem cs s = .ok r) (he : r.error = none) :
    r.state.vec.length ≤ r.state.hash.buckets.length ∧ r.state.hash.buckets.length ≤ 16 * max 1 (cs.length * 5 / 4) := by
  unfold vptrInit at h
  rw [hv, ht] at h
  simp only [if_true] at h
  obtain ⟨x, hx, h⟩ := Res.bind_eq_ok.1 h
  cases x with
  | failed a b z =>
    obtain rfl := Res.ok.inj h
    cases he
  | found z =>
    obtain ⟨h1, _, h3⟩ := fillVec_length h
    obtain ⟨_, _, _, H⟩ := hashInit_found (hc.valid hv) hx
    rw [h1, h3]
    exact ⟨H.max_lt, (hashInit_len (hc.valid hv) hx).2⟩

end OpenMethod

import Verif.Model.HashWord
import Verif.Proof.Hash
import Mathlib.Data.List.Nodup
import Mathlib.Data.Finset.Card

/-! # The hash found by `fast_perfect_hash`, on targets of any size -/

namespace OpenMethod

namespace Word

variable {w : Nat}

theorem hashIndex_lt {M : Nat} (hM : M ≤ w) (mult : BitVec w) (t : BitVec w) : hashIndex mult (w - M) t < 2 ^ M := by
  unfold hashIndex
  rw [BitVec.toNat_ushiftRight, Nat.shiftRight_eq_div_pow]
  apply Nat.div_lt_of_lt_mul
  rw [← Nat.pow_add]
  have : w - M + M = w := by omega
  rw [this]
  exact (t * mult).isLt

/-- What is known during the loops over the type ids: `done` have been stored. -/
structure Probing (M : Nat) (mult : BitVec w) (done : List (BitVec w)) (s : HashState w) : Prop where
  factor : s.mult = mult
  shift : s.shift = w - M
  len : s.buckets.length = 2 ^ M
  max : s.max < 2 ^ M
  at_ : ∀ i, i < 2 ^ M → ∀ b, s.buckets[i]? = some b → b = noType w ∨ b ∈ done ∧ hashIndex mult (w - M) b = i
  mem : ∀ t ∈ done, s.buckets[hashIndex mult (w - M) t]? = some t
  range : ∀ t ∈ done, s.min ≤ hashIndex mult (w - M) t ∧ hashIndex mult (w - M) t ≤ s.max
  nodup : done.Nodup

theorem probe_spec {M : Nat} (hM : M ≤ w) {mult : BitVec w} (ids : List (BitVec w)) :
    ∀ (done : List (BitVec w)) (s : HashState w), Probing M mult done s → (∀ t ∈ ids, t ≠ noType w) → (∀ t ∈ done, t ≠ noType w) →
    ∃ ok s', probe ids s = .ok (ok, s') ∧ s'.shift = w - M ∧ s'.buckets.length = 2 ^ M ∧ s'.max < 2 ^ M ∧
      (ok = true → Probing M mult (done ++ ids) s') := by
  induction ids with
  | nil => intro done s h _ _; exact ⟨true, s, rfl, h.shift, h.len, h.max, fun _ => by simpa using h⟩
  | cons t ts ih =>
    intro done s h hn hd
    have hlt := hashIndex_lt hM mult t
    have hb : ∃ b, s.buckets[hashIndex mult (w - M) t]? = some b := ⟨_, List.getElem?_eq_getElem (by rw [h.len]; exact hlt)⟩
    obtain ⟨b, hb⟩ := hb
    unfold probe
    simp only [h.factor, h.shift, hb]
    have hmx : Nat.max s.max (hashIndex mult (w - M) t) < 2 ^ M := Nat.max_lt.2 ⟨h.max, hlt⟩
    split
    · rename_i hbn
      exact ⟨false, _, rfl, rfl, h.len, hmx, fun e => by simp at e⟩
    · rename_i hbn
      have hbn : b = noType w := by simpa using hbn
      have htn : t ∉ done := by
        intro htd
        have := h.mem t htd
        rw [hb, hbn] at this
        exact hd t htd (Option.some.inj this).symm
      have key := ih (done ++ [t]) { s with mult := mult, shift := w - M, min := Nat.min s.min (hashIndex mult (w - M) t), max := Nat.max s.max (hashIndex mult (w - M) t), buckets := s.buckets.set (hashIndex mult (w - M) t) t } ?_ (fun u hu => hn u (by simp [hu])) ?_
      · obtain ⟨ok, s', h1, h2, h3, h4, h5⟩ := key
        refine ⟨ok, s', ?_, h2, h3, h4, ?_⟩
        · simpa [h.factor, h.shift] using h1
        · intro e; have := h5 e; rwa [List.append_assoc] at this
      · refine ⟨rfl, rfl, by simp [h.len], hmx, ?_, ?_, ?_, ?_⟩
        · intro i hi b' hb'
          simp only [List.getElem?_set, h.len] at hb'
          split at hb'
          · rename_i e
            simp only [Option.some.injEq] at hb'
            subst hb'
            exact .inr ⟨by simp, e⟩
          · rcases h.at_ i hi b' hb' with h0 | ⟨h1, h2⟩
            · exact .inl h0
            · exact .inr ⟨by simp [h1], h2⟩
        · intro u hu
          rcases List.mem_append.1 hu with hu | hu
          · have hm := h.mem u hu
            have hne : hashIndex mult (w - M) t ≠ hashIndex mult (w - M) u := by
              intro e
              rw [← e, hb, hbn] at hm
              exact hd u hu (Option.some.inj hm).symm
            simp only [List.getElem?_set_ne hne]; exact hm
          · simp only [List.mem_singleton] at hu
            subst hu
            simp only [List.getElem?_set, h.len, hlt, if_true]
        · intro u hu
          rcases List.mem_append.1 hu with hu | hu
          · have := h.range u hu
            exact ⟨Nat.le_trans (Nat.min_le_left _ _) this.1, Nat.le_trans this.2 (Nat.le_max_left _ _)⟩
          · simp only [List.mem_singleton] at hu
            subst hu
            exact ⟨Nat.min_le_right _ _, Nat.le_max_right _ _⟩
        · rw [List.nodup_append]
          refine ⟨h.nodup, by simp, ?_⟩
          intro a ha c hc
          simp only [List.mem_singleton] at hc
          subst hc
          rintro rfl
          exact htn ha
      · intro u hu
        rcases List.mem_append.1 hu with hu | hu
        · exact hd u hu
        · simp only [List.mem_singleton] at hu; subst hu; exact hn _ (by simp)

/-- The state after a successful search. -/
def HashOk (M : Nat) (ids : List (BitVec w)) (s : HashState w) : Prop := ∃ mult, Probing M mult ids s

theorem tryFactors_spec {M : Nat} (hM : M ≤ w) (rnd : Nat → BitVec w) (ids : List (BitVec w)) (hn : ∀ t ∈ ids, t ≠ noType w) (n : Nat) :
    ∀ s : Search w, s.state.shift = w - M → s.state.buckets.length = 2 ^ M → s.state.max < 2 ^ M →
    ∃ ok s', tryFactors rnd ids n s = .ok (ok, s') ∧ s'.state.buckets.length = 2 ^ M ∧
      (ok = true → HashOk M ids s'.state) ∧ (ok = false → s'.total = s.total + n ∧ s'.drawn = s.drawn + n) := by
  induction n with
  | zero => intro s h1 h2 h3; exact ⟨false, s, rfl, h2, by simp, by simp⟩
  | succ n ih =>
    intro s h1 h2 h3
    obtain ⟨ok, s', e1, e2, e3, e4, e5⟩ := probe_spec hM (mult := rnd s.drawn ||| 1) ids [] { s.state with mult := rnd s.drawn ||| 1, buckets := List.replicate s.state.buckets.length (noType w) }
      ⟨rfl, h1, by simpa using h2, h3, by
        intro i hi b hb
        simp only [List.getElem?_replicate, h2, hi, if_true, Option.some.injEq] at hb
        exact .inl hb.symm, by simp, by simp, by simp⟩ hn (by simp)
    unfold tryFactors
    simp only [e1, Res.ok_bind]
    cases ok with
    | true => exact ⟨true, _, rfl, e3, fun _ => ⟨_, by simpa using e5 rfl⟩, by simp⟩
    | false =>
      obtain ⟨ok, s'', f1, f2, f3, f4⟩ := ih { state := s', total := s.total + 1, drawn := s.drawn + 1 } e2 e3 e4
      refine ⟨ok, s'', by simpa using f1, f2, f3, fun e => ?_⟩
      have := f4 e
      simp only at this
      omega

theorem searchPasses_spec (hw : 31 ≤ w) (rnd : Nat → BitVec w) (ids : List (BitVec w)) (hn : ∀ t ∈ ids, t ≠ noType w) (passes : Nat) :
    ∀ (M : Nat) (s : Search w), M ≤ 31 →
    (∃ k M' st, searchPasses rnd ids passes M s = .ok (.found st) ∧ k < passes ∧ M' = M + k ∧ M' ≤ w ∧ HashOk M' ids st) ∨
    (∃ s', searchPasses rnd ids passes M s = .ok (.failed (s.total + attemptsPerPass * passes) (2 ^ (M + passes)) s') ∧
      (0 < passes → s'.state.buckets.length = 2 ^ (M + passes - 1)) ∧ s'.drawn = s.drawn + attemptsPerPass * passes) ∨
    (searchPasses rnd ids passes M s = .ub ∧ 31 < M + passes) := by
  induction passes with
  | zero => intro M s _; exact .inr (.inl ⟨s, by simp [searchPasses], by simp, by simp⟩)
  | succ n ih =>
    intro M s hM
    unfold searchPasses
    by_cases h31 : 31 ≤ M
    · exact .inr (.inr ⟨by rw [if_pos h31], by omega⟩)
    rw [if_neg h31]
    obtain ⟨ok, s', e1, e2, e3, e4⟩ := tryFactors_spec (M := M) (by omega) rnd ids hn attemptsPerPass
      { s with state := { s.state with shift := w - M, min := sizeMax w, max := 0, buckets := resize s.state.buckets (2 ^ M) 0 } }
      rfl (resize_length _ _ _) (Nat.pow_pos (by omega))
    simp only [e1, Res.ok_bind]
    cases ok with
    | true => exact .inl ⟨0, M, s'.state, by simp, by omega, by omega, by omega, e3 rfl⟩
    | false =>
      simp only [Bool.false_eq_true, if_false]
      have e4 := e4 rfl
      simp only at e4
      rcases ih (M + 1) s' (by omega) with ⟨k, M', st, h1, h2, h3, h4, h5⟩ | ⟨st, h1, h2, h3⟩ | ⟨h1, h2⟩
      · exact .inl ⟨k + 1, M', st, h1, by omega, by omega, h4, h5⟩
      · refine .inr (.inl ⟨st, ?_, ?_, ?_⟩)
        · rw [h1, e4.1]
          have : M + 1 + n = M + (n + 1) := by omega
          rw [this, Nat.mul_succ]
          congr 2
          omega
        · intro _
          cases n with
          | zero =>
            have h1 : s' = st := by
              simp only [searchPasses, Res.ok.injEq, HashResult.failed.injEq] at h1
              exact h1.2.2
            rw [← h1, e2]; simp
          | succ n =>
            rw [h2 (by omega)]
            congr 1; omega
        · rw [h3, e4.2, Nat.mul_succ]; omega
      · exact .inr (.inr ⟨h1, by omega⟩)

/-- The four passes. -/
theorem hashInit_spec (hw : 31 ≤ w) (rnd : Nat → BitVec w) (N : Nat) (ids : List (BitVec w)) (old : HashState w) (hn : ∀ t ∈ ids, t ≠ noType w) :
    (∃ M s, hashInit rnd N ids old = .ok (.found s) ∧ M ≤ w ∧ (initialM N ≤ M ∧ M ≤ initialM N + 3) ∧ HashOk M ids s) ∨
    (∃ s, hashInit rnd N ids old = .ok (.failed 400000 (2 ^ (initialM N + 4)) s) ∧ s.state.buckets.length = 2 ^ (initialM N + 3) ∧
      s.drawn = 400000) ∨
    (hashInit rnd N ids old = .ub ∧ 31 < initialM N + 4) := by
  unfold hashInit
  by_cases hM : initialM N ≤ 31
  · rcases searchPasses_spec hw rnd ids hn 4 (initialM N) { state := old, total := 0, drawn := 0 } hM with
      ⟨k, M', st, h1, h2, h3, h4, h5⟩ | ⟨st, h1, h2, h3⟩ | ⟨h1, h2⟩
    · exact .inl ⟨M', st, h1, h4, ⟨by omega, by omega⟩, h5⟩
    · refine .inr (.inl ⟨st, ?_, h2 (by omega), by simpa [attemptsPerPass] using h3⟩)
      rw [h1]; simp [attemptsPerPass]
    · exact .inr (.inr ⟨h1, h2⟩)
  · refine .inr (.inr ⟨?_, by omega⟩)
    unfold searchPasses
    rw [if_pos (by omega)]

theorem hashInit_found (hw : 31 ≤ w) {rnd : Nat → BitVec w} {N : Nat} {ids : List (BitVec w)} {old s : HashState w} (hn : ∀ t ∈ ids, t ≠ noType w)
    (h : hashInit rnd N ids old = .ok (.found s)) : ∃ M, M ≤ w ∧ (initialM N ≤ M ∧ M ≤ initialM N + 3) ∧ HashOk M ids s := by
  rcases hashInit_spec hw rnd N ids old hn with ⟨M, s', h1, h2, h3, h4⟩ | ⟨s', h1, _⟩ | ⟨h1, _⟩
  · rw [h1] at h; cases h; exact ⟨M, h2, h3, h4⟩
  · rw [h1] at h; cases h
  · rw [h1] at h; cases h

theorem HashOk.len {M : Nat} {ids : List (BitVec w)} {s : HashState w} (h : HashOk M ids s) : s.buckets.length = 2 ^ M := by
  obtain ⟨mult, P⟩ := h
  exact P.len

theorem hashInit_len (hw : 31 ≤ w) {rnd : Nat → BitVec w} {N : Nat} {ids : List (BitVec w)} {old s : HashState w} (hn : ∀ t ∈ ids, t ≠ noType w)
    (h : hashInit rnd N ids old = .ok (.found s)) : N * 5 / 4 < s.buckets.length ∧ s.buckets.length ≤ 16 * max 1 (N * 5 / 4) := by
  obtain ⟨M, _, ⟨h1, h2⟩, H⟩ := hashInit_found hw hn h
  rw [H.len]
  have hb := initialM_bounds N
  have h3 : 2 ^ initialM N ≤ 2 ^ M := Nat.pow_le_pow_right (by omega) h1
  have h4 : 2 ^ M ≤ 2 ^ (initialM N + 3) := Nat.pow_le_pow_right (by omega) h2
  rw [Nat.pow_add] at h4
  omega

theorem HashOk.inj {M : Nat} {ids : List (BitVec w)} {s : HashState w} (h : HashOk M ids s) {t u : BitVec w} (ht : t ∈ ids) (hu : u ∈ ids)
    (e : hashIndex s.mult s.shift t = hashIndex s.mult s.shift u) : t = u := by
  obtain ⟨mult, P⟩ := h
  rw [P.factor, P.shift] at e
  have h1 := P.mem t ht
  rw [e, P.mem u hu] at h1
  exact (Option.some.inj h1).symm

theorem HashOk.range {M : Nat} {ids : List (BitVec w)} {s : HashState w} (h : HashOk M ids s) {t : BitVec w} (ht : t ∈ ids) :
    s.min ≤ hashIndex s.mult s.shift t ∧ hashIndex s.mult s.shift t ≤ s.max := by
  obtain ⟨mult, P⟩ := h
  rw [P.factor, P.shift]
  exact P.range t ht

theorem HashOk.max_lt {M : Nat} {ids : List (BitVec w)} {s : HashState w} (h : HashOk M ids s) : s.max < s.buckets.length := by
  obtain ⟨mult, P⟩ := h
  rw [P.len]; exact P.max

theorem HashOk.card {M : Nat} {ids : List (BitVec w)} {s : HashState w} (hM : M ≤ w) (h : HashOk M ids s) : ids.length ≤ 2 ^ M := by
  obtain ⟨mult, P⟩ := h
  have hnd : (ids.map (hashIndex mult (w - M))).Nodup := by
    refine List.Nodup.map_on ?_ P.nodup
    intro t ht u hu e
    have h1 := P.mem t ht
    rw [e, P.mem u hu] at h1
    exact (Option.some.inj h1).symm
  have hsub : (ids.map (hashIndex mult (w - M))).toFinset ⊆ Finset.range (2 ^ M) := by
    intro i hi
    simp only [List.mem_toFinset, List.mem_map] at hi
    obtain ⟨t, _, rfl⟩ := hi
    exact Finset.mem_range.2 (hashIndex_lt hM mult t)
  have := Finset.card_le_card hsub
  rw [List.toFinset_card_of_nodup hnd, Finset.card_range, List.length_map] at this
  exact this

theorem HashOk.check {M : Nat} {ids : List (BitVec w)} {s : HashState w} (h : HashOk M ids s) {t : BitVec w} (hn : t ≠ noType w) :
    hash true s t = .ok (if t ∈ ids then some (hashIndex s.mult s.shift t) else none) := by
  have hmx := h.max_lt
  unfold hash
  simp only [if_true]
  split
  · rename_i ht
    have hr := h.range ht
    obtain ⟨mult, P⟩ := h
    have hm := P.mem t ht
    rw [← P.shift, ← P.factor] at hm
    unfold hashCheck
    rw [if_neg (by omega), hm]
    simp
  · rename_i ht
    unfold hashCheck
    split
    · rfl
    · rename_i hr
      have hlt : hashIndex s.mult s.shift t < s.buckets.length := by omega
      obtain ⟨mult, P⟩ := h
      rw [List.getElem?_eq_getElem hlt]
      have hb : s.buckets[hashIndex s.mult s.shift t] ≠ t := by
        intro e
        rcases P.at_ _ (by rw [← P.len]; exact hlt) _ (List.getElem?_eq_getElem hlt) with h0 | ⟨h0, _⟩
        · rw [e] at h0; exact hn h0
        · rw [e] at h0; exact ht h0
      simp [hb]

/-! ## 64 bit targets -/

def HashState.to64 (s : HashState 64) : OpenMethod.HashState := ⟨s.mult, s.shift, s.min, s.max, s.buckets⟩

def Search.to64 (s : Search 64) : OpenMethod.Search := ⟨s.state.to64, s.total, s.drawn⟩

def HashResult.to64 : HashResult 64 → OpenMethod.HashResult
  | .found s => .found s.to64
  | .failed a b s => .failed a b s.to64

/-- The same outcome. -/
def Res.Same {α β : Type} (f : α → β) : Res α → Res β → Prop
  | .ok a, r => r = .ok (f a)
  | .err e, r => r = .err e
  | .ub, r => r = .ub

theorem probe_same (ids : List (BitVec 64)) : ∀ s : HashState 64, Res.Same (fun r => (r.1, r.2.to64)) (probe ids s) (OpenMethod.probe ids s.to64) := by
  induction ids with
  | nil => intro s; rfl
  | cons t ts ih =>
    intro s
    unfold probe OpenMethod.probe
    have e : OpenMethod.hashIndex s.to64.mult s.to64.shift t = hashIndex s.mult s.shift t := rfl
    simp only [e]
    have e' : s.to64.buckets = s.buckets := rfl
    simp only [e']
    cases s.buckets[hashIndex s.mult s.shift t]? with
    | none => rfl
    | some b =>
      simp only
      by_cases hb : b = noType 64
      · rw [if_neg (by simp [hb]), if_neg (by simp [hb, noType, OpenMethod.noType])]
        exact ih _
      · rw [if_pos hb, if_pos (by simpa [noType, OpenMethod.noType] using hb)]
        rfl

theorem tryFactors_same (rnd : Nat → BitVec 64) (ids : List (BitVec 64)) (n : Nat) : ∀ s : Search 64,
    Res.Same (fun r => (r.1, r.2.to64)) (tryFactors rnd ids n s) (OpenMethod.tryFactors rnd ids n s.to64) := by
  induction n with
  | zero => intro s; rfl
  | succ n ih =>
    intro s
    have h := probe_same ids { s.state with mult := rnd s.drawn ||| 1, buckets := List.replicate s.state.buckets.length (noType 64) }
    unfold tryFactors OpenMethod.tryFactors
    cases hp : probe ids { s.state with mult := rnd s.drawn ||| 1, buckets := List.replicate s.state.buckets.length (noType 64) } with
    | ok r =>
      rw [hp] at h
      have h : OpenMethod.probe ids { s.to64.state with mult := rnd s.to64.drawn ||| 1, buckets := List.replicate s.to64.state.buckets.length OpenMethod.noType } = .ok (r.1, r.2.to64) := h
      dsimp only at hp h
      simp only [hp, h, Res.ok_bind]
      cases r.1 with
      | true => rfl
      | false => exact ih ⟨r.2, s.total + 1, s.drawn + 1⟩
    | err e =>
      rw [hp] at h
      have h : OpenMethod.probe ids { s.to64.state with mult := rnd s.to64.drawn ||| 1, buckets := List.replicate s.to64.state.buckets.length OpenMethod.noType } = .err e := h
      dsimp only at hp h
      simp only [hp, h]
      rfl
    | ub =>
      rw [hp] at h
      have h : OpenMethod.probe ids { s.to64.state with mult := rnd s.to64.drawn ||| 1, buckets := List.replicate s.to64.state.buckets.length OpenMethod.noType } = .ub := h
      dsimp only at hp h
      simp only [hp, h]
      rfl

theorem searchPasses_same (rnd : Nat → BitVec 64) (ids : List (BitVec 64)) (n : Nat) : ∀ (M : Nat) (s : Search 64),
    Res.Same HashResult.to64 (searchPasses rnd ids n M s) (OpenMethod.searchPasses rnd ids n M s.to64) := by
  induction n with
  | zero => intro M s; rfl
  | succ n ih =>
    intro M s
    unfold searchPasses OpenMethod.searchPasses
    by_cases h31 : 31 ≤ M
    · rw [if_pos h31, if_pos h31]; rfl
    rw [if_neg h31, if_neg h31]
    have h := tryFactors_same rnd ids attemptsPerPass { s with state := { s.state with shift := 64 - M, min := sizeMax 64, max := 0, buckets := resize s.state.buckets (2 ^ M) 0 } }
    generalize hr : tryFactors rnd ids attemptsPerPass { s with state := { s.state with shift := 64 - M, min := sizeMax 64, max := 0, buckets := resize s.state.buckets (2 ^ M) 0 } } = r at h
    generalize hr' : OpenMethod.tryFactors rnd ids attemptsPerPass _ = r' at h
    have e : OpenMethod.tryFactors rnd ids attemptsPerPass
        { s.to64 with state := { s.to64.state with shift := 64 - M, min := OpenMethod.sizeMax, max := 0, buckets := resize s.to64.state.buckets (2 ^ M) 0 } } = r' := hr'
    simp only [hr, e]
    cases r with
    | ok r =>
      cases h
      simp only [Res.ok_bind]
      cases r.1 with
      | true => rfl
      | false => exact ih (M + 1) r.2
    | err e => cases h; rfl
    | ub => cases h; rfl

end Word

end OpenMethod

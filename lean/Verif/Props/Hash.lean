import Verif.Proof.Hash

/-! # C23 to C25: `fast_perfect_hash` -/

namespace OpenMethod.Props

/-- C23: distinct registered ids have distinct hash values, between the returned minimum and maximum; the maximum is less
than the number of buckets. Any sequence of random factors, any earlier content of the variables. The value `UINTPTR_MAX` is
not a valid type id. -/
theorem C23 {rnd : Nat → BitVec 64} {N : Nat} {ids : List TypeId} {old s : HashState} (hn : ∀ t ∈ ids, t ≠ noType)
    (h : hashInit rnd N ids old = .ok (.found s)) :
    (∀ t ∈ ids, ∀ u ∈ ids, hash false s t = hash false s u → t = u) ∧
    (∀ t ∈ ids, ∃ i, hash false s t = .ok i ∧ s.min ≤ i ∧ i ≤ s.max) ∧
    s.max < s.buckets.length := by
  obtain ⟨M, _, _, H⟩ := hashInit_found hn h
  refine ⟨fun t ht u hu e => H.inj ht hu ?_, fun t ht => ⟨_, rfl, H.range ht⟩, H.max_lt⟩
  simpa [hash] using e

/-- The search itself has no undefined behaviour (in particular it never accesses a bucket that does not exist), if there are
less than one hundred million classes. -/
theorem C23_safe {N : Nat} (hN : N < 100000000) (rnd : Nat → BitVec 64) {ids : List TypeId} (old : HashState) (hn : ∀ t ∈ ids, t ≠ noType) :
    hashInit rnd N ids old ≠ .ub := by
  intro h
  rcases hashInit_spec rnd N ids old hn with ⟨M, s', h1, _⟩ | ⟨s', h1, _⟩ | ⟨_, h2⟩
  · rw [h1] at h; cases h
  · rw [h1] at h; cases h
  · have := initialM_le hN; omega

/-- C24: with runtime checks, after a successful search, hashing an id reports `missing_class` exactly when it is not
registered; otherwise it returns the hash value. A read outside the control table would be undefined behaviour. -/
theorem C24 {rnd : Nat → BitVec 64} {N : Nat} {ids : List TypeId} {old s : HashState} (hn : ∀ t ∈ ids, t ≠ noType)
    (h : hashInit rnd N ids old = .ok (.found s)) {t : TypeId} (ht : t ≠ noType) :
    (t ∈ ids → ∃ i, hash true s t = .ok i ∧ hash false s t = .ok i) ∧ (t ∉ ids → hash true s t = .err (.missingClass t)) := by
  obtain ⟨M, _, _, H⟩ := hashInit_found hn h
  have := H.check ht
  refine ⟨fun hi => ⟨_, by rw [this, if_pos hi], rfl⟩, fun hi => by rw [this, if_neg hi]⟩

/-- A search that succeeds at the second attempt, over a table with earlier content. The first attempt found a collision
after it had updated the minimum, which is therefore less than all the hash values. -/
def twoAttempts : Nat → BitVec 64 := fun k => if k = 0 then 1 else 0x6000000000000001

example : hashInit twoAttempts 3 [2 ^ 63, 5, 6] ⟨7, 60, 3, 9, [5, 6, 7, 8, 9]⟩ =
    .ok (.found ⟨0x6000000000000001, 62, 0, 3, [noType, 6, 2 ^ 63, 5]⟩) := by decide +kernel

/-- The value `UINTPTR_MAX` marks empty buckets: when it is hashed to an empty bucket it is not detected. -/
example : hashInit (fun _ => 2 ^ 63) 2 [0, 2 ^ 63] ⟨0, 0, 0, 0, []⟩ = .ok (.found ⟨2 ^ 63 + 1, 62, 0, 2, [0, noType, 2 ^ 63, noType]⟩) ∧
    hash true ⟨2 ^ 63 + 1, 62, 0, 2, [0, noType, 2 ^ 63, noType]⟩ noType = .ok 1 := by decide +kernel

/-- C25: when the search fails, `search_error` gives the number of attempts made, 400000, and the number of buckets used in
the last attempt. -/
def C25 : Prop :=
  ∀ (rnd : Nat → BitVec 64) (N : Nat) (ids : List TypeId) (old : HashState) (attempts buckets : Nat) (s : Search),
    (∀ t ∈ ids, t ≠ noType) → hashInit rnd N ids old = .ok (.failed attempts buckets s) →
    attempts = 400000 ∧ attempts = s.drawn ∧ buckets = s.state.buckets.length

/-- The number of attempts is right; the number of buckets is twice what was used in the last attempt. -/
theorem C25_partial {rnd : Nat → BitVec 64} {N : Nat} {ids : List TypeId} {old : HashState} {attempts buckets : Nat} {s : Search}
    (hn : ∀ t ∈ ids, t ≠ noType) (h : hashInit rnd N ids old = .ok (.failed attempts buckets s)) :
    attempts = 400000 ∧ attempts = s.drawn ∧ buckets = 2 * s.state.buckets.length := by
  rcases hashInit_spec rnd N ids old hn with ⟨M, s', h1, _⟩ | ⟨s', h1, h2, h3⟩ | ⟨h1, h2⟩
  · rw [h1] at h; cases h
  · rw [h1] at h; cases h
    refine ⟨rfl, h3.symm, ?_⟩
    rw [h2, ← Nat.pow_succ']
  · rw [h1] at h; cases h

/-- The search fails, whatever the random factors, when classes have many type ids: the number of buckets is computed from the
number of classes, sixteen times five quarters of it at most. -/
theorem C25_fails {N : Nat} (hN : N < 100000000) (rnd : Nat → BitVec 64) {ids : List TypeId} (old : HashState) (hn : ∀ t ∈ ids, t ≠ noType)
    (hl : 16 * max 1 (N * 5 / 4) < ids.length) : ∃ buckets s, hashInit rnd N ids old = .ok (.failed 400000 buckets s) := by
  rcases hashInit_spec rnd N ids old hn with ⟨M, s', h1, h2, _, h4⟩ | ⟨s', h1, _⟩ | ⟨_, h2⟩
  · have := h4.card h2
    rw [← h4.len] at this
    have := (hashInit_len hn h1).2
    omega
  · exact ⟨_, s', h1⟩
  · have := initialM_le hN; omega

/-- One class with seventeen type ids: 400000 attempts, `buckets` is 32, but at most 16 were used. -/
theorem C25_refuted : ¬ C25 := by
  intro h
  have hn : ∀ t ∈ (List.range 17).map (BitVec.ofNat 64), t ≠ noType := by
    intro t ht e
    obtain ⟨n, hn, rfl⟩ := List.mem_map.1 ht
    have := congrArg BitVec.toNat e
    simp only [BitVec.toNat_ofNat, noType, BitVec.toNat_allOnes] at this
    have := List.mem_range.1 hn
    omega
  obtain ⟨buckets, s, hs⟩ := C25_fails (N := 1) (by omega) (fun _ => 0) ⟨0, 0, 0, 0, []⟩ hn (by decide +kernel)
  obtain ⟨_, _, h1⟩ := h _ _ _ _ _ _ _ hn hs
  obtain ⟨_, _, h2⟩ := C25_partial hn hs
  have h3 : 0 < s.state.buckets.length := by
    rcases hashInit_spec (fun _ => 0) 1 _ ⟨0, 0, 0, 0, []⟩ hn with ⟨M, s', e1, _⟩ | ⟨s', e1, e2, _⟩ | ⟨e1, _⟩
    · rw [hs] at e1; cases e1
    · rw [hs] at e1; cases e1
      rw [e2]
      exact Nat.pow_pos (by omega)
    · rw [hs] at e1; cases e1
  omega

/-! ## C53: size of the tables -/

/-- C53: the number of buckets is more than five quarters of the number of classes, and at most sixteen times that. -/
theorem C53 {rnd : Nat → BitVec 64} {N : Nat} {ids : List TypeId} {old s : HashState} (hn : ∀ t ∈ ids, t ≠ noType)
    (h : hashInit rnd N ids old = .ok (.found s)) : N * 5 / 4 < s.buckets.length ∧ s.buckets.length ≤ 16 * max 1 (N * 5 / 4) := hashInit_len hn h

end OpenMethod.Props

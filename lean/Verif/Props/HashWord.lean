import Verif.Proof.HashWord

/-!
# C82: `fast_perfect_hash` on targets of any size
-/

namespace OpenMethod.Props

open Word

variable {w : Nat}

/-- C82: on targets with words of `w` bits, 32 or more, with less than one hundred million classes: the search has no undefined behaviour; if it succeeds, distinct registered ids have distinct hash values, that are
indices of buckets; with runtime checks, hashing detects the ids that are not registered, and only those; the number of buckets is more than five quarters of the number of classes, and at most sixteen times that; if it fails, four
hundred thousand factors were tried. -/
theorem C82 (hw : 32 ≤ w) (rnd : Nat → BitVec w) {N : Nat} (hN : N < 100000000) {ids : List (BitVec w)} (old : Word.HashState w) (hn : ∀ t ∈ ids, t ≠ Word.noType w) :
    (∃ s, Word.hashInit rnd N ids old = .ok (.found s) ∧
      (∀ t ∈ ids, ∀ u ∈ ids, Word.hash false s t = Word.hash false s u → t = u) ∧
      (∀ t ∈ ids, ∃ i, Word.hash false s t = .ok (some i) ∧ s.min ≤ i ∧ i ≤ s.max) ∧ s.max < s.buckets.length ∧ (N * 5 / 4 < s.buckets.length ∧ s.buckets.length ≤ 16 * max 1 (N * 5 / 4)) ∧
      ∀ t, t ≠ Word.noType w → (t ∈ ids → ∃ i, Word.hash true s t = .ok (some i) ∧ Word.hash false s t = .ok (some i)) ∧ (t ∉ ids → Word.hash true s t = .ok none)) ∨
    ∃ buckets s, Word.hashInit rnd N ids old = .ok (.failed 400000 buckets s) ∧ s.drawn = 400000 := by
  have hw : 31 ≤ w := by omega
  rcases Word.hashInit_spec hw rnd N ids old hn with ⟨M, s, h1, h2, h3, H⟩ | ⟨s, h1, h2, h3⟩ | ⟨h1, h2⟩
  · refine .inl ⟨s, h1, fun t ht u hu e => H.inj ht hu ?_, fun t ht => ⟨_, rfl, H.range ht⟩, H.max_lt, ?_, fun t ht => ?_⟩
    · simpa [Word.hash] using e
    · exact Word.hashInit_len hw hn h1
    · have := H.check ht
      exact ⟨fun hi => ⟨_, by rw [this, if_pos hi], rfl⟩, fun hi => by rw [this, if_neg hi]⟩
  · exact .inr ⟨_, s, h1, h3⟩
  · have := initialM_le hN
    omega

/-- With 64 bits, this is the model that is used in the other modules. -/
theorem C82_64 (rnd : Nat → BitVec 64) (N : Nat) (ids : List TypeId) (old : Word.HashState 64) :
    OpenMethod.hashInit rnd N ids old.to64 = (match Word.hashInit rnd N ids old with
      | .ok r => .ok r.to64
      | .err e => .err e
      | .ub => .ub) ∧
    ∀ checks t, OpenMethod.hash checks old.to64 t = (match Word.hash checks old t with
      | .ok (some i) => .ok i
      | .ok none => .err (.missingClass t)
      | .err e => .err e
      | .ub => .ub) := by
  constructor
  · have := searchPasses_same rnd ids 4 (initialM N) { state := old, total := 0, drawn := 0 }
    change Word.Res.Same _ (Word.hashInit rnd N ids old) (OpenMethod.hashInit rnd N ids old.to64) at this
    generalize Word.hashInit rnd N ids old = r at *
    cases r <;> exact this
  · intro checks t
    cases checks with
    | false => rfl
    | true =>
      have e : OpenMethod.hashIndex old.to64.mult old.to64.shift t = Word.hashIndex old.mult old.shift t := rfl
      have e1 : old.to64.min = old.min := rfl
      have e2 : old.to64.max = old.max := rfl
      have e3 : old.to64.buckets = old.buckets := rfl
      simp only [OpenMethod.hash, OpenMethod.hashCheck, Word.hash, Word.hashCheck, e, e1, e2, e3, if_true]
      by_cases h : Word.hashIndex old.mult old.shift t < old.min ∨ old.max < Word.hashIndex old.mult old.shift t
      · simp [h]
      · simp only [if_neg h]
        cases old.buckets[Word.hashIndex old.mult old.shift t]? with
        | none => rfl
        | some b =>
          by_cases hb : b = t
          · simp [hb]
          · simp [hb]

/-- A search on a target with 32 bits, that succeeds at the second attempt. -/
example : Word.hashInit (w := 32) (fun k => if k = 0 then 1 else 0x60000001) 3 [2 ^ 31, 5, 6] ⟨7, 60, 3, 9, [5, 6, 7, 8, 9]⟩ =
    .ok (.found ⟨0x60000001, 30, 0, 3, [Word.noType 32, 6, 2 ^ 31, 5]⟩) := by decide +kernel

end OpenMethod.Props

import Verif.Model.Output
import Verif.SpecOutput
import Mathlib.Tactic.IntervalCases

/-!
# C68: numbers in messages and traces
-/

namespace OpenMethod.Props

open Output

theorem digits_small {base v : Nat} (h : ¬ (2 ≤ base ∧ base ≤ v)) : digits base v = [v] := by rw [digits, dif_neg h]
theorem digits_large {base v : Nat} (h : 2 ≤ base ∧ base ≤ v) : digits base v = digits base (v / base) ++ [v % base] := by rw [digits, dif_pos h]

theorem digitChar_spec {d : Nat} (h : d < 16) : numeralDigits[d]? = some (digitChar d) := by
  interval_cases d <;> decide

theorem digitChar_zero {d : Nat} (h : d < 16) (h0 : digitChar d = '0') : d = 0 := by
  interval_cases d <;> revert h0 <;> decide

theorem digits_numeral {base : Nat} (h2 : 2 ≤ base) (h16 : base ≤ 16) (v : Nat) : Numeral base ((digits base v).map digitChar) v := by
  induction v using Nat.strong_induction_on with
  | _ v ih =>
    by_cases h : base ≤ v
    · rw [digits_large ⟨h2, h⟩, List.map_append]
      obtain ⟨i1, i2, i3⟩ := ih (v / base) (Nat.div_lt_self (by omega) h2)
      have hlt : v % base < base := Nat.mod_lt _ (by omega)
      have hpos : 0 < v / base := Nat.div_pos h (by omega)
      refine ⟨?_, by simp, fun h0 => ?_⟩
      · have := NumeralValue.snoc i1 (digitChar_spec (d := v % base) (by omega)) hlt
        rwa [Nat.div_add_mod] at this
      · rw [List.head?_append_of_ne_nil _ i2] at h0
        exact absurd (i3 h0).1 (by omega)
    · rw [digits_small (by omega)]
      refine ⟨?_, by simp, fun h0 => ?_⟩
      · have := NumeralValue.snoc (base := base) .nil (digitChar_spec (d := v) (by omega)) (by omega)
        simpa using this
      · have := digitChar_zero (d := v) (by omega) (by simpa using h0)
        subst this
        exact ⟨rfl, by decide⟩

theorem digits_length {base : Nat} (h2 : 2 ≤ base) : ∀ (n : Nat) (v : Nat), v < base ^ (n + 1) → (digits base v).length ≤ n + 1 := by
  intro n
  induction n with
  | zero =>
    intro v hv
    rw [digits_small (by simp at hv; omega)]
    simp
  | succ n ih =>
    intro v hv
    by_cases h : base ≤ v
    · rw [digits_large ⟨h2, h⟩]
      have := ih (v / base) (Nat.div_lt_of_lt_mul (by rw [pow_succ] at hv; rwa [Nat.mul_comm]))
      simp only [List.length_append, List.length_singleton]
      omega
    · rw [digits_small (by omega)]
      simp

theorem toChars_numeral {base : Nat} (h2 : 2 ≤ base) (h16 : base ≤ 16) (h : 2 ^ 64 ≤ base ^ 20) (v : BitVec 64) : ∃ cs, toChars 20 base v.toNat = .ok cs ∧ Numeral base cs v.toNat := by
  refine ⟨_, if_pos ?_, digits_numeral h2 h16 _⟩
  rw [List.length_map]
  exact digits_length h2 19 _ (lt_of_lt_of_le v.isLt h)

theorem countDigits_eq : ∀ (v n : Nat), countDigits (n + 1) (v / 10) = n + (digits 10 v).length := by
  intro v
  induction v using Nat.strong_induction_on with
  | _ v ih =>
    intro n
    rw [countDigits]
    by_cases h : 10 ≤ v
    · rw [digits_large ⟨by omega, h⟩, dif_neg (by omega), ih (v / 10) (by omega)]
      simp; omega
    · rw [digits_small (by omega), dif_pos (by omega)]
      simp

theorem pad_eq (os : Stream) : ∀ (k d w : Nat), w - d = k → pad os d w = puts os (List.replicate k ' ') := by
  intro k
  induction k generalizing os with
  | zero =>
    intro d w h
    rw [pad, if_neg (by omega)]
    cases os <;> simp [puts]
  | succ k ih =>
    intro d w h
    rw [pad, if_pos (by omega), ih _ (d + 1) w (by omega)]
    cases os <;> simp [puts, List.replicate_succ]

/-- C68: numbers are written in decimal and addresses in hexadecimal, by the usual numerals; the arrays are large enough; `rflush` aligns them to the right; sets of bits are written by one digit for each bit,
the highest first; and nothing is written to a stream that is off. -/
theorem C68 (text : List Char) (v : BitVec 64) (w : Nat) (bs : List Bool) :
    (∃ cs, putSize (some text) v = .ok (some (text ++ cs)) ∧ Numeral 10 cs v.toNat) ∧
    (∃ cs, putAddress (some text) v = .ok (some (text ++ cs)) ∧ Numeral 16 cs v.toNat) ∧
    (∃ k cs, rflush (some text) w v = .ok (some (text ++ List.replicate k ' ' ++ cs)) ∧ Numeral 10 cs v.toNat ∧ k + cs.length = max w cs.length) ∧
    putBits (some text) bs = .ok (some (text ++ (bs.map fun b => if b then '1' else '0').reverse)) ∧
    putSize none v = .ok none ∧ putAddress none v = .ok none ∧ rflush none w v = .ok none ∧ putBits none bs = .ok none := by
  obtain ⟨ds, hd, nd⟩ := toChars_numeral (base := 10) (by omega) (by omega) (by norm_num) v
  obtain ⟨hs, hh, nh⟩ := toChars_numeral (base := 16) (by omega) (by omega) (by norm_num) v
  refine ⟨⟨ds, by simp [putSize, hd, puts], nd⟩, ⟨hs, by simp [putAddress, hh, puts], nh⟩, ⟨w - ds.length, ds, ?_, nd, by omega⟩, ?_, rfl, rfl, rfl, ?_⟩
  · have hl : ds.length = (digits 10 v.toNat).length := by
      unfold toChars at hd
      simp only at hd
      split at hd
      · cases hd; simp
      · cases hd
    have := countDigits_eq v.toNat 0
    simp only [Nat.zero_add] at this
    simp only [rflush, this, ← hl]
    rw [pad_eq _ _ _ _ rfl]
    simp [puts, putSize, hd]
  · induction bs with
    | nil => simp [putBits]
    | cons b bs ih =>
      have h0 : toChars 20 10 0 = .ok ['0'] := by
        unfold toChars
        rw [digits_small (by omega)]
        rfl
      have h1 : toChars 20 10 1 = .ok ['1'] := by
        unfold toChars
        rw [digits_small (by omega)]
        rfl
      cases b <;> simp [putBits, ih, putSize, puts, h0, h1]
  · induction bs with
    | nil => rfl
    | cons b bs ih => simp [putBits, ih, putSize]

/-- 20 characters are just enough for the largest number. -/
theorem C68_room : toChars 20 10 (2 ^ 64 - 1) = .ok "18446744073709551615".toList ∧ toChars 19 10 (2 ^ 64 - 1) = .ub := by
  have h : (digits 10 (2 ^ 64 - 1)).map digitChar = "18446744073709551615".toList := by
    simp [digits, digitChar]
  constructor <;> simp only [toChars, h] <;> rfl

example : rflush (some "at".toList) 4 42 = .ok (some "at  42".toList) := by
  simp [rflush, countDigits, pad, putSize, toChars, digits, digitChar, puts]

example : putBits (some []) [true, true, false, true] = .ok (some "1011".toList) := by
  have := (C68 [] 0 0 [true, true, false, true]).2.2.2.1
  exact this

example : putAddress (some []) 0xdead10ff = .ok (some "dead10ff".toList) := by
  simp [putAddress, toChars, digits, digitChar, puts]

end OpenMethod.Props

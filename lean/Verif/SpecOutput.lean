import Mathlib.Data.List.Basic

/-!
# Specification of numerals
-/

namespace OpenMethod

/-- The digits, in the order of their values. -/
def numeralDigits : List Char := ['0', '1', '2', '3', '4', '5', '6', '7', '8', '9', 'a', 'b', 'c', 'd', 'e', 'f']

/-- The value of a numeral, read from left to right. -/
inductive NumeralValue (base : Nat) : List Char → Nat → Prop
  | nil : NumeralValue base [] 0
  | snoc {cs v c d} : NumeralValue base cs v → numeralDigits[d]? = some c → d < base → NumeralValue base (cs ++ [c]) (base * v + d)

/-- The usual representation of a number: without superfluous zeros, and not empty. -/
def Numeral (base : Nat) (cs : List Char) (v : Nat) : Prop := NumeralValue base cs v ∧ cs ≠ [] ∧ (cs.head? = some '0' → v = 0 ∧ cs = ['0'])

end OpenMethod

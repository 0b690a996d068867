import Verif.Model.Basic

/-!
# Output of numbers (detail/ostdstream.hpp 22-100, initialize.hpp 232-239, 330-369)

Messages and traces are written by a light-weight stream. Only the output of strings, numbers, addresses and sets of bits is represented; strings are lists of characters. Errors of the C library are ignored,
as in the code.
-/

namespace OpenMethod.Output

/-- The characters that `std::to_chars` uses for digits. -/
def digitChar (d : Nat) : Char := if d < 10 then Char.ofNat (48 + d) else Char.ofNat (87 + d)

/-- The digits of a number, the most significant first. -/
def digits (base v : Nat) : List Nat :=
  if h : 2 ≤ base ∧ base ≤ v then digits base (v / base) ++ [v % base] else [v]
termination_by v
decreasing_by exact Nat.div_lt_self (by omega) h.1

/-- `std::to_chars` to an array of `room` characters. If it is too small, its content is unspecified, and the code uses it anyway. -/
def toChars (room base v : Nat) : Res (List Char) :=
  let cs := (digits base v).map digitChar
  if cs.length ≤ room then .ok cs else .ub

/-- A stream: what was written so far; `none` if it is off. -/
abbrev Stream := Option (List Char)

/-- Strings (ostdstream.hpp 48-62). -/
def puts (os : Stream) (s : List Char) : Stream := os.map (· ++ s)

/-- Addresses of objects and functions (ostdstream.hpp 64-88). -/
def putAddress (os : Stream) (v : BitVec 64) : Res Stream :=
  match os with
  | none => .ok none
  | some _ => do
    let cs ← toChars 20 16 v.toNat
    .ok (puts os cs)

/-- Numbers (ostdstream.hpp 90-99). -/
def putSize (os : Stream) (v : BitVec 64) : Res Stream :=
  match os with
  | none => .ok none
  | some _ => do
    let cs ← toChars 20 10 v.toNat
    .ok (puts os cs)

/-- The number of digits, as `rflush` counts them (initialize.hpp 335-341). -/
def countDigits (n tmp : Nat) : Nat :=
  if h : tmp = 0 then n else countDigits (n + 1) (tmp / 10)
termination_by tmp
decreasing_by omega

/-- `while (digits < width) { tr << " "; ++digits; }` (initialize.hpp 343-346) -/
def pad (os : Stream) (digits width : Nat) : Stream :=
  if digits < width then pad (puts os [' ']) (digits + 1) width else os
termination_by width - digits

/-- `rflush(width, value)` (initialize.hpp 331-353) -/
def rflush (os : Stream) (width : Nat) (v : BitVec 64) : Res Stream :=
  match os with
  | none => .ok none
  | some _ => putSize (pad os (countDigits 1 (v.toNat / 10)) width) v

/-- A set of bits, as a list from bit 0 upwards (initialize.hpp 355-369). A bit is converted to a number. -/
def putBits (os : Stream) : List Bool → Res Stream
  | [] => .ok os
  | b :: bs => do
    let os ← putBits os bs
    putSize os (if b then 1 else 0)

end OpenMethod.Output

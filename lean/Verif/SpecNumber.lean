import Verif.Model.ByteSet

/-!
# Two words as a number

`ByteSet` computes with bits.  What it should compute is said here with addition, multiplication, division and powers only.
-/

set_option autoImplicit false

namespace Veb

/-- `[u128; 2]` as a number of 256 bits, the first word being the low half. -/
def Words.number (a : Words) : Nat := a.w0.toNat + 2 ^ 128 * a.w1.toNat

/-- The sum of the binary digits. -/
def ones (n : Nat) : Nat := if h : n = 0 then 0 else n % 2 + ones (n / 2)
termination_by n
decreasing_by omega

/-- `r` is the exponent of the greatest power of two that divides `n`. -/
def IsLowest (r n : Nat) : Prop := ∃ m, m % 2 = 1 ∧ n = 2 ^ r * m
/-- `r` is the exponent of the greatest power of two that is not above `n`. -/
def IsHighest (r n : Nat) : Prop := 2 ^ r ≤ n ∧ n < 2 ^ (r + 1)

end Veb

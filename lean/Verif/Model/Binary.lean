import Verif.Model.Arith
import Mathlib.Data.Rat.Floor
import Mathlib.Algebra.Order.Archimedean.Basic

/-!
# Rounding to 53 bits

IEEE 754 double arithmetic, rounding to nearest, ties to even, on rational numbers, without overflow and underflow: the exponent has no bounds.
All the operations of the code in `Model/Arith.lean` are basic operations, which IEEE 754 rounds correctly.
-/

namespace Pdffit.Binary

/-- `2^e` -/
def pow2 : ℤ → ℚ
  | .ofNat n => (2 ^ n : ℕ)
  | .negSucc n => 1 / (2 ^ (n + 1) : ℕ)

/-- The exponent: the largest `e` with `2^e ≤ x`, for a positive number. -/
def ilog (x : ℚ) : ℤ :=
  let e := (Nat.log2 x.num.natAbs : ℤ) - Nat.log2 x.den
  if pow2 e ≤ x then e else e - 1

/-- The nearest integer, the even one of two. -/
def nearest (y : ℚ) : ℤ :=
  let f := ⌊y⌋
  if y - f < 1 / 2 then f else if 1 / 2 < y - f then f + 1 else if f % 2 = 0 then f else f + 1

/-- A positive number rounded to 53 bits. -/
def rndPos (x : ℚ) : ℚ :=
  let u := pow2 (ilog x - 52)
  nearest (x / u) * u

/-- A number rounded to 53 bits. -/
def rnd53 (x : ℚ) : ℚ := if x = 0 then 0 else if 0 < x then rndPos x else -rndPos (-x)

/-- Double arithmetic without overflow and underflow. -/
abbrev binary64 : Arith ℚ := Arith.rounded rnd53

example : rnd53 (1 / 10) = 3602879701896397 / 36028797018963968 := by decide +kernel
example : rnd53 (49 * rnd53 (1 / 49)) = 9007199254740991 / 9007199254740992 := by decide +kernel

end Pdffit.Binary

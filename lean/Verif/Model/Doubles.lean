import Mathlib.Data.Int.Log
import Mathlib.Algebra.Order.Round
import Mathlib.Data.Rat.Floor

/-!
# Double precision numbers

The type `double` of the code (all variables of src/main.cpp 207-561) as a set of rational numbers, and the rounding of results of
operations to it (IEEE 754, binary64). The range of exponents is unbounded: overflow, underflow, infinities, NaN and signed zeros
are left out.
-/

namespace Heracles

/-- Finite `double`s: 53 binary digits and an exponent. -/
def IsDouble (x : ℚ) : Prop := ∃ m e : ℤ, |m| ≤ 2 ^ 53 ∧ x = m * 2 ^ e

/-- Rounding to nearest, ties broken in any way. -/
structure Nearest (rnd : ℚ → ℚ) : Prop where
  double : ∀ x, IsDouble (rnd x)
  nearest : ∀ x y, IsDouble y → |x - rnd x| ≤ |x - y|

/-- The exponent of the last digit of a `double` close to `x`. -/
def ulpExp (x : ℚ) : ℤ := Int.log 2 |x| - 52

/-- The nearest integer, the even one in case of a tie. -/
def roundEven (x : ℚ) : ℤ :=
  if x - ⌊x⌋ < 1 / 2 then ⌊x⌋ else if 1 / 2 < x - ⌊x⌋ then ⌊x⌋ + 1 else if ⌊x⌋ % 2 = 0 then ⌊x⌋ else ⌊x⌋ + 1

/-- The default rounding of IEEE 754: to nearest, ties to even. -/
def roundDouble (x : ℚ) : ℚ := roundEven (x / 2 ^ ulpExp x) * 2 ^ ulpExp x

end Heracles

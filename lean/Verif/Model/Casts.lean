import Mathlib.Algebra.Order.Ring.Int

/-!
# Checked integer casts

Model of src/utils/int_cast.hpp.
-/

namespace Heracles

/-- An integer type of the machine: its width (at least 1) and signedness. -/
structure IntType where
  bits : ℕ
  signed : Bool

/-- `std::numeric_limits<R>::min()`. -/
def IntType.min (r : IntType) : ℤ := if r.signed then -(2 ^ (r.bits - 1)) else 0

/-- `std::numeric_limits<R>::max()`. -/
def IntType.max (r : IntType) : ℤ := if r.signed then 2 ^ (r.bits - 1) - 1 else 2 ^ r.bits - 1

/-- `std::in_range<R>(t)`: comparison as mathematical integers. -/
def inRange (r : IntType) (t : ℤ) : Bool := decide (r.min ≤ t) && decide (t ≤ r.max)

/-- `static_cast<R>(t)`: the value of `R` congruent to `t` modulo `2^bits`. -/
def staticCast (r : IntType) (t : ℤ) : ℤ := (t - r.min) % 2 ^ r.bits + r.min

/-- src/utils/int_cast.hpp 12-19. -/
def intCast (r : IntType) (t : ℤ) : Except String ℤ :=
  if inRange r t then .ok (staticCast r t) else .error "Conversion cannot preserve value representation"

end Heracles

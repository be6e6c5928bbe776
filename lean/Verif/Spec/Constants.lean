import Verif.Model.Constants

/-!
# Dimensions
-/

namespace Heracles

/-- The dimension of a quantity: exponents of mass, length, time, temperature. -/
structure Dim where
  mass : ℤ := 0
  length : ℤ := 0
  time : ℤ := 0
  temp : ℤ := 0

/-- `q` is the number of a physical quantity that is `v` in kilograms, metres, seconds and kelvins and has the dimension
`D`: whatever the (positive) sizes of the base units in the numbers of the program, it is `v` times their powers. -/
def IsQuantity (q : BaseUnits → ℝ) (D : Dim) (v : ℝ) : Prop :=
  ∀ b : BaseUnits, 0 < b.kg → 0 < b.m → 0 < b.s → 0 < b.kelvin →
    q b = v * b.kg ^ D.mass * b.m ^ D.length * b.s ^ D.time * b.kelvin ^ D.temp

end Heracles

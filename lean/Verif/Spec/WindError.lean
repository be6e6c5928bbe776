import Mathlib.Algebra.Order.Round
import Mathlib.Data.Real.Archimedean

/-!
# The exact solution of an advected row of cells
-/

namespace Heracles

/-- Numbers `q i`, constant in the cells `[i, i + 1]` of a line, are moved by `s` cells. This is the mean over the cell `i` afterwards: what was in `[i - s, i + 1 - s]`, a part of the cell
`⌊i - s⌋` and a part of the next one. -/
noncomputable def movedMean (q : ℤ → ℝ) (s : ℝ) (i : ℤ) : ℝ :=
  (1 - Int.fract ((i : ℝ) - s)) * q ⌊(i : ℝ) - s⌋ + Int.fract ((i : ℝ) - s) * q (⌊(i : ℝ) - s⌋ + 1)

end Heracles

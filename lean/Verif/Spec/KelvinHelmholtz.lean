import Verif.Spec.Translate
import Verif.Props.Runs
import Mathlib.Analysis.Complex.Trigonometric

/-!
# Specification: the result files of the shear layers of inputs/kelvin_helmholtz.ini
-/

namespace Heracles

/-- The centre of a cell: 2048 cells on [0, 4], 1024 cells on [0, 2]. -/
noncomputable def khX (g : Cell) : ℝ := (g 0 + 1 / 2) / 512

noncomputable def khY (g : Cell) : ℝ := (g 1 + 1 / 2) / 512

/-- The velocity along the layers, which also is the excess of density. -/
noncomputable def khShear (g : Cell) : ℝ := Real.tanh (20 * (khY g - 1 / 2)) - Real.tanh (20 * (khY g - 3 / 2))

/-- The velocity across the layers. -/
noncomputable def khPush (g : Cell) : ℝ :=
  1 / 100 * Real.sin (Real.pi * khX g) * (Real.exp (-(25 * (khY g - 1 / 2) ^ 2)) + Real.exp (-(25 * (khY g - 3 / 2) ^ 2)))

/-- A result file of the shear layers. -/
structure ShearFile {n : ℕ} (f : LoopState (FluidFile 2 n) ℝ) : Prop where
  /-- the flow repeats every 1024 cells along the layers, half the length of the box -/
  period : ShiftedFile ![2048, 1024, 1] ![1024, 0, 0] f f
  /-- no mass is lost -/
  mass : ∑ g ∈ domain ![2048, 1024, 1], f.h.rho.at g = ∑ g ∈ domain ![2048, 1024, 1], (1 + khShear g)
  /-- no energy is lost -/
  energy : ∑ g ∈ domain ![2048, 1024, 1], f.h.E.at g = ∑ g ∈ domain ![2048, 1024, 1], (25 + (1 + khShear g) * (khShear g ^ 2 + khPush g ^ 2) / 2)
  /-- no momentum along the layers is lost -/
  along : (∀ g, inBox 0 ![2048, 1024, 1] g → f.h.rho.at g ≠ 0) →
    ∑ g ∈ domain ![2048, 1024, 1], f.h.rho.at g * (f.h.u 0).at g = ∑ g ∈ domain ![2048, 1024, 1], (1 + khShear g) * khShear g
  /-- the total momentum across the layers is zero -/
  across : (∀ g, inBox 0 ![2048, 1024, 1] g → f.h.rho.at g ≠ 0) → ∑ g ∈ domain ![2048, 1024, 1], f.h.rho.at g * (f.h.u 1).at g = 0

end Heracles

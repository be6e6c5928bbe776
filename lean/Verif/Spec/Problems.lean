import Mathlib.Analysis.Calculus.Deriv.Basic
import Mathlib.Analysis.SpecialFunctions.Sqrt

/-!
# Specification: equilibria of the equations of hydrodynamics
-/

namespace Heracles

/-- Mechanical equilibrium of a fluid at rest at the point `x` of a coordinate line along which the acceleration is `g`: the pressure
gradient balances the weight. -/
def Hydrostatic (rho P g : ℝ → ℝ) (x : ℝ) : Prop := HasDerivAt P (rho x * g x) x

/-- Balance of a circular flow of speed `v` at the distance `r` of its axis: the pressure gradient is the centripetal force. -/
def Centrifugal (rho P v : ℝ → ℝ) (r : ℝ) : Prop := HasDerivAt P (rho r * v r ^ 2 / r) r

end Heracles

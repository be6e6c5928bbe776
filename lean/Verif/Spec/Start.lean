import Verif.Props.Runs
import Verif.Spec.WindError
import Verif.Spec.TotalVariation
import Mathlib.Analysis.Real.Sqrt

/-!
# Specification: the result files of a wind that carries a density
-/

namespace Heracles

/-- The file of time `t` after the start for `N` cells of size `h`, a wind of velocity `u` and pressure `P`, and densities `r` (of period `N`) at the start. -/
structure WindFile {n : ℕ} (nx : Cell) (N : ℕ) (h u P lo hi : ℝ) (r : ℤ → ℝ) (t : ℝ) (f : FluidFile 1 n) : Prop where
  /-- the wind is exactly that of the start -/
  wind : ∀ g, inBox 0 nx g → (f.u 0).at g = u ∧ f.P.at g = P
  /-- the densities stay in their range -/
  range : ∀ g, inBox 0 nx g → lo ≤ f.rho.at g ∧ f.rho.at g ≤ hi
  /-- no oscillation appears -/
  var : circleVar N (fun i => f.rho.at ![i, 0, 0]) ≤ circleVar N r
  /-- no mass is lost -/
  mass : ∑ i ∈ Finset.range N, f.rho.at ![i, 0, 0] = ∑ i ∈ Finset.range N, r i
  /-- the error in the mean -/
  error : h * ∑ i ∈ Finset.range N, |f.rho.at ![i, 0, 0] - movedMean r (t * u / h) i| ≤ 4 * circleVar N r * Real.sqrt (t * |u| * h)

end Heracles

import Mathlib.Algebra.Order.Group.Unbundled.Abs
import Mathlib.Algebra.BigOperators.Group.Finset.Basic
import Mathlib.Data.Int.Basic

/-!
# Total variation of a row of numbers on a circle
-/

namespace Heracles

/-- The sum of the jumps between neighbours of `v 0, …, v (N - 1)`, the last and the first being neighbours. -/
def circleVar {K : Type} [AddCommGroup K] [Lattice K] (N : ℕ) (v : ℤ → K) : K := ∑ i ∈ Finset.range N, |v ((i + 1) % N) - v i|

end Heracles

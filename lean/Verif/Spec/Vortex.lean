import Verif.Props.Runs

/-!
# Specification: files of a square that a quarter turn leaves as they are
-/

namespace Heracles

/-- Turned by a quarter about the centre of the square of `N` x `N` cells, counterclockwise, the file is the same: the cell `(i, j)` goes to
`(N - 1 - j, i)`, with the same density, pressure, energy, temperature and scalars, and the velocity `(v, w)` becomes `(-w, v)`. -/
structure TurnedFile {n : ℕ} (N : ℤ) (f : FluidFile 2 n) : Prop where
  rho : ∀ i j, 0 ≤ i → i < N → 0 ≤ j → j < N → f.rho.at ![N - 1 - j, i, 0] = f.rho.at ![i, j, 0]
  u0 : ∀ i j, 0 ≤ i → i < N → 0 ≤ j → j < N → (f.u 0).at ![N - 1 - j, i, 0] = -(f.u 1).at ![i, j, 0]
  u1 : ∀ i j, 0 ≤ i → i < N → 0 ≤ j → j < N → (f.u 1).at ![N - 1 - j, i, 0] = (f.u 0).at ![i, j, 0]
  P : ∀ i j, 0 ≤ i → i < N → 0 ≤ j → j < N → f.P.at ![N - 1 - j, i, 0] = f.P.at ![i, j, 0]
  E : ∀ i j, 0 ≤ i → i < N → 0 ≤ j → j < N → f.E.at ![N - 1 - j, i, 0] = f.E.at ![i, j, 0]
  T : ∀ i j, 0 ≤ i → i < N → 0 ≤ j → j < N → f.T.at ![N - 1 - j, i, 0] = f.T.at ![i, j, 0]
  fx : ∀ l i j, 0 ≤ i → i < N → 0 ≤ j → j < N → (f.fx l).at ![N - 1 - j, i, 0] = (f.fx l).at ![i, j, 0]

end Heracles

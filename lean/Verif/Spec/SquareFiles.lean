import Verif.Props.Runs

/-!
# Specification: files of a square that are symmetric about its diagonal
-/

namespace Heracles

/-- Mirrored at the diagonal of the square of `N` x `N` cells, the file is the same: equal densities, pressures, energies, temperatures and
scalars, exchanged components of the velocity. -/
structure DiagonalFile {n : ℕ} (N : ℤ) (f : FluidFile 2 n) : Prop where
  rho : ∀ i j, 0 ≤ i → i < N → 0 ≤ j → j < N → f.rho.at ![i, j, 0] = f.rho.at ![j, i, 0]
  u : ∀ i j, 0 ≤ i → i < N → 0 ≤ j → j < N → (f.u 0).at ![i, j, 0] = (f.u 1).at ![j, i, 0]
  P : ∀ i j, 0 ≤ i → i < N → 0 ≤ j → j < N → f.P.at ![i, j, 0] = f.P.at ![j, i, 0]
  E : ∀ i j, 0 ≤ i → i < N → 0 ≤ j → j < N → f.E.at ![i, j, 0] = f.E.at ![j, i, 0]
  T : ∀ i j, 0 ≤ i → i < N → 0 ≤ j → j < N → f.T.at ![i, j, 0] = f.T.at ![j, i, 0]
  fx : ∀ l i j, 0 ≤ i → i < N → 0 ≤ j → j < N → (f.fx l).at ![i, j, 0] = (f.fx l).at ![j, i, 0]

end Heracles

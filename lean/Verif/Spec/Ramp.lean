import Mathlib.Algebra.BigOperators.Ring.Finset
import Mathlib.Algebra.Order.BigOperators.Ring.Finset
import Verif.Model.Boundary

/-!
# A linear profile in a uniform wind
-/

namespace Heracles

variable {d : ℕ} {K : Type} [Field K]

/-- Value at time `t` in the point `y` of the linear profile `v + s · y`, moved since time 0 by a wind of velocity `u`. -/
def linearProfile (v : K) (s u : Fin d → K) (t : K) (y : Fin d → K) : K := v + ∑ a, s a * (y a - u a * t)

/-- The middle of a cell of the mesh with nodes `X`. -/
def cellCentre (X : Fin 3 → ℤ → K) (c : Cell) (a : Fin d) : K := (X (ax a) (c (ax a)) + X (ax a) (c (ax a) + 1)) / 2

/-- `y` is in the (closed) cell `c` of the mesh with nodes `X`. -/
def InCell [LinearOrder K] (X : Fin 3 → ℤ → K) (c : Cell) (y : Fin d → K) : Prop :=
  ∀ a, X (ax a) (c (ax a)) ≤ y a ∧ y a ≤ X (ax a) (c (ax a) + 1)

/-- Time reached by a run: sum of the time steps taken, `policy` giving each of them from the values computed so far (last one first). -/
def runTime (policy : List K → K) : List K → K
  | [] => 0
  | m :: hist => runTime policy hist + policy (m :: hist)

/-- `g` is at least `r` cells away from the faces of the domain. -/
def Deep (d : ℕ) (nx : Cell) (r : ℤ) (g : Cell) : Prop := ∀ a : Fin 3, a.val < d → r ≤ g a ∧ g a + r < nx a

end Heracles

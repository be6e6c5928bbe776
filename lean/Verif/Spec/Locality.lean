import Mathlib.Algebra.BigOperators.Fin
import Verif.Model.Boundary
import Verif.Spec.Ghost

/-!
# Distance of cells

Number of faces to cross between two cells; along a periodic direction one may go either way around.
-/

namespace Heracles

/-- `h` is at most `r` faces away from `g`. `periodic` tells the directions along which the first cell comes after the last. -/
def CloseBy (periodic : Fin 3 → Prop) (nx : Cell) (r : ℕ) (g h : Cell) : Prop :=
  ∃ turns : Cell, (∀ a, ¬ periodic a → turns a = 0) ∧ ∑ a, |g a + turns a * nx a - h a| ≤ r

/-- The directions with periodic conditions. -/
def periodicAxes {d : ℕ} (bcs : Fin d → Fin 2 → BcKind) (a : Fin 3) : Prop := ∃ h : a.val < d, bcs ⟨a, h⟩ 0 = .periodic

end Heracles

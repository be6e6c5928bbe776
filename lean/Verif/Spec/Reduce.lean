import Verif.Spec.Ghost
import Mathlib.Algebra.BigOperators.Group.Finset.Basic
import Mathlib.Algebra.Order.Field.Basic
import Mathlib.Algebra.Order.AbsoluteValue.Basic
import Mathlib.Data.Fintype.Pi
import Mathlib.Order.Interval.Finset.Basic
import Mathlib.Data.Int.Interval

/-!
# Specification vocabulary for the reductions
-/

namespace Heracles

/-- The cells of a box, as a finite set. -/
noncomputable def cells (b e : Cell) : Finset Cell := Fintype.piFinset fun a => Finset.Ico (b a) (e a)

theorem mem_cells {b e c : Cell} : c ∈ cells b e ↔ inBox b e c := by
  simp [cells, inBox, Fintype.mem_piFinset]

/-- Length of a cell along its direction `a`, measured at its centre `(r, θ)` for spherical coordinates `(r, θ, φ)`. -/
def cellLength {K : Type} [Field K] (spherical : Prop) [Decidable spherical] (sin : K → K) (dx : Fin 3 → K) (r θ : K) :
    Fin 3 → K :=
  if spherical then ![dx 0, r * dx 1, r * sin θ * dx 2] else dx

/-- First cell of the interior of the local arrays and the cell past its end, on a rank. -/
def interiorBegin (ndim : ℕ) (ng : ℤ) : Cell := nghostOf ndim ng

def interiorEnd (ndim : ℕ) (nx dims rank : Cell) (ng : ℤ) : Cell :=
  fun a => nghostOf ndim ng a + localSize (nx a) (dims a) (rank a)

end Heracles

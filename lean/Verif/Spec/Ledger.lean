import Mathlib.Algebra.BigOperators.Pi
import Mathlib.Data.Fintype.Pi
import Mathlib.Order.Interval.Finset.Basic
import Mathlib.Data.Int.Interval
import Verif.Spec.Scheme

/-!
# The ledger of a box: what it holds and what enters it
-/

namespace Heracles

variable {K : Type}

/-- The cells `0 ≤ g < nx` of the domain. -/
noncomputable def boxCells (nx : Cell) : Finset Cell := Fintype.piFinset fun a => Finset.Ico 0 (nx a)

/-- What the box holds of a quantity with `q g` per volume in the cells `g` of volumes `V g`. -/
noncomputable def boxTotal [NonUnitalNonAssocSemiring K] (nx : Cell) (V q : Cell → K) : K := ∑ g ∈ boxCells nx, V g * q g

/-- What enters the box per time: `f a g` crosses the lower face along `a` of cell `g`, upwards, per time. It enters through the lower faces of the first cells and leaves
through the upper faces of the last cells, which are the lower faces of the cells beyond. -/
noncomputable def boxInflow [AddCommGroup K] (d : ℕ) (nx : Cell) (f : Fin d → Cell → K) : K :=
  ∑ a : Fin d, (∑ g ∈ (boxCells nx).filter (fun g => g (ax a) = 0), f a g -
    ∑ g ∈ (boxCells nx).filter (fun g => g (ax a) = nx (ax a) - 1), f a (nb g (ax a) 1))

end Heracles

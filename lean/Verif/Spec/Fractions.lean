import Mathlib.Algebra.BigOperators.Group.Finset.Basic
import Verif.Model.Boundary

/-!
# Mass fractions that add up to one
-/

namespace Heracles

variable {d n : ℕ} {K : Type} [AddCommMonoid K] [One K]

/-- The mass fractions of the species `S` add up to one. -/
def Fields.Whole (f : Fields d n K) (S : Finset (Fin n)) : Prop := ∑ i ∈ S, f.fx i = 1

end Heracles

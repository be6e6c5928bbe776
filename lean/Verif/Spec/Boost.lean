import Mathlib.Algebra.Field.Basic
import Verif.Model.Boundary

/-!
# Flows that are the same all along an axis, seen by an observer who moves along it
-/

namespace Heracles

variable {d n : ℕ} {K : Type}

/-- The same gas with the velocity `w` along the axis `b` added to its velocity: momentum and energy change, density and mass fractions do not. -/
def Fields.boost [Field K] (b : Fin d) (w : K) (f : Fields d n K) : Fields d n K :=
  { rho := f.rho, rhou := fun i => f.rhou i + if i = b then w * f.rho else 0, E := f.E + w * f.rhou b + w ^ 2 / 2 * f.rho, fx := f.fx }

/-- Two cells on one line along the axis `b`. -/
def SameLine (b : Fin 3) (C C' : Cell) : Prop := ∀ a, a ≠ b → C' a = C a

end Heracles

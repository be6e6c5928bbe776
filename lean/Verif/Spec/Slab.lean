import Mathlib.Data.Fin.Tuple.Basic
import Verif.Model.Boundary

/-!
# Flows that are the same all along the last axis
-/

namespace Heracles

variable {d n : ℕ} {K : Type}

/-- The same gas in one more dimension, at rest in it. -/
def Fields.lift [Zero K] (f : Fields d n K) : Fields (d + 1) n K :=
  { rho := f.rho, rhou := Fin.snoc f.rhou 0, E := f.E, fx := f.fx }

/-- The cell `C` of a grid of `d + 1` dimensions lies over the cell `c` of a grid of `d` dimensions: same indices except along the new axis. -/
def Over (d : ℕ) (C c : Cell) : Prop := ∀ a : Fin 3, a.val ≠ d → C a = c a

end Heracles

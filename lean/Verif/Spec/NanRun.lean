import Verif.Model.Ieee
import Verif.Model.KernelRun

/-!
# Specification for C90 and for C82 with IEEE numbers
-/

namespace Heracles

/-- `g` is one of the cells that a NaN in `g0` has reached after `i` iterations: at most `i` steps through faces away; with HLLC only
steps to smaller indices are counted. -/
structure NanReach (d : ℕ) (sol : Solver) (g0 g : Cell) (i : ℕ) : Prop where
  flat : ∀ a : Fin 3, ¬ a.val < d → g a = g0 a
  side : sol = .hllc → ∀ a, g a ≤ g0 a
  dist : |g 0 - g0 0| + |g 1 - g0 1| + |g 2 - g0 2| ≤ i

/-- src/main.cpp 399-400: the test after which the run writes a file and throws, `isnan(min) || min < 0`. -/
def stopsOn (m : Ieee) : Prop := m = .nan ∨ m.ltb .zero = true

end Heracles

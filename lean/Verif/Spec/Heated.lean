import Verif.Props.Runs
import Verif.Props.Setup

/-!
# Specification: the result files of a uniform gas that nickel heats
-/

namespace Heracles

open Nickel in
/-- Energy released up to time `t` per unit initial mass of nickel: the nickel nuclei gone times the energy of their decay, and the cobalt nuclei gone (those made of the nickel gone and not there any more) times the energy of theirs. -/
noncomputable def Nickel.released (t : ℝ) : ℝ := qNi * (nNi 0 - nNi t) + qCo * (nNi 0 - nNi t - nCo t)

/-- A file of a uniform gas of density `r`, velocity `v`, mass fractions `y`, the first of which is `x`, heated since time `t0`, when its internal energy was `e0`. `ratio` is pressure over internal energy, `tau` a bound of the time steps. -/
structure HeatedFile {d n : ℕ} (nx : Cell) (r : ℝ) (v : Fin d → ℝ) (y : Fin n → ℝ) (x t0 e0 ratio tau : ℝ) (f : LoopState (FluidFile d n) ℝ) : Prop where
  rho : ∀ g, inBox 0 nx g → f.h.rho.at g = r
  u : ∀ g, inBox 0 nx g → ∀ a, (f.h.u a).at g = v a
  fx : ∀ g, inBox 0 nx g → ∀ l, (f.h.fx l).at g = y l
  /-- all cells have the same energy -/
  uniform : ∀ g g', inBox 0 nx g → inBox 0 nx g' → f.h.E.at g = f.h.E.at g'
  /-- the pressure is that of the internal energy -/
  P : ∀ g, inBox 0 nx g → f.h.P.at g = ratio * (f.h.E.at g - r * (∑ a, v a ^ 2) / 2)
  /-- at least the energy released so far was added -/
  least : ∀ g, inBox 0 nx g → e0 + r * x * (Nickel.released f.t - Nickel.released t0) ≤ f.h.E.at g - r * (∑ a, v a ^ 2) / 2
  /-- the excess is at most the loss of power times a time step -/
  most : ∀ g, inBox 0 nx g →
    f.h.E.at g - r * (∑ a, v a ^ 2) / 2 ≤ e0 + r * x * (Nickel.released f.t - Nickel.released t0 + tau * (Nickel.power t0 - Nickel.power f.t))

end Heracles

import Verif.Spec.Initial
import Verif.Spec.Reduce
import Verif.Props.Geometry

/-!
# Specification: the energy an initial state contains
-/

namespace Heracles

variable {d n : ℕ}

/-- Internal energy of the domain in the state `W`: the internal energy per unit of volume, `e` of density and pressure, times the volume
of the cells. -/
noncomputable def domainEnergy (geom : Geom) (e : ℝ → ℝ → ℝ) (nx ngh : Cell) (X : Fin 3 → ℤ → ℝ) (W : Cell → InitCell d n) : ℝ :=
  ∑ C ∈ cells 0 nx, e (W C).rho (W C).P * cellVolume geom d X ngh C

/-- Every initial state of the domain that the initialisation `S` leaves, on the process grids that satisfy `D`, contains the energy `E`;
there is one. -/
def StartsWith (D : Cell → Prop) (S : Setup d n) (geom : Geom) (nx : Cell) (ng : ℤ) (X : Fin 3 → ℤ → ℝ) (Gr : Cell → Fin d → ℝ)
    (e : ℝ → ℝ → ℝ) (E : ℝ) : Prop :=
  (∃ W, InitialState D S realTrig geom nx ng X Gr W) ∧
    ∀ W, InitialState D S realTrig geom nx ng X Gr W → domainEnergy geom e nx (nghostOf d ng) X W = E

/-- Nodes of a regular mesh of `N` cells over `[lo, hi]` with `ng` ghosts on either side. -/
noncomputable def evenNodes (lo hi : ℝ) (N ng : ℤ) (i : ℤ) : ℝ := lo + (i - ng) * ((hi - lo) / N)

end Heracles

import Verif.Spec.Explosion

/-!
# Specification: physical initial states
-/

namespace Heracles

variable {d n : ℕ}

/-- Positive density and pressure, mass fractions between 0 and 1. -/
def PhysicalCell (s : InitCell d n) : Prop := 0 < s.rho ∧ 0 < s.P ∧ ∀ k, 0 ≤ s.fx k ∧ s.fx k ≤ 1

/-- The initialisation `S` leaves one state of the domain on all process grids that satisfy `D`, and it is physical in every cell. -/
def StartsPhysical (D : Cell → Prop) (S : Setup d n) (geom : Geom) (nx : Cell) (ng : ℤ) (X : Fin 3 → ℤ → ℝ) (Gr : Cell → Fin d → ℝ) : Prop :=
  (∃ W, InitialState D S realTrig geom nx ng X Gr W) ∧
    ∀ W, InitialState D S realTrig geom nx ng X Gr W → ∀ C, inBox 0 nx C → PhysicalCell (W C)

/-- Centre of a cell of the domain in the coordinates. -/
noncomputable def midNode (X : Fin 3 → ℤ → ℝ) (ngh C : Cell) : Fin 3 → ℝ := fun a => (loNode X ngh C a + hiNode X ngh C a) / 2

end Heracles

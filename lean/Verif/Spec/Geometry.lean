import Verif.Model.Geometry
import Mathlib.Analysis.SpecialFunctions.Integrals.Basic

/-!
# Specification: volumes and areas in orthogonal coordinates

Measures of coordinate boxes and of their faces, as integrals of products of scale factors.
-/

namespace Heracles

/-- Scale factors of Cartesian coordinates, and of spherical coordinates `(r, θ, φ)`: lengths of the coordinate lines per unit of
coordinate. -/
noncomputable def scaleFactor (geom : Geom) (q : Fin 3 → ℝ) : Fin 3 → ℝ :=
  match geom with
  | .cartesian => ![1, 1, 1]
  | .spherical => ![1, q 0, q 0 * Real.sin (q 1)]

/-- Volume of the coordinate box `[lo, hi]`. -/
noncomputable def boxVolume (geom : Geom) (lo hi : Fin 3 → ℝ) : ℝ :=
  ∫ q0 in lo 0..hi 0, ∫ q1 in lo 1..hi 1, ∫ q2 in lo 2..hi 2,
    scaleFactor geom ![q0, q1, q2] 0 * scaleFactor geom ![q0, q1, q2] 1 * scaleFactor geom ![q0, q1, q2] 2

/-- Integral over the coordinate box `[lo, hi]` of a function of the coordinates. -/
noncomputable def boxIntegral (geom : Geom) (lo hi : Fin 3 → ℝ) (f : ℝ → ℝ → ℝ) : ℝ :=
  ∫ q0 in lo 0..hi 0, ∫ q1 in lo 1..hi 1, ∫ q2 in lo 2..hi 2, f q0 q1 *
    (scaleFactor geom ![q0, q1, q2] 0 * scaleFactor geom ![q0, q1, q2] 1 * scaleFactor geom ![q0, q1, q2] 2)

/-- Mean over the coordinate box. -/
noncomputable def boxMean (geom : Geom) (lo hi : Fin 3 → ℝ) (f : ℝ → ℝ → ℝ) : ℝ :=
  boxIntegral geom lo hi f / boxVolume geom lo hi

/-- Area of the lower face of the coordinate box `[lo, hi]` normal to direction `a`. -/
noncomputable def faceArea (geom : Geom) (lo hi : Fin 3 → ℝ) (a : Fin 3) : ℝ :=
  match a with
  | 0 => ∫ q1 in lo 1..hi 1, ∫ q2 in lo 2..hi 2, scaleFactor geom ![lo 0, q1, q2] 1 * scaleFactor geom ![lo 0, q1, q2] 2
  | 1 => ∫ q0 in lo 0..hi 0, ∫ q2 in lo 2..hi 2, scaleFactor geom ![q0, lo 1, q2] 0 * scaleFactor geom ![q0, lo 1, q2] 2
  | 2 => ∫ q0 in lo 0..hi 0, ∫ q1 in lo 1..hi 1, scaleFactor geom ![q0, q1, lo 2] 0 * scaleFactor geom ![q0, q1, lo 2] 1

/-- Lower and upper limits of the region standing for a box in `d` dimensions: in spherical coordinates the directions that are not
simulated cover the whole sphere. -/
noncomputable def lowerLimit (geom : Geom) (d : ℕ) (lo : Fin 3 → ℝ) : Fin 3 → ℝ :=
  match geom with
  | .cartesian => lo
  | .spherical => ![lo 0, if d < 2 then 0 else lo 1, if d < 3 then 0 else lo 2]

noncomputable def upperLimit (geom : Geom) (d : ℕ) (hi : Fin 3 → ℝ) : Fin 3 → ℝ :=
  match geom with
  | .cartesian => hi
  | .spherical => ![hi 0, if d < 2 then Real.pi else hi 1, if d < 3 then 2 * Real.pi else hi 2]

/-- The real trigonometric functions. -/
noncomputable def realTrig : Trig ℝ := ⟨Real.sin, Real.cos, Real.pi⟩

end Heracles

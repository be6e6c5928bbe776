import Verif.Model.Scheme
import Verif.Spec.Ghost
import Verif.Spec.Euler
import Mathlib.Algebra.BigOperators.Group.Finset.Basic

/-!
# Specification: neighbours, interior cells, sums over the domain
-/

namespace Heracles

variable {d n : ℕ} {K : Type}

/-- Neighbour of `c` at distance `s` along direction `a`. -/
def nb (c : Cell) (a : Fin 3) (s : ℤ) : Cell := Function.update c a (c a + s)

/-- The cells at distance at least `m` from the end of the arrays in the active directions. -/
def layer (d : ℕ) (ext : Cell) (m : ℤ) (c : Cell) : Prop := inBox (nghostOf d m) (fun a => ext a - nghostOf d m a) c

instance (d : ℕ) (ext : Cell) (m : ℤ) (c : Cell) : Decidable (layer d ext m c) := by unfold layer; infer_instance

/-- The cells of a rank that are not ghosts. -/
noncomputable def interior (d : ℕ) (ext : Cell) (ng : ℤ) : Finset Cell :=
  Fintype.piFinset fun a => Finset.Ico (nghostOf d ng a) (ext a - nghostOf d ng a)

theorem mem_interior {d : ℕ} {ext : Cell} {ng : ℤ} {c : Cell} : c ∈ interior d ext ng ↔ layer d ext ng c := by
  simp [interior, layer, inBox, Fintype.mem_piFinset]

/-- First and last interior index along direction `a`. -/
def firstIdx (d : ℕ) (ng : ℤ) (a : Fin 3) : ℤ := nghostOf d ng a

def lastIdx (d : ℕ) (ext : Cell) (ng : ℤ) (a : Fin 3) : ℤ := ext a - nghostOf d ng a - 1

/-- Flux through the left face, normal to direction `a`, of cell `c`, computed by `flux` from the face states `R`: the right
state of the left neighbour and the left state of the cell. -/
def faceFlux [Field K] (flux : Cons d K → Cons d K → Fin d → Flux d K) (R : Cell → Fin 2 → Fin d → Fields d n K) (a : Fin d)
    (c : Cell) : Flux d K :=
  flux (R (nb c (ax a) (-1)) 1 a).cons (R c 0 a).cons a

/-- Flux of the scalar `i` through the same face: mass flux times the fraction on the side the mass comes from. -/
def faceScalarFlux [Field K] [LinearOrder K] (flux : Cons d K → Cons d K → Fin d → Flux d K)
    (R : Cell → Fin 2 → Fin d → Fields d n K) (a : Fin d) (c : Cell) (i : Fin n) : K :=
  (if 0 ≤ (faceFlux flux R a c).rho then (R (nb c (ax a) (-1)) 1 a).fx i else (R c 0 a).fx i) * (faceFlux flux R a c).rho

end Heracles

import Verif.Model.Boundary

/-!
# Specification vocabulary for boundary conditions

Face `0` is the low face of a direction, face `1` the high face. An array of extent `ext a` has
`ng` ghost layers on each side.
-/

namespace Heracles

/-- The cell lies in the ghost layers of the face `face` of direction `a`. -/
def InGhostLayer (ext : Cell) (ng : ℤ) (a : Fin 3) (face : Fin 2) (c : Cell) : Prop :=
  (face = 0 ∧ c a < ng) ∨ (face = 1 ∧ ext a - ng ≤ c a)

instance (ext : Cell) (ng : ℤ) (a : Fin 3) (face : Fin 2) (c : Cell) :
    Decidable (InGhostLayer ext ng a face c) := by unfold InGhostLayer; infer_instance

/-- Depth of a ghost cell: 1 for the layer that touches the boundary face, 2 for the next one, ... -/
def ghostDepth (ext : Cell) (ng : ℤ) (a : Fin 3) (face : Fin 2) (c : Cell) : ℤ :=
  if face = 0 then ng - c a else c a - (ext a - ng) + 1

/-- Index, along the direction of the face, of the interior layer at depth `m` (1 = layer touching the
boundary face). -/
def interiorLayer (ext : Cell) (ng : ℤ) (a : Fin 3) (face : Fin 2) (m : ℤ) : ℤ :=
  if face = 0 then ng + m - 1 else ext a - ng - m

/-- Source cell of the null-gradient condition. -/
def nearest (ext : Cell) (ng : ℤ) (a : Fin 3) (face : Fin 2) (c : Cell) : Cell :=
  Function.update c a (interiorLayer ext ng a face 1)

/-- Source cell of the reflexive condition. -/
def mirror (ext : Cell) (ng : ℤ) (a : Fin 3) (face : Fin 2) (c : Cell) : Cell :=
  Function.update c a (interiorLayer ext ng a face (ghostDepth ext ng a face c))

/-- The momentum component along direction `a` is negated. -/
def Fields.flip {d n : ℕ} {K : Type} [Neg K] (a : Fin d) (s : Fields d n K) : Fields d n K :=
  { s with rhou := Function.update s.rhou a (-(s.rhou a)) }

end Heracles

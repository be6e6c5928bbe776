import Verif.Model.Boundary
import Mathlib.Algebra.Order.Field.Basic

/-!
# Slope limiters and limited linear reconstruction

Models of `src/hydro/slope_limiters.hpp`, `src/hydro/limited_linear_reconstruction.hpp` and
`src/hydro/face_reconstruction.cpp`.
-/

namespace Heracles

variable {d : ℕ} {K : Type}

/-- The limiter classes of src/hydro/slope_limiters.hpp. -/
inductive Limiter
  | constant | vanLeer | minmod | vanAlbada
  deriving DecidableEq, Repr

section
variable [Field K] [LinearOrder K]

/-- `operator()(diffR, diffL)` of the four limiters: Constant (src/hydro/slope_limiters.hpp 17-26), VanLeer
(28-46), Minmod (48-67), VanAlbada (69-87). -/
def Limiter.slope (lim : Limiter) (diffR diffL : K) : K :=
  match lim with
  | .constant => 0
  | .vanLeer =>
    if diffL * diffR > 0 then
      let ratio := diffR / diffL
      1 / 2 * (diffR + diffL) * (4 * ratio) / ((ratio + 1) * (ratio + 1))
    else 0
  | .minmod =>
    if diffL * diffR > 0 then
      let ratio := diffR / diffL
      let minmod := 2 * min 1 ratio / (1 + ratio)
      minmod * (diffL + diffR) / 2
    else 0
  | .vanAlbada =>
    if diffL * diffR > 0 then
      let ratio := diffR / diffL
      1 / 2 * (diffR + diffL) * (2 * ratio) / (ratio * ratio + 1)
    else 0

/-- src/hydro/face_reconstruction.cpp 31-50. -/
def limiterFactory (s : String) : Except String Limiter :=
  if s = "Constant" then .ok .constant
  else if s = "VanLeer" then .ok .vanLeer
  else if s = "Minmod" then .ok .minmod
  else if s = "VanAlbada" then .ok .vanAlbada
  else .error "Unknown face reconstruction algorithm"

/-- src/hydro/limited_linear_reconstruction.hpp 57-62: the two face values of a cell from the three cell
values and the three cell sizes along one direction. Face 0 is the left face. -/
def reconFace (lim : Limiter) (dlm dl dlp vm v vp : K) (side : Fin 2) : K :=
  let slope := lim.slope ((vp - v) / ((dl + dlp) / 2)) ((v - vm) / ((dlm + dl) / 2))
  if side = 0 then v - dl / 2 * slope else v + dl / 2 * slope

/-- src/hydro/limited_linear_reconstruction.hpp 53 (and 54, 55): the cell size along direction `a`, selected
by Kronecker symbols; all three arrays are read. -/
def cellLen (dx : Fin 3 → View ℤ K) (a : Fin d) (c : Cell) : Option K := do
  let d0 ← (dx 0).rd (c 0)
  let d1 ← (dx 1).rd (c 1)
  let d2 ← (dx 2).rd (c 2)
  return (kron a.val 0 : ℤ) * d0 + (kron a.val 1 : ℤ) * d1 + (kron a.val 2 : ℤ) * d2

/-- An array with the extra dimensions `[2][ndim]` for the faces (`var_rec(i, j, k, side, idim)`): the extents
2 and `ndim` are asserted (src/hydro/limited_linear_reconstruction.hpp 37-38), so these two indices are
packed in the cell value. -/
abbrev FaceArr (d : ℕ) (V : Type) := View Cell (Fin 2 → Fin d → V)

/-- Run `f` for every index below `d` and collect the results; fails if one of them fails. Used for loops
whose iterations work on different arrays or different entries. -/
def seqFin {V : Type} (f : Fin d → Option V) : Option (Fin d → V) :=
  if h : ∀ i, (f i).isSome then some fun i => (f i).get (h i) else none

/-- src/hydro/limited_linear_reconstruction.hpp 49-64: body of the kernel for one cell. -/
def reconCell (lim : Limiter) (dx : Fin 3 → View ℤ K) (var : View Cell K) (c : Cell) :
    Option (Fin d → Fin 2 → K) :=
  seqFin fun a => do
    let cm := lindex a.val c
    let cp := rindex a.val c
    let dl ← cellLen dx a c
    let dlm ← cellLen dx a cm
    let dlp ← cellLen dx a cp
    let vp ← var.rd cp
    let v ← var.rd c
    let vm ← var.rd cm
    return fun side => reconFace lim dlm dl dlp vm v vp side

/-- src/hydro/limited_linear_reconstruction.hpp 34-65: `LimitedLinearReconstruction::execute`, loop in the
order `l`. -/
def faceReconstruct (lim : Limiter) (dx : Fin 3 → View ℤ K) (l : List Cell) (var : View Cell K)
    (out : FaceArr d K) : Option (FaceArr d K) :=
  parFor l (fun c out => do
    let f ← reconCell lim dx var c
    out.wr c fun side a => f a side) out

end

end Heracles

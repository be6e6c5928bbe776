import Verif.Model.Geometry
import Verif.Model.Riemann

/-!
# Source terms, Hancock predictor, hydrodynamic reconstruction and Godunov update

Models of `src/hydro/source_terms.hpp`, `src/hydro/extrapolation_reconstruction.hpp`,
`src/hydro/hydro_reconstruction.hpp`, `src/hydro/godunov_scheme.hpp` and of the call operators of
`src/gravity/gravity.hpp`.

The arrays `rho`, `rhou`, `E`, `fx` (equal extents, asserted) are packed in one view of `Fields`, the arrays
`rho_rec`, `rhou_rec`, `E_rec`, `fx_rec` in one `FaceArr` of `Fields`, `u` and `P` in a view of `VelPres`.
Sequences of `+=` in the loops over `idim` are written as finite sums over the directions: exact arithmetic does not see
the order of the additions.
-/

namespace Heracles

variable {d n : ℕ} {K : Type}

/-- The conservative state inside a tuple of fields. -/
def Fields.cons (f : Fields d n K) : Cons d K := { rho := f.rho, rhou := f.rhou, E := f.E }

/-- View of one component of a view of structures (`Kokkos::subview`). -/
def View.comp {ι V W : Type} (v : View ι V) (f : V → W) : View ι W := { dom := v.dom, val := fun i => f (v.val i) }

section Sources
variable [Field K]

/-- src/hydro/source_terms.hpp 18-22. -/
def sourceGradPres (dtodv PL PR dS dS_p : K) : K := dtodv * (PL + PR) / 2 * (dS_p - dS)

/-- src/hydro/source_terms.hpp 26-30. -/
def sourceGradUr (dtodv rhoL rhoR uL uR dS dS_p : K) : K :=
  dtodv * (rhoL * uL * uL + rhoR * uR * uR) / 2 * (dS_p - dS) / 2

/-- src/hydro/source_terms.hpp 34-49. -/
def sourceGradUidirR (dtodv x0 x0_p rhoL rhoR uL_r uR_r uL_other uR_other dS dS_p : K) : K :=
  dtodv * (x0_p - x0) / (x0_p + x0) * (rhoR * uR_other * uR_r * dS_p + rhoL * uL_other * uL_r * dS)

/-- src/hydro/source_terms.hpp 52-57. -/
def sourceGradUth (tr : Trig K) (dtodv x1 x1_p rhoL rhoR uL_phi uR_phi dS dS_p : K) : K :=
  dtodv * (rhoL * uL_phi * uL_phi + rhoR * uR_phi * uR_phi) / 2 * (tr.cos ((x1 + x1_p) / 2) / tr.sin ((x1 + x1_p) / 2))
    * (dS_p - dS) / 2

/-- src/hydro/source_terms.hpp 60-77. -/
def sourceGradUphi (tr : Trig K) (dtodv x1 x1_p rhoL rhoR uL_th uR_th uL_phi uR_phi dS dS_p : K) : K :=
  let sm := tr.sin x1
  let sp := tr.sin x1_p
  dtodv * (sp - sm) / (sp + sm) * (rhoR * uR_phi * uR_th * dS_p + rhoL * uL_phi * uL_th * dS)

/-- Geometric data read by the schemes for one cell and one direction: `dv(i,j,k)`, `ds(i,j,k,idim)`,
`ds(i_p,j_p,k_p,idim)`, `x0(i)`, `x0(i+1)`, `x1(j)`, `x1(j+1)`. -/
structure DirGeo (K : Type) where
  dv : K
  dsL : K
  dsR : K
  x0 : K
  x0p : K
  x1 : K
  x1p : K

/-- Velocity component number `m` of a primitive state, for the constant indices `u[1]`, `u[2]` of the spherical
source terms. The code only uses them when `m < ndim`. -/
def Prim.uAt (p : Prim d K) (m : ℕ) : K := if h : m < d then p.u ⟨m, h⟩ else 0

/-- Spherical source terms of direction `idim` for momentum component `i`:
src/hydro/godunov_scheme.hpp 165-256 and src/hydro/extrapolation_reconstruction.hpp 145-303 (same formulas, with the
primitive states of the two faces of the cell). -/
def sphSource (tr : Trig K) (g : DirGeo K) (dtodv : K) (pL pR : Prim d K) (idim i : Fin d) : K :=
  if idim.val = 0 then
    if i.val = 0 then
      sourceGradPres dtodv pL.P pR.P g.dsL g.dsR
        + (if d = 2 ∨ d = 3 then sourceGradUr dtodv pL.rho pR.rho (pL.uAt 1) (pR.uAt 1) g.dsL g.dsR else 0)
        + (if d = 3 then sourceGradUr dtodv pL.rho pR.rho (pL.uAt 2) (pR.uAt 2) g.dsL g.dsR else 0)
    else if i.val = 1 then
      -(if d = 2 ∨ d = 3 then
          sourceGradUidirR dtodv g.x0 g.x0p pL.rho pR.rho (pL.uAt 0) (pR.uAt 0) (pL.uAt 1) (pR.uAt 1) g.dsL g.dsR
        else 0)
    else
      -(if d = 3 then
          sourceGradUidirR dtodv g.x0 g.x0p pL.rho pR.rho (pL.uAt 0) (pR.uAt 0) (pL.uAt 2) (pR.uAt 2) g.dsL g.dsR
        else 0)
  else if idim.val = 1 then
    if i.val = 0 then 0
    else if i.val = 1 then
      sourceGradPres dtodv pL.P pR.P g.dsL g.dsR
        + (if d = 3 then sourceGradUth tr dtodv g.x1 g.x1p pL.rho pR.rho (pL.uAt 2) (pR.uAt 2) g.dsL g.dsR else 0)
    else
      -(if d = 3 then
          sourceGradUphi tr dtodv g.x1 g.x1p pL.rho pR.rho (pL.uAt 1) (pR.uAt 1) (pL.uAt 2) (pR.uAt 2) g.dsL g.dsR
        else 0)
  else 0

/-- `dtodv * ((fL * dsL) - (fR * dsR))`: src/hydro/godunov_scheme.hpp 159-163, 288 and
src/hydro/extrapolation_reconstruction.hpp 131-143, 320-321. -/
def fluxDiff (g : DirGeo K) (dtodv fL fR : K) : K := dtodv * (fL * g.dsL - fR * g.dsR)

/-- Contribution of direction `idim` to the momentum, without gravity: flux difference
(src/hydro/godunov_scheme.hpp 160-162, src/hydro/extrapolation_reconstruction.hpp 134-139) and, in spherical geometry,
source terms. -/
def momDiff (tr : Trig K) (geom : Geom) (g : DirGeo K) (dtodv : K) (pL pR : Prim d K) (fL fR : Flux d K)
    (idim i : Fin d) : K :=
  fluxDiff g dtodv (fL.rhou i) (fR.rhou i) + if geom = .spherical then sphSource tr g dtodv pL pR idim i else 0

/-- The reads of geometric data in direction `idim` at cell `c` (src/hydro/godunov_scheme.hpp 127, 157-163, 188-189, 238-239;
src/hydro/extrapolation_reconstruction.hpp 112, 130-143). In spherical geometry both coordinates of both
nodes are read here whatever `ndim` and `idim`; the code reads them only in the branches that use them. -/
def GridData.dirGeo (g : GridData K) (geom : Geom) (idim : Fin d) (c : Cell) : Option (DirGeo K) := do
  let dv ← g.dv.rd c
  let s ← g.ds.rd c
  let sp ← g.ds.rd (rindex idim.val c)
  match geom with
  | .cartesian => return { dv := dv, dsL := s (ax idim), dsR := sp (ax idim), x0 := 0, x0p := 0, x1 := 0, x1p := 0 }
  | .spherical =>
    let x0 ← (g.x 0).rd (c 0)
    let x0p ← (g.x 0).rd (c 0 + 1)
    let x1 ← (g.x 1).rd (c 1)
    let x1p ← (g.x 1).rd (c 1 + 1)
    return { dv := dv, dsL := s (ax idim), dsR := sp (ax idim), x0 := x0, x0p := x0p, x1 := x1, x1p := x1p }

end Sources

/-- A gravity functor: `gravity(i, j, k, dir)`, may fail when it reads out of bounds. -/
abbrev GravField (d : ℕ) (K : Type) := Cell → Fin d → Option K

/-- src/gravity/gravity.hpp 36-40: uniform gravity reads `m_g(dir)`. -/
def uniformGravity (mg : View ℤ K) : GravField d K := fun _ dir => mg.rd dir.val

/-- src/gravity/gravity.hpp 63-70 and 93-100: radial gravity reads `m_g(i)` for direction 0. -/
def radialGravity [Zero K] (mg : View ℤ K) : GravField d K := fun c dir =>
  if dir.val = 0 then mg.rd (c 0) else some 0

section Hancock
variable [Field K]

/-- Primitive state of a face: `rho_old[side][idim]`, `u_rec`, `P_rec`
(src/hydro/extrapolation_reconstruction.hpp 114-119, 122-127). -/
def facePrim (f : Fields d n K) (q : VelPres d K) : Prim d K := { rho := f.rho, u := q.u, P := q.P }

/-- src/hydro/extrapolation_reconstruction.hpp 94-325: first kernel of the Hancock predictor, one cell: the new content
of `rho_rec`, `rhou_rec`, `E_rec`, `fx_rec` (the scalars still multiplied by the density). `old` is the content of the
face arrays before the kernel: only entries of cell `c` are read, and `rho_old`, `rhou_old`, `fx_rec_old` are copies
made before the first modification. -/
def hancockCell (eos : EoS K) (tr : Trig K) (geom : Geom) (g : GridData K) (grav : GravField d K) (dt : K)
    (up : Fin 2 → Fin d → VelPres d K) (old : Fin 2 → Fin d → Fields d n K) (c : Cell) :
    Option (Fin 2 → Fin d → Fields d n K) := do
  let dg ← seqFin fun idim : Fin d => g.dirGeo geom idim c
  let gr ← seqFin fun idim : Fin d => grav c idim
  let pL : Fin d → Prim d K := fun idim => facePrim (old 0 idim) (up 0 idim)
  let pR : Fin d → Prim d K := fun idim => facePrim (old 1 idim) (up 1 idim)
  let fL : Fin d → Flux d K := fun idim => fluxPrim eos (pL idim) idim
  let fR : Fin d → Flux d K := fun idim => fluxPrim eos (pR idim) idim
  return fun side ipos =>
    { rho := (old side ipos).rho + ∑ idim, fluxDiff (dg idim) (dt / (dg idim).dv) (fL idim).rho (fR idim).rho
      rhou := fun i => (old side ipos).rhou i
        + ∑ idim, (momDiff tr geom (dg idim) (dt / (dg idim).dv) (pL idim) (pR idim) (fL idim) (fR idim) idim i
            + if i = idim then dt * gr idim * (old side ipos).rho else 0)
      E := (old side ipos).E
        + ∑ idim, (fluxDiff (dg idim) (dt / (dg idim).dv) (fL idim).E (fR idim).E
            + dt * gr idim * (old side ipos).rhou idim)
      fx := fun ifx => (old side ipos).fx ifx * (old side ipos).rho
        + ∑ idim, fluxDiff (dg idim) (dt / (dg idim).dv) ((old 0 idim).fx ifx * (fL idim).rho)
            ((old 1 idim).fx ifx * (fR idim).rho) }

/-- src/hydro/extrapolation_reconstruction.hpp 65-338: `HancockExtrapolationReconstruction::execute`; the two kernels
run in the orders `l` and `l'`. -/
def hancock (eos : EoS K) (tr : Trig K) (geom : Geom) (g : GridData K) (grav : GravField d K) (dt : K)
    (l l' : List Cell) (up : FaceArr d (VelPres d K)) (rec : FaceArr d (Fields d n K)) :
    Option (FaceArr d (Fields d n K)) := do
  let rec1 ← parFor l (fun c w => do
    let q ← up.rd c
    let old ← w.rd c
    let new ← hancockCell eos tr geom g grav dt q old c
    w.wr c new) rec
  -- 327-337
  parFor l' (fun c w => do
    let old ← w.rd c
    w.wr c fun side idim => { old side idim with fx := fun ifx => (old side idim).fx ifx / (old side idim).rho }) rec1

end Hancock

section Reconstruction
variable [Field K] [LinearOrder K]

/-- The execution orders of the kernels of one call of `MUSCLHancockHydroReconstruction::execute`. -/
structure RecScheds (d n : ℕ) where
  rho : List Cell
  u : Fin d → List Cell
  P : List Cell
  fx : Fin n → List Cell
  conv : Fin 2 → Fin d → List Cell
  han : List Cell
  hanFx : List Cell

/-- src/hydro/hydro_reconstruction.hpp 85-131: `MUSCLHancockHydroReconstruction::execute`. `U` holds `rho` and `fx` (its
momentum and energy are not read), `up` holds `u` and `P`; `upRec` are the members `m_u_rec`, `m_p_rec`. Each
call works on subviews of the packed arrays; the results are packed again. -/
def hydroReconstruct (lim : Limiter) (eos : EoS K) (tr : Trig K) (geom : Geom) (g : GridData K) (grav : GravField d K)
    (dt : K) (sc : RecScheds d n) (U : View Cell (Fields d n K)) (up : View Cell (VelPres d K))
    (upRec : FaceArr d (VelPres d K)) (rec : FaceArr d (Fields d n K)) : Option (FaceArr d (Fields d n K)) := do
  -- 99
  let rhoRec ← faceReconstruct (d := d) lim g.dx sc.rho (U.comp (·.rho)) (rec.comp fun f side a => (f side a).rho)
  -- 100-103
  let uRec ← seqFin fun i : Fin d =>
    faceReconstruct (d := d) lim g.dx (sc.u i) (up.comp (·.u i)) (upRec.comp fun f side a => (f side a).u i)
  -- 104
  let pRec ← faceReconstruct (d := d) lim g.dx sc.P (up.comp (·.P)) (upRec.comp fun f side a => (f side a).P)
  -- 105-109
  let fxRec ← seqFin fun i : Fin n =>
    faceReconstruct (d := d) lim g.dx (sc.fx i) (U.comp (·.fx i)) (rec.comp fun f side a => (f side a).fx i)
  let upRec' : FaceArr d (VelPres d K) :=
    ⟨upRec.dom, fun c side a => { u := fun i => (uRec i).val c side a, P := pRec.val c side a }⟩
  -- 111-128
  let me ← seqFin fun side : Fin 2 => seqFin fun a : Fin d =>
    convPrimToCons eos (sc.conv side a) (rhoRec.comp fun f => f side a) (upRec'.comp fun f => f side a)
      (rec.comp fun f => ({ rhou := (f side a).rhou, E := (f side a).E } : MomEn d K))
  let rec' : FaceArr d (Fields d n K) :=
    ⟨rec.dom, fun c side a =>
      { rho := rhoRec.val c side a, rhou := ((me side a).val c).rhou, E := ((me side a).val c).E
        fx := fun i => (fxRec i).val c side a }⟩
  -- 130
  hancock eos tr geom g grav dt sc.han sc.hanFx upRec' rec'

/-- `Kokkos::clamp(v, lo, hi)`. -/
def clamp (v lo hi : K) : K := if v < lo then lo else if hi < v then hi else v

/-- src/hydro/godunov_scheme.hpp 109-291: first kernel of the Godunov update, one cell (the scalars still multiplied by
the density). The face states are those of the two neighbours along each direction. -/
def godunovCell (sol : Solver) (eos : EoS K) (tr : Trig K) (geom : Geom) (g : GridData K) (grav : GravField d K) (dt : K)
    (U : View Cell (Fields d n K)) (rec : FaceArr d (Fields d n K)) (c : Cell) : Option (Fields d n K) := do
  let s ← U.rd c
  let dg ← seqFin fun idim : Fin d => g.dirGeo geom idim c
  let gr ← seqFin fun idim : Fin d => grav c idim
  let rm ← seqFin fun idim : Fin d => rec.rd (lindex idim.val c)
  let r0 ← rec.rd c
  let rp ← seqFin fun idim : Fin d => rec.rd (rindex idim.val c)
  -- 141, 155
  let fL : Fin d → Flux d K := fun idim => sol.flux eos (rm idim 1 idim).cons (r0 0 idim).cons idim
  let fR : Fin d → Flux d K := fun idim => sol.flux eos (r0 1 idim).cons (rp idim 0 idim).cons idim
  -- 166-167
  let pL : Fin d → Prim d K := fun idim => toPrim eos (r0 0 idim).cons
  let pR : Fin d → Prim d K := fun idim => toPrim eos (r0 1 idim).cons
  -- 263-286
  let fxL : Fin d → Fin n → K := fun idim ifx => if (fL idim).rho < 0 then (r0 0 idim).fx ifx else (rm idim 1 idim).fx ifx
  let fxR : Fin d → Fin n → K := fun idim ifx => if (fR idim).rho < 0 then (rp idim 0 idim).fx ifx else (r0 1 idim).fx ifx
  return {
    rho := s.rho + ∑ idim, fluxDiff (dg idim) (dt / (dg idim).dv) (fL idim).rho (fR idim).rho
    rhou := fun i => s.rhou i
      + ∑ idim, (momDiff tr geom (dg idim) (dt / (dg idim).dv) (pL idim) (pR idim) (fL idim) (fR idim) idim i
          + if i = idim then dt * gr idim * s.rho else 0)
    E := s.E + ∑ idim, (fluxDiff (dg idim) (dt / (dg idim).dv) (fL idim).E (fR idim).E + dt * gr idim * s.rhou idim)
    fx := fun ifx => s.fx ifx * s.rho
      + ∑ idim, fluxDiff (dg idim) (dt / (dg idim).dv) (fxL idim ifx * (fL idim).rho) (fxR idim ifx * (fR idim).rho) }

/-- src/hydro/godunov_scheme.hpp 77-302: `RiemannBasedGodunovScheme::execute`; the two kernels run in the orders `l`
and `l'`. `new` is the previous content of `rho_new`, ... -/
def godunov (sol : Solver) (eos : EoS K) (tr : Trig K) (geom : Geom) (g : GridData K) (grav : GravField d K) (dt : K)
    (l l' : List Cell) (U : View Cell (Fields d n K)) (rec : FaceArr d (Fields d n K)) (new : View Cell (Fields d n K)) :
    Option (View Cell (Fields d n K)) := do
  let new1 ← parFor l (fun c w => do
    let s ← godunovCell sol eos tr geom g grav dt U rec c
    w.wr c s) new
  -- 293-301
  parFor l' (fun c w => do
    let s ← w.rd c
    w.wr c { s with fx := fun ifx => clamp (s.fx ifx / s.rho) 0 1 }) new1

/-- src/main.cpp 427-457: reconstruction on `range.with_ghosts(1)` with half the time step, then Godunov update on
`range.no_ghosts()` with the full time step. -/
def hydroStep (lim : Limiter) (sol : Solver) (eos : EoS K) (tr : Trig K) (geom : Geom) (g : GridData K)
    (grav : GravField d K) (dt : K) (sc : RecScheds d n) (l l' : List Cell) (U : View Cell (Fields d n K))
    (up : View Cell (VelPres d K)) (upRec : FaceArr d (VelPres d K)) (rec : FaceArr d (Fields d n K))
    (new : View Cell (Fields d n K)) : Option (View Cell (Fields d n K)) := do
  let rec' ← hydroReconstruct lim eos tr geom g grav (dt / 2) sc U up upRec rec
  godunov sol eos tr geom g grav dt l l' U rec' new

end Reconstruction

end Heracles

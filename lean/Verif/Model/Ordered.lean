import Verif.Model.KernelRun

/-!
# The kernels, operation by operation

The computations of the kernels once more, this time with every operation in the place where the code performs it, over a type of
numbers whose operations obey no law: `Arith`. A `+=` is an addition to the variable, a loop of `+=` a fold in the order of the
loop, a literal is a constant of the type. `orderedKernels` collects them. With exact operations they are the kernels of the
exact model (`Props/Ordered.lean`); with rounded operations they are what the machine computes, when the compiler keeps the
operations as written (no contraction of `a * b + c` into one operation, no reordering).
-/

namespace Heracles

/-- The operations on numbers the kernels use. `lit m` is the conversion of the integer literal `m`, `c11` the literal `1.1`, `pi`
the constant `Kokkos::numbers::pi`. -/
class Arith (F : Type) extends Zero F, Add F, Sub F, Mul F, Div F, Neg F, LT F where
  ltDec : DecidableLT F
  lit : ℕ → F
  c11 : F
  pi : F
  fabs : F → F
  fmin : F → F → F
  fmax : F → F → F
  sin : F → F
  cos : F → F

variable {d n : ℕ} {F : Type} [Arith F]

instance : DecidableLT F := Arith.ltDec

open Arith

/-- `double s = 0; for (idim ...) s += f(idim);` -/
def sumUp (f : Fin d → F) : F := (List.finRange d).foldl (fun s i => s + f i) 0

/-- src/hydro/euler_equations.hpp 41-49. -/
def oEkCons (c : Cons d F) : F := sumUp (fun i => c.rhou i * c.rhou i) / c.rho / lit 2

/-- src/hydro/euler_equations.hpp 51-59. -/
def oEkPrim (p : Prim d F) : F := p.rho * sumUp (fun i => p.u i * p.u i) / lit 2

/-- src/hydro/euler_equations.hpp 61-65. -/
def oEvol (c : Cons d F) : F := c.E - oEkCons c

/-- src/hydro/euler_equations.hpp 72-86. -/
def oFluxPrim (eos : EoS F) (p : Prim d F) (a : Fin d) : Flux d F :=
  let E := oEkPrim p + eos.evolFromPres p.rho p.P
  let rhou : Fin d → F := fun i => p.rho * p.u a * p.u i
  { rho := p.rho * p.u a
    rhou := Function.update rhou a (rhou a + p.P)
    E := p.u a * (E + p.P) }

/-- src/hydro/euler_equations.hpp 111-122. -/
def oToPrim (eos : EoS F) (c : Cons d F) : Prim d F :=
  { rho := c.rho, u := fun i => c.rhou i / c.rho, P := eos.presFromEvol c.rho (oEvol c) }

/-- src/hydro/euler_equations.hpp 124-134. -/
def oToCons (eos : EoS F) (p : Prim d F) : Cons d F :=
  { rho := p.rho, rhou := fun i => p.rho * p.u i, E := eos.evolFromPres p.rho p.P + oEkPrim p }

/-- src/hydro/slope_limiters.hpp 17-87. -/
def oSlope (lim : Limiter) (diffR diffL : F) : F :=
  match lim with
  | .constant => 0
  | .vanLeer =>
    if 0 < diffL * diffR then
      let ratio := diffR / diffL
      lit 1 / lit 2 * (diffR + diffL) * (lit 4 * ratio) / ((ratio + lit 1) * (ratio + lit 1))
    else 0
  | .minmod =>
    if 0 < diffL * diffR then
      let ratio := diffR / diffL
      let minmod := lit 2 * fmin (lit 1) ratio / (lit 1 + ratio)
      minmod * (diffL + diffR) / lit 2
    else 0
  | .vanAlbada =>
    if 0 < diffL * diffR then
      let ratio := diffR / diffL
      lit 1 / lit 2 * (diffR + diffL) * (lit 2 * ratio) / (ratio * ratio + lit 1)
    else 0

/-- src/hydro/limited_linear_reconstruction.hpp 53: `kron` returns 0 or 1. -/
def oLen (a : Fin d) (d0 d1 d2 : F) : F :=
  lit (if a.val = 0 then 1 else 0) * d0 + lit (if a.val = 1 then 1 else 0) * d1 + lit (if a.val = 2 then 1 else 0) * d2

/-- src/hydro/limited_linear_reconstruction.hpp 57-62. -/
def oRecon (lim : Limiter) (dlm dl dlp vm v vp : F) (side : Fin 2) : F :=
  let slope := oSlope lim ((vp - v) / ((dl + dlp) / lit 2)) ((v - vm) / ((dlm + dl) / lit 2))
  if side = 0 then v - dl / lit 2 * slope else v + dl / lit 2 * slope

/-- src/hydro/riemann_solver.hpp 61-64. -/
def oFluxHll (UL UR FL FR wsL wsR : F) : F := (wsR * FL - wsL * FR + wsL * wsR * (UR - UL)) / (wsR - wsL)

/-- src/hydro/riemann_solver.hpp 42, 82. -/
def oWaveL (eos : EoS F) (pL pR : Prim d F) (a : Fin d) : F :=
  fmin (pL.u a - eos.sound pL.rho pL.P) (pR.u a - eos.sound pR.rho pR.P)

/-- src/hydro/riemann_solver.hpp 43, 83. -/
def oWaveR (eos : EoS F) (pL pR : Prim d F) (a : Fin d) : F :=
  fmax (pL.u a + eos.sound pL.rho pL.P) (pR.u a + eos.sound pR.rho pR.P)

/-- src/hydro/riemann_solver.hpp 31-58. -/
def oHll (eos : EoS F) (cL cR : Cons d F) (a : Fin d) : Flux d F :=
  let pL := oToPrim eos cL
  let pR := oToPrim eos cR
  let neg_wsL := fmin (oWaveL eos pL pR a) 0
  let pos_wsR := fmax (oWaveR eos pL pR a) 0
  let fL := oFluxPrim eos pL a
  let fR := oFluxPrim eos pR a
  { rho := oFluxHll cL.rho cR.rho fL.rho fR.rho neg_wsL pos_wsR
    rhou := fun i => oFluxHll (cL.rhou i) (cR.rhou i) (fL.rhou i) (fR.rhou i) neg_wsL pos_wsR
    E := oFluxHll cL.E cR.E fL.E fR.E neg_wsL pos_wsR }

/-- src/hydro/riemann_solver.hpp 137-140. -/
def oFluxHllc (f U Ustar ws : F) : F := f + ws * (Ustar - U)

/-- src/hydro/riemann_solver.hpp 71-134. -/
def oHllc (eos : EoS F) (cL cR : Cons d F) (a : Fin d) : Flux d F :=
  let pL := oToPrim eos cL
  let pR := oToPrim eos cR
  let wsL := oWaveL eos pL pR a
  let wsR := oWaveR eos pL pR a
  let fL := oFluxPrim eos pL a
  let fR := oFluxPrim eos pR a
  let rcL := pL.rho * (wsL - pL.u a)
  let rcR := pR.rho * (wsR - pR.u a)
  let ustar := (pR.P - pL.P + rcL * pL.u a - rcR * pR.u a) / (rcL - rcR)
  let pstar := lit 1 / lit 2 * (pL.P + pR.P + rcL * (ustar - pL.u a) + rcR * (ustar - pR.u a))
  let S := if 0 < ustar then wsL else wsR
  let cons := if 0 < ustar then cL else cR
  let prim := if 0 < ustar then pL else pR
  let flux := if 0 < ustar then fL else fR
  let un := prim.u a
  if 0 < wsL * wsR then flux
  else
    let rho_star := cons.rho * (S - un) / (S - ustar)
    let rhou : Fin d → F := fun i => rho_star * ustar * prim.u i
    let E_star := (S - un) / (S - ustar) * cons.E + (ustar - un) / (S - ustar) * (ustar * cons.rho * (S - un) + prim.P)
    { rho := oFluxHllc flux.rho cons.rho rho_star S
      rhou := Function.update rhou a (rho_star * ustar * ustar + pstar)
      E := oFluxHllc flux.E cons.E E_star S }

/-- src/hydro/riemann_solver.hpp 147-180. -/
def oSplitting (eos : EoS F) (cL cR : Cons d F) (a : Fin d) : Flux d F :=
  let pL := oToPrim eos cL
  let pR := oToPrim eos cR
  let sL := eos.sound pL.rho pL.P
  let sR := eos.sound pR.rho pR.P
  let aa := c11 * fmax (pL.rho * sL) (pR.rho * sR)
  let ustar := (pL.u a + pR.u a) / lit 2 - lit 1 / (lit 2 * aa) * (pR.P - pL.P)
  let Ma := fabs ustar / fmin sL sR
  let theta := fmin (lit 1) Ma
  let Pstar := (pL.P + pR.P) / lit 2 - theta * aa / lit 2 * (pR.u a - pL.u a)
  let cons := if 0 < ustar then cL else cR
  let rhou : Fin d → F := fun i => ustar * cons.rhou i
  { rho := ustar * cons.rho
    rhou := Function.update rhou a (rhou a + Pstar)
    E := ustar * cons.E + Pstar * ustar }

/-- Call of the solver functor (src/hydro/godunov_scheme.hpp 141, 155). -/
def oFlux (s : Solver) (eos : EoS F) (cL cR : Cons d F) (a : Fin d) : Flux d F :=
  match s with
  | .hll => oHll eos cL cR a
  | .hllc => oHllc eos cL cR a
  | .splitting => oSplitting eos cL cR a

/-- src/hydro/source_terms.hpp 18-22. -/
def oGradPres (dtodv PL PR dS dS_p : F) : F := dtodv * (PL + PR) / lit 2 * (dS_p - dS)

/-- src/hydro/source_terms.hpp 26-30. -/
def oGradUr (dtodv rhoL rhoR uL uR dS dS_p : F) : F :=
  dtodv * (rhoL * uL * uL + rhoR * uR * uR) / lit 2 * (dS_p - dS) / lit 2

/-- src/hydro/source_terms.hpp 34-49. -/
def oGradUidirR (dtodv x0 x0_p rhoL rhoR uL_r uR_r uL_other uR_other dS dS_p : F) : F :=
  dtodv * (x0_p - x0) / (x0_p + x0) * (rhoR * uR_other * uR_r * dS_p + rhoL * uL_other * uL_r * dS)

/-- src/hydro/source_terms.hpp 52-57. -/
def oGradUth (dtodv x1 x1_p rhoL rhoR uL_phi uR_phi dS dS_p : F) : F :=
  dtodv * (rhoL * uL_phi * uL_phi + rhoR * uR_phi * uR_phi) / lit 2 * (cos ((x1 + x1_p) / lit 2) / sin ((x1 + x1_p) / lit 2))
    * (dS_p - dS) / lit 2

/-- src/hydro/source_terms.hpp 60-77. -/
def oGradUphi (dtodv x1 x1_p rhoL rhoR uL_th uR_th uL_phi uR_phi dS dS_p : F) : F :=
  let sm := sin x1
  let sp := sin x1_p
  dtodv * (sp - sm) / (sp + sm) * (rhoR * uR_phi * uR_th * dS_p + rhoL * uL_phi * uL_th * dS)

/-- Velocity component number `m` (`Prim.uAt`). -/
def oAt (p : Prim d F) (m : ℕ) : F := if h : m < d then p.u ⟨m, h⟩ else 0

/-- An operation on entry number `m` of an array: `v(..., m) += ...`. -/
def onEntry (m : ℕ) (f : F → F) (v : Fin d → F) : Fin d → F := fun i => if i.val = m then f (v i) else v i

/-- src/hydro/godunov_scheme.hpp 165-256 and src/hydro/extrapolation_reconstruction.hpp 145-303: the operations of direction `idim`
on the momentum in spherical geometry, one after the other. -/
def oSpherical (g : DirGeo F) (dtodv : F) (pL pR : Prim d F) (idim : Fin d) (v : Fin d → F) : Fin d → F :=
  if idim.val = 0 then
    let v := onEntry 0 (· + oGradPres dtodv pL.P pR.P g.dsL g.dsR) v
    let v := if d = 2 ∨ d = 3 then
        let v := onEntry 0 (· + oGradUr dtodv pL.rho pR.rho (oAt pL 1) (oAt pR 1) g.dsL g.dsR) v
        onEntry 1 (· - oGradUidirR dtodv g.x0 g.x0p pL.rho pR.rho (oAt pL 0) (oAt pR 0) (oAt pL 1) (oAt pR 1) g.dsL g.dsR) v
      else v
    if d = 3 then
      let v := onEntry 0 (· + oGradUr dtodv pL.rho pR.rho (oAt pL 2) (oAt pR 2) g.dsL g.dsR) v
      onEntry 2 (· - oGradUidirR dtodv g.x0 g.x0p pL.rho pR.rho (oAt pL 0) (oAt pR 0) (oAt pL 2) (oAt pR 2) g.dsL g.dsR) v
    else v
  else if idim.val = 1 then
    let v := onEntry 1 (· + oGradPres dtodv pL.P pR.P g.dsL g.dsR) v
    if d = 3 then
      let v := onEntry 1 (· + oGradUth dtodv g.x1 g.x1p pL.rho pR.rho (oAt pL 2) (oAt pR 2) g.dsL g.dsR) v
      onEntry 2 (· - oGradUphi dtodv g.x1 g.x1p pL.rho pR.rho (oAt pL 1) (oAt pR 1) (oAt pL 2) (oAt pR 2) g.dsL g.dsR) v
    else v
  else v

/-- `dtodv * ((fL * dsL) - (fR * dsR))` (`fluxDiff`). -/
def oFluxDiff (g : DirGeo F) (dtodv fL fR : F) : F := dtodv * (fL * g.dsL - fR * g.dsR)

/-- The body of the loop over `idim` for one set of variables `w` (`rho_new`, `rhou_new`, `E_new`, `fx_new` of a cell, or `rho_rec`,
... of a face): fluxes, spherical source terms, gravity, scalars (src/hydro/godunov_scheme.hpp 157-289,
src/hydro/extrapolation_reconstruction.hpp 128-324). `s` holds the density and momentum the gravity acts on, `fxL`, `fxR` the scalars
carried by the two fluxes. -/
def oDirection (geom : Geom) (dt : F) (g : DirGeo F) (gr : F) (s : Fields d n F) (pL pR : Prim d F) (fL fR : Flux d F)
    (fxL fxR : Fin n → F) (idim : Fin d) (w : Fields d n F) : Fields d n F :=
  let dtodv := dt / g.dv
  let rhou := fun i => w.rhou i + oFluxDiff g dtodv (fL.rhou i) (fR.rhou i)
  let rhou := if geom = .spherical then oSpherical g dtodv pL pR idim rhou else rhou
  { rho := w.rho + oFluxDiff g dtodv fL.rho fR.rho
    rhou := onEntry idim.val (· + dt * gr * s.rho) rhou
    E := w.E + oFluxDiff g dtodv fL.E fR.E + dt * gr * s.rhou idim
    fx := fun ifx => w.fx ifx + oFluxDiff g dtodv (fxL ifx * fL.rho) (fxR ifx * fR.rho) }

/-- src/hydro/extrapolation_reconstruction.hpp 94-325: the predictor in a cell. The fluxes of a direction are computed from the copies
made before the loop, so every face can be followed separately. -/
def oPredict (eos : EoS F) (geom : Geom) (dt : F) (dg : Fin d → DirGeo F) (gr : Fin d → F)
    (up : Fin 2 → Fin d → VelPres d F) (old : Fin 2 → Fin d → Fields d n F) : Fin 2 → Fin d → Fields d n F :=
  let pL : Fin d → Prim d F := fun idim => { rho := (old 0 idim).rho, u := (up 0 idim).u, P := (up 0 idim).P }
  let pR : Fin d → Prim d F := fun idim => { rho := (old 1 idim).rho, u := (up 1 idim).u, P := (up 1 idim).P }
  let fL : Fin d → Flux d F := fun idim => oFluxPrim eos (pL idim) idim
  let fR : Fin d → Flux d F := fun idim => oFluxPrim eos (pR idim) idim
  fun side ipos =>
    (List.finRange d).foldl (fun w idim => oDirection geom dt (dg idim) (gr idim) (old side ipos) (pL idim) (pR idim) (fL idim)
        (fR idim) (old 0 idim).fx (old 1 idim).fx idim w)
      { old side ipos with fx := fun ifx => (old side ipos).fx ifx * (old side ipos).rho }

/-- src/hydro/godunov_scheme.hpp 109-291: the update of a cell. -/
def oUpdate (sol : Solver) (eos : EoS F) (geom : Geom) (dt : F) (dg : Fin d → DirGeo F) (gr : Fin d → F) (s : Fields d n F)
    (rm : Fin d → Fin 2 → Fin d → Fields d n F) (r0 : Fin 2 → Fin d → Fields d n F) (rp : Fin d → Fin 2 → Fin d → Fields d n F) :
    Fields d n F :=
  let fL : Fin d → Flux d F := fun idim => oFlux sol eos (rm idim 1 idim).cons (r0 0 idim).cons idim
  let fR : Fin d → Flux d F := fun idim => oFlux sol eos (r0 1 idim).cons (rp idim 0 idim).cons idim
  let pL : Fin d → Prim d F := fun idim => oToPrim eos (r0 0 idim).cons
  let pR : Fin d → Prim d F := fun idim => oToPrim eos (r0 1 idim).cons
  let fxL : Fin d → Fin n → F := fun idim ifx => if (fL idim).rho < 0 then (r0 0 idim).fx ifx else (rm idim 1 idim).fx ifx
  let fxR : Fin d → Fin n → F := fun idim ifx => if (fR idim).rho < 0 then (rp idim 0 idim).fx ifx else (r0 1 idim).fx ifx
  (List.finRange d).foldl (fun w idim => oDirection geom dt (dg idim) (gr idim) s (pL idim) (pR idim) (fL idim) (fR idim)
      (fxL idim) (fxR idim) idim w)
    { s with fx := fun ifx => s.fx ifx * s.rho }

/-- src/hydro/time_step.hpp 60-72: `dx_geom`. -/
def oDxGeom (geom : Geom) (d : ℕ) (dx : Fin 3 → F) (xc0 xc1 : F) (idim : Fin 3) : F :=
  if geom = .spherical then
    if d = 2 then (if idim = 1 then dx 1 * xc0 else dx idim)
    else if d = 3 then
      (if idim = 1 then dx 1 * xc0 else if idim = 2 then dx 2 * (xc0 * sin xc1) else dx idim)
    else dx idim
  else dx idim

/-- src/hydro/pressure_fix.hpp 57-168 (`pressureFixEnergy`, same lines and simplification). -/
def oFixE (eos : EoS F) (dt eps : F) (s q : Fields d n F) (um uPl : Fin d → Fields d n F) (r0 : Fin 2 → Fin d → Fields d n F)
    (rm rp : Fin d → Fin 2 → Fin d → Fields d n F) (ds : Fin 3 → F) (dsp : Fin d → Fin 3 → F) (dv : F) : F :=
  let eps2 := eps / lit 10
  let P := (oToPrim eos s.cons).P
  let ekin := oEkCons s.cons
  let evol := s.E - ekin
  let evolNew := q.E - oEkCons q.cons
  let deGod := evolNew - evol
  let alpha := if evol < eps2 * ekin then 0 else evol * evol / (ekin * ekin * eps * eps)
  let us : Fin d → Fin d → F := fun idim ipos =>
    ((oToPrim eos (rm idim 1 idim).cons).u ipos + (oToPrim eos (r0 0 idim).cons).u ipos) / lit 2
  let usP : Fin d → Fin d → F := fun idim ipos =>
    ((oToPrim eos (r0 1 idim).cons).u ipos + (oToPrim eos (rp idim 0 idim).cons).u ipos) / lit 2
  let divU := (List.finRange d).foldl (fun t idim => (List.finRange d).foldl (fun t ipos =>
    t + (usP idim ipos * dsp idim (ax ipos) - us idim ipos * ds (ax ipos)) / dv) t) 0
  let einR : Fin d → Fin d → F := fun idim ipos =>
    if 0 < usP idim ipos then s.E - oEkCons s.cons else (uPl idim).E - oEkCons (uPl idim).cons
  let einL : Fin d → Fin d → F := fun idim ipos =>
    if us idim ipos < 0 then s.E - oEkCons s.cons else (um idim).E - oEkCons (um idim).cons
  let divUE := (List.finRange d).foldl (fun t idim => (List.finRange d).foldl (fun t ipos =>
    t + (usP idim ipos * einR idim ipos * dsp idim (ax ipos) - us idim ipos * einL idim ipos * ds (ax ipos)) / dv) t) 0
  let dePf := dt * (-P * divU - divUE)
  let sum := sumUp fun idr => s.rhou idr * s.rhou idr / s.rho
  let deTot := alpha * deGod + (lit 1 - alpha) * dePf
  evol + deTot + lit 1 / lit 2 * sum

/-- `Kokkos::clamp(v, lo, hi)`. -/
def oClamp (v lo hi : F) : F := if v < lo then lo else if hi < v then hi else v

/-- The kernels of the code, operation by operation. The equation of state is a parameter. -/
def orderedKernels (lim : Limiter) (sol : Solver) (eos : EoS F) (geom : Geom) (fix : Option F) : Kernels d n F where
  size xr xl := xr - xl
  center xl xr := (xl + xr) / lit 2
  areaCart d0 d1 d2 idim :=
    (if idim = 0 then lit 1 else d0) * (if idim = 1 then lit 1 else d1) * (if idim = 2 then lit 1 else d2)
  volCart d0 d1 d2 := d0 * d1 * d2
  areaSph1 r := lit 4 * pi * r * r
  volSph1 r rp := lit 4 * pi * (rp * rp * rp - r * r * r) / lit 3
  areaSph2 r rp t tp := ![lit 2 * pi * r * r * (cos t - cos tp), lit 2 * pi / lit 2 * (rp * rp - r * r) * sin t]
  volSph2 r rp t tp := lit 2 * pi / lit 3 * (rp * rp * rp - r * r * r) * (cos t - cos tp)
  areaSph3 r rp t tp d0 d1 d2 :=
    ![r * r * (cos t - cos tp) * d2, lit 1 / lit 2 * (rp * rp - r * r) * sin t * d2, r * d0 * d1]
  volSph3 r rp t tp d2 := lit 1 / lit 3 * (rp * rp * rp - r * r * r) * (cos t - cos tp) * d2
  prim rho q := let s := oToPrim eos { rho := rho, rhou := q.rhou, E := q.E }; { u := s.u, P := s.P }
  rate rho q dx xc0 xc1 :=
    let sound := eos.sound rho q.P
    sumUp fun idim : Fin d => (fabs (q.u idim) + sound) / oDxGeom geom d dx xc0 xc1 (ax idim)
  inv m := lit 1 / m
  half dt := dt / lit 2
  len := oLen
  recon := oRecon lim
  cons rho q := let s := oToCons eos { rho := rho, u := q.u, P := q.P }; { rhou := s.rhou, E := s.E }
  predict := oPredict eos geom
  predictFx f := { f with fx := fun ifx => f.fx ifx / f.rho }
  update := oUpdate sol eos geom
  updateFx s := { s with fx := fun ifx => oClamp (s.fx ifx / s.rho) 0 (lit 1) }
  fixOn s := match fix with | none => false | some eps => decide (s.E - oEkCons s.cons < eps * oEkCons s.cons)
  fixE dt s q um uPl r0 rm rp ds dsp dv := oFixE eos dt (fix.getD 0) s q um uPl r0 rm rp ds dsp dv

/-- Exact numbers as an instance of `Arith`. -/
@[reducible] def exactArith (K : Type) [Field K] [LinearOrder K] (tr : Trig K) : Arith K where
  ltDec := inferInstance
  lit m := m
  c11 := 11 / 10
  pi := tr.pi
  fabs x := |x|
  fmin := min
  fmax := max
  sin := tr.sin
  cos := tr.cos

/-- Rounded operations as an instance of `Arith`: every result is the exact result, rounded by `rnd` (IEEE 754 without overflow, NaN
and signed zeros). Negation, absolute value, minimum, maximum and comparisons are exact; sine and cosine are parameters. -/
@[reducible] def roundedArith (K : Type) [Field K] [LinearOrder K] (rnd : K → K) (tr : Trig K) : Arith K where
  add x y := rnd (x + y)
  sub x y := rnd (x - y)
  mul x y := rnd (x * y)
  div x y := rnd (x / y)
  ltDec := inferInstance
  lit m := rnd m
  c11 := rnd (11 / 10)
  pi := rnd tr.pi
  fabs x := |x|
  fmin := min
  fmax := max
  sin x := rnd (tr.sin x)
  cos x := rnd (tr.cos x)

end Heracles

import Verif.Model.Euler
import Mathlib.Algebra.Order.Ring.Abs

/-!
# Riemann solvers

Model of `src/hydro/riemann_solver.hpp`. `Kokkos::fmin`, `fmax`, `fabs` are `min`, `max`, `|·|`: no NaN in
this model. `int locdim` (asserted to be in `[0, ndim)`) is `a : Fin d`.
-/

namespace Heracles

variable {d : ℕ} {K : Type}

/-- The solver classes of src/hydro/riemann_solver.hpp. -/
inductive Solver
  | hll | hllc | splitting
  deriving DecidableEq, Repr

section
variable [Field K] [LinearOrder K]

/-- src/hydro/riemann_solver.hpp 39-42 (also 79-82): left wave speed estimate `wsL`. -/
def waveL (eos : EoS K) (pL pR : Prim d K) (a : Fin d) : K :=
  min (pL.u a - eos.sound pL.rho pL.P) (pR.u a - eos.sound pR.rho pR.P)

/-- src/hydro/riemann_solver.hpp 43 (also 83): right wave speed estimate `wsR`. -/
def waveR (eos : EoS K) (pL pR : Prim d K) (a : Fin d) : K :=
  max (pL.u a + eos.sound pL.rho pL.P) (pR.u a + eos.sound pR.rho pR.P)

/-- src/hydro/riemann_solver.hpp 61-64: `HLL::flux_hll`. -/
def fluxHll (UL UR FL FR wsL wsR : K) : K := (wsR * FL - wsL * FR + wsL * wsR * (UR - UL)) / (wsR - wsL)

/-- src/hydro/riemann_solver.hpp 31-58: `HLL::operator()`. -/
def hllFlux (eos : EoS K) (cL cR : Cons d K) (a : Fin d) : Flux d K :=
  let pL := toPrim eos cL
  let pR := toPrim eos cR
  let neg_wsL := min (waveL eos pL pR a) 0
  let pos_wsR := max (waveR eos pL pR a) 0
  let fL := fluxPrim eos pL a
  let fR := fluxPrim eos pR a
  { rho := fluxHll cL.rho cR.rho fL.rho fR.rho neg_wsL pos_wsR
    rhou := fun i => fluxHll (cL.rhou i) (cR.rhou i) (fL.rhou i) (fR.rhou i) neg_wsL pos_wsR
    E := fluxHll cL.E cR.E fL.E fR.E neg_wsL pos_wsR }

/-- src/hydro/riemann_solver.hpp 88-91: `ustar`. -/
def hllcUstar (pL pR : Prim d K) (a : Fin d) (wsL wsR : K) : K :=
  let rcL := pL.rho * (wsL - pL.u a)
  let rcR := pR.rho * (wsR - pR.u a)
  (pR.P - pL.P + rcL * pL.u a - rcR * pR.u a) / (rcL - rcR)

/-- src/hydro/riemann_solver.hpp 88-92: `pstar`. -/
def hllcPstar (pL pR : Prim d K) (a : Fin d) (wsL wsR : K) : K :=
  let rcL := pL.rho * (wsL - pL.u a)
  let rcR := pR.rho * (wsR - pR.u a)
  let ustar := hllcUstar pL pR a wsL wsR
  1 / 2 * (pL.P + pR.P + rcL * (ustar - pL.u a) + rcR * (ustar - pR.u a))

/-- src/hydro/riemann_solver.hpp 137-140: `HLLC::flux_hllc`. -/
def fluxHllc (F U Ustar ws : K) : K := F + ws * (Ustar - U)

/-- src/hydro/riemann_solver.hpp 111, 120-132: the branch of `HLLC::operator()` for waves of opposite signs,
for the selected side. -/
def hllcStar (cons : Cons d K) (prim : Prim d K) (flux : Flux d K) (a : Fin d) (S ustar pstar : K) : Flux d K :=
  let un := prim.u a
  let rho_star := cons.rho * (S - un) / (S - ustar)
  let rhou : Fin d → K := fun i => rho_star * ustar * prim.u i
  let E_star := (S - un) / (S - ustar) * cons.E + (ustar - un) / (S - ustar) * (ustar * cons.rho * (S - un) + prim.P)
  { rho := fluxHllc flux.rho cons.rho rho_star S
    rhou := Function.update rhou a (rho_star * ustar * ustar + pstar)
    E := fluxHllc flux.E cons.E E_star S }

/-- src/hydro/riemann_solver.hpp 71-134: `HLLC::operator()`. -/
def hllcFlux (eos : EoS K) (cL cR : Cons d K) (a : Fin d) : Flux d K :=
  let pL := toPrim eos cL
  let pR := toPrim eos cR
  let wsL := waveL eos pL pR a
  let wsR := waveR eos pL pR a
  let fL := fluxPrim eos pL a
  let fR := fluxPrim eos pR a
  let ustar := hllcUstar pL pR a wsL wsR
  let pstar := hllcPstar pL pR a wsL wsR
  let S := if ustar > 0 then wsL else wsR
  let cons := if ustar > 0 then cL else cR
  let prim := if ustar > 0 then pL else pR
  let flux := if ustar > 0 then fL else fR
  if wsL * wsR > 0 then flux else hllcStar cons prim flux a S ustar pstar

/-- src/hydro/riemann_solver.hpp 147-180: `Splitting::operator()`; `1.1` is the exact rational 11/10. -/
def splittingFlux (eos : EoS K) (cL cR : Cons d K) (a : Fin d) : Flux d K :=
  let pL := toPrim eos cL
  let pR := toPrim eos cR
  let sL := eos.sound pL.rho pL.P
  let sR := eos.sound pR.rho pR.P
  let aa := 11 / 10 * max (pL.rho * sL) (pR.rho * sR)
  let ustar := (pL.u a + pR.u a) / 2 - 1 / (2 * aa) * (pR.P - pL.P)
  let Ma := |ustar| / min sL sR
  let theta := min 1 Ma
  let Pstar := (pL.P + pR.P) / 2 - theta * aa / 2 * (pR.u a - pL.u a)
  let cons := if ustar > 0 then cL else cR
  let rhou : Fin d → K := fun i => ustar * cons.rhou i
  { rho := ustar * cons.rho
    rhou := Function.update rhou a (rhou a + Pstar)
    E := ustar * cons.E + Pstar * ustar }

/-- Call of the solver functor (src/hydro/godunov_scheme.hpp 141, 155). -/
def Solver.flux (s : Solver) (eos : EoS K) (cL cR : Cons d K) (a : Fin d) : Flux d K :=
  match s with
  | .hll => hllFlux eos cL cR a
  | .hllc => hllcFlux eos cL cR a
  | .splitting => splittingFlux eos cL cR a

/-- src/hydro/godunov_scheme.hpp 305-321: the names accepted for the Riemann solver. -/
def solverFactory (s : String) : Except String Solver :=
  if s = "HLL" then .ok .hll
  else if s = "HLLC" then .ok .hllc
  else if s = "Low Mach" then .ok .splitting
  else .error s!"Invalid riemann solver: {s}."

end

end Heracles

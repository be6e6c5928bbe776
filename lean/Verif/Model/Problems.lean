import Verif.Model.Setup
import Verif.Model.Scheme
import Verif.Model.Reduce
import Mathlib.Analysis.SpecialFunctions.Log.Basic
import Mathlib.Analysis.SpecialFunctions.Trigonometric.Basic
import Mathlib.Analysis.SpecialFunctions.Complex.Arg

/-!
# The test problems

Models of `src/setups/*/setup.hpp`: the classes `InitializationSetup`, `BoundarySetup` and `UserShiftCriterion` of each problem. The
members of `ParamSetup` are arguments. `double` is `ℝ`. The assertions on extents, absent from release builds, become the types of the
arguments. The unit factors of src/units/units.hpp 19-45, all equal to 1, are left out. Messages printed on the standard
output are not modelled.
-/

namespace Heracles

variable {d n : ℕ}

/-- The members of an equation of state called by the setups (src/thermodynamics/perfect_gas.hpp 36-78,
src/thermodynamics/rad_gas.hpp 37-129). -/
structure SetupEos where
  gamma : ℝ
  mmw : ℝ
  presFromTemp : ℝ → ℝ → ℝ
  evolFromTemp : ℝ → ℝ → ℝ
  tempFromEvol : ℝ → ℝ → ℝ
  presFromEvol : ℝ → ℝ → ℝ

/-- src/thermodynamics/perfect_gas.hpp 36-78. -/
noncomputable def PerfectGas.setupEos (g : Gas) : SetupEos :=
  ⟨g.gamma, g.mmw, presFromTemp g, evolFromTemp g, tempFromEvol g, presFromEvol g⟩

/-- src/thermodynamics/rad_gas.hpp 37-129. -/
noncomputable def RadGas.setupEos (g : Gas) : SetupEos :=
  ⟨g.gamma, g.mmw, presFromTemp g, evolFromTemp g, tempFromEvol g, presFromEvol g⟩

/-- src/units/units.hpp 63: the gravitational constant. -/
noncomputable def gravG : ℝ := 6.6743015e-11

/-- The contents of a cell of the arrays `rho`, `u`, `P`, `fx` filled by an initialisation. -/
@[ext] structure InitCell (d n : ℕ) where
  rho : ℝ
  u : Fin d → ℝ
  P : ℝ
  fx : Fin n → ℝ

/-- The body of the parallel loop of an initialisation: from the previous contents of the cell to the new ones. An access outside an
array is `none`. -/
abbrev InitKernel (d n : ℕ) := Cell → InitCell d n → Option (InitCell d n)

/-- The parallel loop of `InitializationSetup::execute`, over `cell_mdrange(range)` in the order `l`. -/
def initLoop (l : List Cell) (k : InitKernel d n) (v : View Cell (InitCell d n)) : Option (View Cell (InitCell d n)) :=
  parFor l (fun c v => do
    let s ← v.rd c
    let s ← k c s
    v.wr c s) v

open Classical in
/-- src/setups/shock_tube/setup.hpp 77-91. -/
noncomputable def shockTubeInit (rho0 rho1 u0 u1 P0 P1 inter : ℝ) (g : GridData ℝ) : InitKernel d n := fun c s => do
  let x ← (g.xc 0).rd (c 0)
  if x ≤ inter then return { s with rho := rho0, P := P0, u := fun _ => u0 }
  else return { s with rho := rho1, P := P1, u := fun _ => u1 }

/-- src/setups/shock_wall/setup.hpp 67-75. -/
def shockWallInit (rho0 u0 P0 : ℝ) : InitKernel d n := fun _ s => some { s with rho := rho0, P := P0, u := fun _ => u0 }

open Classical in
/-- src/setups/advection_gap/setup.hpp 68-86. -/
noncomputable def advectionGapInit (rho0 rho1 u0 P0 : ℝ) (g : GridData ℝ) : InitKernel d n := fun c s => do
  let x1b : ℝ := 0.3
  let x1e : ℝ := 0.7
  let x ← (g.xc 0).rd (c 0)
  return { s with rho := if x ≤ x1b ∨ x ≥ x1e then rho0 else rho1, u := fun _ => u0, P := P0 }

/-- src/setups/advection_sinus/setup.hpp 60-74. -/
noncomputable def advectionSinusInit (u0 P0 : ℝ) (g : GridData ℝ) : InitKernel d n := fun c s => do
  let rho0 : ℝ := 1
  let drho0 : ℝ := 1e-1
  let x ← (g.xc 0).rd (c 0)
  return { s with rho := rho0 + drho0 * Real.sin (2 * Real.pi * x), u := fun _ => u0, P := P0 }

open Classical in
/-- src/setups/implosion_test/setup.hpp 74-94. -/
noncomputable def implosionInit (rho0 rho1 u0 P0 P1 : ℝ) (g : GridData ℝ) : InitKernel d n := fun c s => do
  let k : ℝ := 0.15
  let x ← (g.xc 0).rd (c 0)
  let y ← (g.xc 1).rd (c 1)
  if x + y > k then return { s with rho := rho0, P := P0, u := fun _ => u0 }
  else return { s with rho := rho1, P := P1, u := fun _ => u0 }

/-- `Kokkos::atan2(y, x)`. -/
noncomputable def atan2 (y x : ℝ) : ℝ := Complex.arg ⟨x, y⟩

open Classical in
/-- src/setups/gresho_vortex/setup.hpp 73-101; two dimensions, as asserted (62). -/
noncomputable def greshoInit (eos : SetupEos) (rho0 u0 Ma : ℝ) (g : GridData ℝ) : InitKernel 2 n := fun c s => do
  let x ← (g.xc 0).rd (c 0)
  let y ← (g.xc 1).rd (c 1)
  let r := Real.sqrt (x * x + y * y)
  let theta := atan2 y x
  let P0 := 1 / (eos.gamma * Ma * Ma)
  if r < 0.2 then
    let ut := 5 * r
    return { s with rho := rho0, u := ![-ut * Real.sin theta, ut * Real.cos theta], P := P0 + 12.5 * r * r }
  else if r < 0.4 then
    let ut := 2 - 5 * r
    return { s with rho := rho0, u := ![-ut * Real.sin theta, ut * Real.cos theta]
                    P := P0 + 12.5 * r * r + 4 - 20 * r + 4 * Real.log (5 * r) }
  else return { s with rho := rho0, u := fun _ => u0, P := P0 - 2 + 4 * Real.log 2 }

/-- src/setups/kelvin_helmholtz/setup.hpp 62-84; two dimensions, as asserted (55). -/
noncomputable def kelvinHelmholtzInit (P0 : ℝ) (g : GridData ℝ) : InitKernel 2 n := fun c s => do
  let drhoRho : ℝ := 1
  let a : ℝ := 0.05
  let amp : ℝ := 0.01
  let sigma : ℝ := 0.2
  let y1 : ℝ := 0.5
  let y2 : ℝ := 1.5
  let x ← (g.xc 0).rd (c 0)
  let y ← (g.xc 1).rd (c 1)
  return { s with
    rho := 1 + drhoRho * (Real.tanh ((y - y1) / a) - Real.tanh ((y - y2) / a))
    u := ![1 * (Real.tanh ((y - y1) / a) - Real.tanh ((y - y2) / a)),
      amp * Real.sin (Real.pi * x) *
        (Real.exp (-(y - y1) * (y - y1) / (sigma * sigma)) + Real.exp (-(y - y2) * (y - y2) / (sigma * sigma)))]
    P := P0 }

/-- src/setups/rayleigh_taylor/setup.hpp 69-94; two dimensions and one scalar, as asserted (66-67). -/
noncomputable def rayleighTaylorInit (rho0 rho1 u fx0 fx1 : ℝ) (g : GridData ℝ) (grav : GravField 2 ℝ) : InitKernel 2 1 :=
  fun c _ => do
    let P0 : ℝ := 10 / 7 + 1 / 4
    let width : ℝ := 0.005
    let x ← (g.xc 0).rd (c 0)
    let y ← (g.xc 1).rd (c 1)
    let gy ← grav c 1
    let h := 0.01 * Real.cos (4 * Real.pi * x)
    return { rho := rho1 + (rho0 - rho1) / 2 * (1 + Real.tanh ((y - h) / width))
             fx := fun _ => (fx0 - fx1) / 2 * (1 + Real.tanh ((y - h) / width))
             u := fun _ => u
             P := P0 - rho0 * |gy| * y }

/-- src/setups/rayleigh_taylor3d/setup.hpp 118-137: the height `h` of the interface. `rnd` are the four random numbers drawn by
rank 0 and broadcast (72-91). -/
noncomputable def rt3dHeight (rnd : Fin 4 → ℝ) (x y : ℝ) : ℝ :=
  let L : ℝ := 10
  let X := 2 * Real.pi * x / L
  let Y := 2 * Real.pi * y / L
  (List.range 5).foldl (fun h (kx : ℕ) => (List.range 5).foldl (fun h (ky : ℕ) =>
    let K := kx * kx + ky * ky
    if K ≥ 8 ∧ K ≤ 16 then
      h + (rnd 0 * Real.cos (kx * X) * Real.cos (ky * Y) + rnd 1 * Real.cos (kx * X) * Real.sin (ky * Y) +
        rnd 2 * Real.sin (kx * X) * Real.cos (ky * Y) + rnd 3 * Real.sin (kx * X) * Real.sin (ky * Y))
    else h) h) 0

open Classical in
/-- src/setups/rayleigh_taylor3d/setup.hpp 98-162; three dimensions and one scalar, as asserted (69-70; the array `gravity` has an
entry 2 only in three dimensions). `Kokkos::pow` of a negative number with a non-integer exponent is NaN, `Real.rpow` is not: the
theorems assume the bases to be positive. -/
noncomputable def rt3dInit (rho0 rho1 u0 : ℝ) (rnd : Fin 4 → ℝ) (g : GridData ℝ) (grav : GravField 3 ℝ) : InitKernel 3 1 :=
  fun c _ => do
    let L : ℝ := 10
    let gamma : ℝ := 5 / 3
    let gz ← grav c 2
    let P0 := 2 * Real.pi * (rho0 + rho1) * |gz| * L
    let x ← (g.x 0).rd (c 0)
    let y ← (g.x 1).rd (c 1)
    let z ← (g.x 2).rd (c 2)
    let h := rt3dHeight rnd x y
    if z ≥ h then
      let rho := rho0 * (1 - (gamma - 1) / gamma * (rho0 * |gz| * z) / P0) ^ (1 / (gamma - 1))
      return { rho := rho, P := P0 * (rho / rho0) ^ gamma, fx := fun _ => 1, u := fun _ => u0 }
    else
      let rho := rho1 * (1 - (gamma - 1) / gamma * (rho1 * |gz| * z) / P0) ^ (1 / (gamma - 1))
      return { rho := rho, P := P0 * (rho / rho1) ^ gamma, fx := fun _ => 0, u := fun _ => u0 }

/-- src/setups/stratified_atm/setup.hpp 80-96. -/
noncomputable def stratifiedInit (eos : SetupEos) (rho0 u0 T0 : ℝ) (g : GridData ℝ) (grav : GravField (d + 1) ℝ) :
    InitKernel (d + 1) n := fun c s => do
  let gx ← grav c 0
  let x0 := kB * T0 / (eos.mmw * mP * |gx|)
  let x ← (g.xc 0).rd (c 0)
  let rho := rho0 * Real.exp (-x / x0)
  return { s with rho := rho, u := fun _ => u0, P := eos.presFromTemp rho T0 }

/-- src/setups/eq_hydro_sphe/setup.hpp 72-89. -/
noncomputable def eqHydroInit (eos : SetupEos) (rho0 u0 T0 M : ℝ) (g : GridData ℝ) : InitKernel d n := fun c s => do
  let x0 := kB * T0 / (eos.mmw * mP * gravG * M)
  let x ← (g.xc 0).rd (c 0)
  let rho := rho0 * Real.exp (1 / (x * x0))
  return { s with rho := rho, u := fun _ => u0, P := eos.presFromTemp rho T0 }

/-- src/setups/heat_nickel/setup.hpp 72-82; one scalar, as asserted (64). -/
noncomputable def heatNickelInit (eos : SetupEos) (rho0 u0 T0 fx0 : ℝ) : InitKernel d 1 := fun _ _ =>
  some { rho := rho0, P := eos.presFromTemp rho0 T0, u := fun _ => u0, fx := fun _ => fx0 }

/-- src/setups/sedov1d/setup.hpp 67-101. `rank` is `grid.mpi_rank`. -/
noncomputable def sedov1dInit (eos : SetupEos) (geom : Geom) (rank : ℤ) (rho0 u0 E0 E1 : ℝ) (g : GridData ℝ) : InitKernel d n :=
  fun c s => do
    let alpha : ℝ := if geom = .cartesian then 0.5 else 1
    let dvBeg ← g.dv.rd ![2, 0, 0]
    let P := eos.presFromTemp rho0 (eos.tempFromEvol rho0 (E0 / dvBeg))
    let P := if rank = 0 ∧ c 0 = 2 then eos.presFromTemp rho0 (eos.tempFromEvol rho0 (alpha * E1 / dvBeg)) else P
    return { s with rho := rho0, u := fun _ => u0, P := P }

open Classical in
/-- src/setups/sedov2d/setup.hpp 74-102: the loop body. -/
noncomputable def sedov2dKernel (eos : SetupEos) (rho0 u0 E0 E1 : ℝ) (g : GridData ℝ) : InitKernel d n := fun c s => do
  let rmin : ℝ := 0.025
  let x ← (g.x 0).rd (c 0)
  let y ← (g.x 1).rd (c 1)
  let r := Real.sqrt (x * x + y * y)
  let dv ← g.dv.rd c
  let P := if r < rmin then eos.presFromEvol rho0 (E1 / dv) else eos.presFromEvol rho0 (E0 / dv)
  return { s with rho := rho0, u := fun _ => u0, P := P }

/-- src/setups/sedov2d/setup.hpp 70-72: spherical coordinates are refused. -/
noncomputable def sedov2dInit (geom : Geom) (eos : SetupEos) (rho0 u0 E0 E1 : ℝ) (g : GridData ℝ) : Except String (InitKernel d n) :=
  if geom = .spherical then .error "No Sedov 2D in spherical geometry implemented" else .ok (sedov2dKernel eos rho0 u0 E0 E1 g)

open Classical in
/-- src/setups/sedov3d/setup.hpp 66-92: the loop body. `nxGlob` is `grid.Nx_glob_ng`. The volume is read in the perturbed cell only. -/
noncomputable def sedov3dKernel (eos : SetupEos) (nxGlob : Cell) (rho0 P0 E1 : ℝ) (g : GridData ℝ) : InitKernel d n := fun c s => do
  let ny2 := (nxGlob 1).tdiv 2
  let nz2 := (nxGlob 2).tdiv 2
  let r ← (g.x 0).rd (c 0)
  let P ← if r = 1 ∧ c 1 = ny2 ∧ c 2 = nz2 then do
      let dv ← g.dv.rd c
      some (eos.presFromEvol rho0 (E1 / dv))
    else some P0
  return { s with rho := rho0, u := fun _ => 0, P := P }

/-- src/setups/sedov3d/setup.hpp 73-75: Cartesian coordinates are refused. -/
noncomputable def sedov3dInit (geom : Geom) (eos : SetupEos) (nxGlob : Cell) (rho0 P0 E1 : ℝ) (g : GridData ℝ) :
    Except String (InitKernel d n) :=
  if geom = .cartesian then .error "No Sedov 3D in Cartesian implemented" else .ok (sedov3dKernel eos nxGlob rho0 P0 E1 g)

/-- src/setups/stratified_atm/setup.hpp 118-160: `BoundarySetup::execute` on direction `a` and face `face`, executed in the order `l`
(a schedule of the ghost slab, 130-142, see `slabBegin`). No passive scalar, as asserted (128). -/
noncomputable def stratifiedBc (eos : SetupEos) (rho0 u0 T0 : ℝ) (g : GridData ℝ) (grav : GravField (d + 1) ℝ) (l : List Cell)
    (v : View Cell (Fields (d + 1) 0 ℝ)) : Option (View Cell (Fields (d + 1) 0 ℝ)) :=
  parFor l (fun c v => do
    let s ← v.rd c
    let gx ← grav c 0
    let x0 := kB * T0 / (eos.mmw * mP * |gx|)
    let x ← (g.xc 0).rd (c 0)
    let rho := rho0 * Real.exp (-x / x0)
    v.wr c { s with rho := rho, rhou := fun _ => rho0 * u0, E := eos.evolFromTemp rho T0 }) v

/-- src/setups/eq_hydro_sphe/setup.hpp 111-151. -/
noncomputable def eqHydroBc (eos : SetupEos) (rho0 u0 T0 M : ℝ) (g : GridData ℝ) (l : List Cell) (v : View Cell (Fields d 0 ℝ)) :
    Option (View Cell (Fields d 0 ℝ)) :=
  parFor l (fun c v => do
    let s ← v.rd c
    let x0 := kB * T0 / (eos.mmw * mP * gravG * M)
    let x ← (g.xc 0).rd (c 0)
    let rho := rho0 * Real.exp (1 / (x * x0))
    v.wr c { s with rho := rho, rhou := fun _ => rho0 * u0, E := eos.evolFromTemp rho T0 }) v

/-- What an initialisation depends on besides its parameters: `grid.mpi_rank`, the topology and the arrays of the grid of the rank, the
gravity (src/initialization_interface.hpp 33-40 and the constructors of the setups). -/
abbrev Setup (d n : ℕ) := ℤ → GridTopo → GridData ℝ → GravField d ℝ → InitKernel d n

/-- src/main.cpp 264 and 305 on one rank: the arrays are allocated with zeros (187-192), the initialisation fills the interior of `rho`,
`u`, `P`, `fx` in the order `l`, the conversion fills the interior of `rhou`, `E` in the order `l'`. -/
noncomputable def initFields (eos : EoS ℝ) (l l' : List Cell) (k : InitKernel d n) (ext : Cell) : Option (View Cell (Fields d n ℝ)) := do
  let v ← initLoop l k ⟨inExt ext, fun _ => ⟨0, 0, 0, 0⟩⟩
  let me ← convPrimToCons eos l' (v.comp fun s => s.rho) (v.comp fun s => ⟨s.u, s.P⟩) ⟨inExt ext, fun _ => ⟨0, 0⟩⟩
  some ⟨inExt ext, fun c => ⟨(v.val c).rho, (me.val c).rhou, (me.val c).E, (v.val c).fx⟩⟩

end Heracles

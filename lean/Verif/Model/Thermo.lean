import Mathlib.Analysis.SpecialFunctions.Pow.Real
import Mathlib.Analysis.Real.Pi.Bounds
import Mathlib.Analysis.SpecialFunctions.Sqrt

/-!
# Equations of state

Models of `src/thermodynamics/perfect_gas.{hpp,cpp}`, `src/thermodynamics/rad_gas.{hpp,cpp}` and of the
constants they use from `src/units/units.hpp`. `double` is `ℝ` except in the constructors, where
infinities and NaN are represented.
-/

namespace Heracles

/-- The equation of state as seen by the hydrodynamics (`concepts::EulerEoS`,
src/hydro/concepts.hpp 26-31): the functions called by the kernels. -/
structure EoS (K : Type) where
  evolFromPres : K → K → K
  presFromEvol : K → K → K
  sound : K → K → K

/-- src/units/units.hpp 60. -/
noncomputable def kB : ℝ := 1.380649e-23
/-- src/units/units.hpp 61. -/
noncomputable def mP : ℝ := 1.672649e-27
/-- src/units/units.hpp 62. -/
noncomputable def cLight : ℝ := 2.99792458e8
/-- src/units/units.hpp 64. -/
noncomputable def hPlanck : ℝ := 6.62607015e-34
/-- src/units/units.hpp 69-75: radiative constant. -/
noncomputable def aR : ℝ := (8 * Real.pi ^ 5 * kB ^ 4) / (15 * hPlanck ^ 3 * cLight ^ 3)

/-- A `double` argument: a real, an infinity, or NaN. Used for argument checks only. -/
inductive Dbl
  | fin (x : ℝ)
  | inf (negative : Bool)
  | nan

/-- `Kokkos::isfinite`. -/
def Dbl.isFinite : Dbl → Prop
  | .fin _ => True
  | _ => False

/-- IEEE `x <= y` against a finite constant: false for NaN. -/
def Dbl.leConst : Dbl → ℝ → Prop
  | .fin x, y => x ≤ y
  | .inf neg, _ => neg = true
  | .nan, _ => False

/-- The real value of a finite argument. -/
def Dbl.toReal : Dbl → ℝ
  | .fin x => x
  | _ => 0

/-- Members of `PerfectGas` / `RadGas` (src/thermodynamics/perfect_gas.hpp 19-21, rad_gas.hpp 20-22). -/
structure Gas where
  gamma : ℝ
  gammaM1 : ℝ
  mmw : ℝ

open Classical in
/-- src/thermodynamics/perfect_gas.cpp 13-22 and src/thermodynamics/rad_gas.cpp 13-22: the constructors are
identical. -/
noncomputable def Gas.mk? (gamma mmw : Dbl) : Except String Gas :=
  if ¬ gamma.isFinite ∨ gamma.leConst 1 then .error "Invalid gamma"
  else if ¬ mmw.isFinite ∨ mmw.leConst 0 then .error "Invalid mmw"
  else .ok { gamma := gamma.toReal, gammaM1 := gamma.toReal - 1, mmw := mmw.toReal }

namespace PerfectGas

/-- src/thermodynamics/perfect_gas.hpp 52-56. -/
noncomputable def evolFromTemp (g : Gas) (rho T : ℝ) : ℝ := rho * kB * T / (g.mmw * mP * g.gammaM1)

/-- src/thermodynamics/perfect_gas.hpp 69-72. -/
noncomputable def tempFromPres (g : Gas) (rho P : ℝ) : ℝ := P * g.mmw * mP / (rho * kB)

/-- src/thermodynamics/perfect_gas.hpp 46-50. -/
noncomputable def evolFromPres (g : Gas) (rho P : ℝ) : ℝ := evolFromTemp g rho (tempFromPres g rho P)

/-- src/thermodynamics/perfect_gas.hpp 64-67. -/
noncomputable def presFromTemp (g : Gas) (rho T : ℝ) : ℝ := rho * kB * T / (g.mmw * mP)

/-- src/thermodynamics/perfect_gas.hpp 74-78. -/
noncomputable def tempFromEvol (g : Gas) (rho evol : ℝ) : ℝ := evol * g.mmw * mP * g.gammaM1 / (rho * kB)

/-- src/thermodynamics/perfect_gas.hpp 58-62. -/
noncomputable def presFromEvol (g : Gas) (rho evol : ℝ) : ℝ := presFromTemp g rho (tempFromEvol g rho evol)

/-- src/thermodynamics/perfect_gas.hpp 80-83. -/
noncomputable def soundSpeed (g : Gas) (rho P : ℝ) : ℝ := Real.sqrt (g.gamma * P / rho)

/-- The perfect gas as an equation of state of the hydrodynamics. -/
noncomputable def toEoS (g : Gas) : EoS ℝ where
  evolFromPres := evolFromPres g
  presFromEvol := presFromEvol g
  sound := soundSpeed g

end PerfectGas

/-- State at the end of the Newton loop of the radiative gas. -/
structure NewtonOut where
  T : ℝ
  itr : ℕ
  delta : ℝ

/-- The Newton loop (src/thermodynamics/rad_gas.hpp 84-94 and 114-124). `fuel` iterations remain, `i` is
the loop counter, `out` the variables `T`, `itr`, `delta_T`. In exact real arithmetic `delta_T` is never
NaN. -/
noncomputable def newtonLoop (f df : ℝ → ℝ) (tol : ℝ) : ℕ → ℕ → NewtonOut → NewtonOut
  | 0, _, out => out
  | fuel + 1, i, out =>
    let delta := -f out.T / df out.T
    let out' : NewtonOut := { T := out.T + delta, itr := i, delta := delta }
    if |delta| ≤ tol then out' else newtonLoop f df tol fuel (i + 1) out'

namespace RadGas

/-- src/thermodynamics/rad_gas.hpp 74, 103. -/
def maxItr : ℕ := 100

/-- src/thermodynamics/rad_gas.hpp 75, 104. -/
noncomputable def tolNewton : ℝ := 1e-6

/-- src/thermodynamics/rad_gas.hpp 53-58. -/
noncomputable def evolFromTemp (g : Gas) (rho T : ℝ) : ℝ :=
  rho * kB * T / (g.mmw * mP * g.gammaM1) + aR * (T * T * T * T)

/-- src/thermodynamics/rad_gas.hpp 66-70. -/
noncomputable def presFromTemp (g : Gas) (rho T : ℝ) : ℝ :=
  rho * kB * T / (g.mmw * mP) + aR * (T * T * T * T) / 3

/-- src/thermodynamics/rad_gas.hpp 78-94 (and 108-124): the Newton iteration for
`A * T^4 + C * T = Y`, from the larger of the two pure-gas and pure-radiation temperatures. -/
noncomputable def newton (A C Y : ℝ) : NewtonOut :=
  let Tg := Y / C
  let Tr := (Y / A) ^ (1 / 4 : ℝ)
  let T0 := if Tr > Tg then Tr else Tg
  newtonLoop (fun T => A * (T * T * T) * T + C * T - Y) (fun T => 4 * A * (T * T * T) + C) tolNewton
    maxItr 0 { T := T0, itr := 0, delta := 0 }

/-- src/thermodynamics/rad_gas.hpp 95-97 (and 125-127): is the "No convergence" message printed? -/
def warns (o : NewtonOut) : Prop := o.itr = maxItr ∧ |o.delta| > tolNewton

/-- src/thermodynamics/rad_gas.hpp 72-99: `(ar * T3 * T / 3) + (C1 * T) - P` is written with
`A = ar / 3`. -/
noncomputable def tempFromPresOut (g : Gas) (rho P : ℝ) : NewtonOut :=
  newton (aR / 3) (rho * kB / (g.mmw * mP)) P

/-- src/thermodynamics/rad_gas.hpp 98. -/
noncomputable def tempFromPres (g : Gas) (rho P : ℝ) : ℝ := (tempFromPresOut g rho P).T

/-- src/thermodynamics/rad_gas.hpp 101-129. -/
noncomputable def tempFromEvolOut (g : Gas) (rho evol : ℝ) : NewtonOut :=
  newton aR (rho * kB / (g.mmw * mP * g.gammaM1)) evol

/-- src/thermodynamics/rad_gas.hpp 128. -/
noncomputable def tempFromEvol (g : Gas) (rho evol : ℝ) : ℝ := (tempFromEvolOut g rho evol).T

/-- src/thermodynamics/rad_gas.hpp 47-51. -/
noncomputable def evolFromPres (g : Gas) (rho P : ℝ) : ℝ := evolFromTemp g rho (tempFromPres g rho P)

/-- src/thermodynamics/rad_gas.hpp 60-64. -/
noncomputable def presFromEvol (g : Gas) (rho evol : ℝ) : ℝ := presFromTemp g rho (tempFromEvol g rho evol)

/-- src/thermodynamics/rad_gas.hpp 133-141: square of the sound speed, as a function of the
temperature. -/
noncomputable def soundArg (g : Gas) (rho T : ℝ) : ℝ :=
  let Pg := rho * kB * T / (g.mmw * mP)
  let T4 := T * T * T * T
  let Pr := aR * T4 / 3
  let alpha := Pr / Pg
  let num := g.gamma / (g.gamma - 1) + 20 * alpha + 16 * alpha * alpha
  let den := 1 / (g.gamma - 1) + 12 * alpha
  num / den * Pg / rho

/-- src/thermodynamics/rad_gas.hpp 131-142. -/
noncomputable def soundSpeed (g : Gas) (rho P : ℝ) : ℝ := Real.sqrt (soundArg g rho (tempFromPres g rho P))

end RadGas

end Heracles

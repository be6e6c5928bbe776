import Verif.Model.Mesh
import Verif.Model.Thermo
import Mathlib.Algebra.BigOperators.Fin
import Mathlib.Algebra.Order.Field.Basic

/-!
# Euler equations: states, conversions, fluxes, array conversions

Models of `src/hydro/euler_equations.hpp` and `src/hydro/array_conversion.hpp`. `Kokkos::Array<double, ndim>`
is `Fin d → K`; `int locdim` (asserted to be in `[0, ndim)`) is `a : Fin d`. Accumulation loops over
`idim` are written as finite sums.
-/

namespace Heracles

variable {d : ℕ} {K : Type}

/-- src/hydro/euler_equations.hpp 20-25. -/
@[ext] structure Cons (d : ℕ) (K : Type) where
  rho : K
  rhou : Fin d → K
  E : K

/-- src/hydro/euler_equations.hpp 27-32. -/
@[ext] structure Flux (d : ℕ) (K : Type) where
  rho : K
  rhou : Fin d → K
  E : K

/-- src/hydro/euler_equations.hpp 34-39. -/
@[ext] structure Prim (d : ℕ) (K : Type) where
  rho : K
  u : Fin d → K
  P : K

section
variable [Field K]

/-- src/hydro/euler_equations.hpp 41-49. -/
def Cons.ek (c : Cons d K) : K := (∑ i, c.rhou i * c.rhou i) / c.rho / 2

/-- src/hydro/euler_equations.hpp 51-59. -/
def Prim.ek (p : Prim d K) : K := p.rho * (∑ i, p.u i * p.u i) / 2

/-- src/hydro/euler_equations.hpp 61-65. -/
def Cons.evol (c : Cons d K) : K := c.E - c.ek

/-- src/hydro/euler_equations.hpp 72-86: flux from a primitive state. -/
def fluxPrim (eos : EoS K) (p : Prim d K) (a : Fin d) : Flux d K :=
  let E := p.ek + eos.evolFromPres p.rho p.P
  let rhou : Fin d → K := fun i => p.rho * p.u a * p.u i
  { rho := p.rho * p.u a
    rhou := Function.update rhou a (rhou a + p.P)
    E := p.u a * (E + p.P) }

/-- src/hydro/euler_equations.hpp 93-109: flux from a conservative state. -/
def fluxCons (eos : EoS K) (c : Cons d K) (a : Fin d) : Flux d K :=
  let evol := c.evol
  let P := eos.presFromEvol c.rho evol
  let u := c.rhou a / c.rho
  let rhou : Fin d → K := fun i => u * c.rhou i
  { rho := u * c.rho
    rhou := Function.update rhou a (rhou a + P)
    E := u * (c.E + P) }

/-- src/hydro/euler_equations.hpp 111-122. -/
def toPrim (eos : EoS K) (c : Cons d K) : Prim d K :=
  { rho := c.rho, u := fun i => c.rhou i / c.rho, P := eos.presFromEvol c.rho c.evol }

/-- src/hydro/euler_equations.hpp 124-134. -/
def toCons (eos : EoS K) (p : Prim d K) : Cons d K :=
  { rho := p.rho, rhou := fun i => p.rho * p.u i, E := eos.evolFromPres p.rho p.P + p.ek }

/-- What `conv_prim_to_cons` writes in a cell: `rhou` and `E`. -/
@[ext] structure MomEn (d : ℕ) (K : Type) where
  rhou : Fin d → K
  E : K

/-- What `conv_cons_to_prim` writes in a cell: `u` and `P`. -/
@[ext] structure VelPres (d : ℕ) (K : Type) where
  u : Fin d → K
  P : K

/-- src/hydro/array_conversion.hpp 32-63 (and 73-97, which only splits the 4D views into components). The
loop over `cell_mdrange(range)` runs in the order `l`. `u`, `P` are packed in one view, `rhou`, `E` in
another; extents are asserted equal (42-44) but views keep their own domain here. -/
def convPrimToCons (eos : EoS K) (l : List Cell) (rho : View Cell K) (up : View Cell (VelPres d K))
    (out : View Cell (MomEn d K)) : Option (View Cell (MomEn d K)) :=
  parFor l (fun c out => do
    let r ← rho.rd c
    let q ← up.rd c
    let s := toCons eos { rho := r, u := q.u, P := q.P }
    out.wr c { rhou := s.rhou, E := s.E }) out

/-- src/hydro/array_conversion.hpp 107-138 (and 148-172). -/
def convConsToPrim (eos : EoS K) (l : List Cell) (rho : View Cell K) (me : View Cell (MomEn d K))
    (out : View Cell (VelPres d K)) : Option (View Cell (VelPres d K)) :=
  parFor l (fun c out => do
    let r ← rho.rd c
    let q ← me.rd c
    let s := toPrim eos { rho := r, rhou := q.rhou, E := q.E }
    out.wr c { u := s.u, P := s.P }) out

end

/-- Laws of the equation of state used by the hydrodynamics theorems; proved for the perfect gas in
`Verif/Lemmas/Euler.lean`. -/
structure EoS.Lawful [Field K] [LinearOrder K] (eos : EoS K) : Prop where
  pres_evol : ∀ rho P, 0 < rho → eos.presFromEvol rho (eos.evolFromPres rho P) = P
  evol_pres : ∀ rho e, 0 < rho → eos.evolFromPres rho (eos.presFromEvol rho e) = e
  sound_pos : ∀ rho P, 0 < rho → 0 < P → 0 < eos.sound rho P
  sound_sq : ∀ rho P, 0 < rho → 0 < P → P < rho * eos.sound rho P ^ 2

end Heracles

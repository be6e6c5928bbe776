import Verif.Model.Scheme
import Verif.Spec.Euler

/-!
# Specification: the same data in other units
-/

namespace Heracles

variable {d n : ℕ} {K : Type}

/-- Factors of a change of units: a length, a time and a density of 1 become `len`, `time` and `dens`. -/
structure Units (K : Type) where
  len : K
  time : K
  dens : K

section
variable [Field K]

/-- Factor of velocities. -/
def Units.vel (k : Units K) : K := k.len / k.time

/-- Factor of momenta per volume and of mass fluxes. -/
def Units.mom (k : Units K) : K := k.dens * k.vel

/-- Factor of pressures and of energies per volume. -/
def Units.pres (k : Units K) : K := k.dens * k.vel ^ 2

/-- Factor of accelerations. -/
def Units.acc (k : Units K) : K := k.len / k.time ^ 2

/-- The factors are positive. -/
structure Units.Pos [LinearOrder K] (k : Units K) : Prop where
  len : 0 < k.len
  time : 0 < k.time
  dens : 0 < k.dens

/-- A state in the new units. -/
def Cons.scale (k : Units K) (c : Cons d K) : Cons d K := { rho := k.dens * c.rho, rhou := fun i => k.mom * c.rhou i, E := k.pres * c.E }
@[inherit_doc Cons.scale] def Prim.scale (k : Units K) (p : Prim d K) : Prim d K := { rho := k.dens * p.rho, u := fun i => k.vel * p.u i, P := k.pres * p.P }
@[inherit_doc Cons.scale] def VelPres.scale (k : Units K) (q : VelPres d K) : VelPres d K := { u := fun i => k.vel * q.u i, P := k.pres * q.P }
/-- A flux in the new units. -/
def Flux.scale (k : Units K) (f : Flux d K) : Flux d K :=
  { rho := k.mom * f.rho, rhou := fun i => k.pres * f.rhou i, E := k.pres * k.vel * f.E }
/-- The fields of a cell in the new units; fractions have none. -/
def Fields.scale (k : Units K) (f : Fields d n K) : Fields d n K :=
  { rho := k.dens * f.rho, rhou := fun i => k.mom * f.rhou i, E := k.pres * f.E, fx := f.fx }

/-- `eos'` is the same gas in the new units. -/
structure EoS.Rescaled (k : Units K) (eos eos' : EoS K) : Prop where
  evol : ∀ rho P, eos'.evolFromPres (k.dens * rho) (k.pres * P) = k.pres * eos.evolFromPres rho P
  pres : ∀ rho e, eos'.presFromEvol (k.dens * rho) (k.pres * e) = k.pres * eos.presFromEvol rho e
  sound : ∀ rho P, eos'.sound (k.dens * rho) (k.pres * P) = k.vel * eos.sound rho P

/-- Factor of the coordinate `a`: angles have no unit. -/
def Units.axis (k : Units K) (geom : Geom) (a : Fin 3) : K := if geom = .spherical ∧ a ≠ 0 then 1 else k.len

end

end Heracles

import Verif.Model.Euler

/-!
# Specification: Euler fluxes, jump relations, mirror images

Textbook notions, independent of the model's functions (only the state structures are shared).
-/

namespace Heracles

variable {d : ℕ} {K : Type} [Field K]

/-- Textbook Euler flux in direction `a` of a state with density `rho`, momentum `m`, total energy `E` and
pressure `P`: `(m_a, m_a m_i / rho + δ_ia P, (E + P) m_a / rho)`. Specification, independent of the model. -/
def eulerFlux (rho : K) (m : Fin d → K) (E P : K) (a : Fin d) : Flux d K :=
  { rho := m a, rhou := fun i => m a * m i / rho + if i = a then P else 0, E := (E + P) * (m a / rho) }

/-- Rankine-Hugoniot relation for a discontinuity of speed `S` between the states `U`, `U'` of fluxes `F`, `F'`:
`F' - F = S (U' - U)` for mass, momentum and energy. -/
def Jump (U U' : Cons d K) (F F' : Flux d K) (S : K) : Prop :=
  F'.rho - F.rho = S * (U'.rho - U.rho) ∧ (∀ i, F'.rhou i - F.rhou i = S * (U'.rhou i - U.rhou i)) ∧
    F'.E - F.E = S * (U'.E - U.E)

/-- Mirror image of a state in a wall normal to direction `a`: the normal momentum is reversed. -/
def Cons.mirror (c : Cons d K) (a : Fin d) : Cons d K :=
  { c with rhou := fun i => if i = a then -c.rhou i else c.rhou i }

/-- Mirror image of a flux through a face normal to `a`: mass, transverse momentum and energy change sign, the
normal momentum flux does not. -/
def Flux.mirror (f : Flux d K) (a : Fin d) : Flux d K :=
  { rho := -f.rho, rhou := fun i => if i = a then f.rhou i else -f.rhou i, E := -f.E }

/-- Velocity of a conservative state. -/
def Cons.vel (c : Cons d K) (i : Fin d) : K := c.rhou i / c.rho

/-- Internal energy per unit volume: total minus kinetic energy. -/
def Cons.eint (c : Cons d K) : K := c.E - (∑ i, c.rhou i ^ 2) / (2 * c.rho)

/-- Pressure of a conservative state. -/
def Cons.pressure (eos : EoS K) (c : Cons d K) : K := eos.presFromEvol c.rho c.eint

/-- Sound speed of a conservative state. -/
def Cons.cs (eos : EoS K) (c : Cons d K) : K := eos.sound c.rho (c.pressure eos)

/-- Physical flux of a conservative state. -/
def physFlux (eos : EoS K) (c : Cons d K) (a : Fin d) : Flux d K := eulerFlux c.rho c.rhou c.E (c.pressure eos) a

/-- A state is admissible if its density and pressure are positive. -/
def Cons.Adm [LinearOrder K] (eos : EoS K) (c : Cons d K) : Prop := 0 < c.rho ∧ 0 < c.pressure eos

/-- Equations of state whose signals are fast enough for the intermediate states: `P² < 2 rho e c²`, with `e` the
internal energy per unit volume. -/
def EoS.Fast [LinearOrder K] (eos : EoS K) : Prop :=
  ∀ rho P, 0 < rho → 0 < P → P ^ 2 < 2 * rho * eos.evolFromPres rho P * eos.sound rho P ^ 2

end Heracles

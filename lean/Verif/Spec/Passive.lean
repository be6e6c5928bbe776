import Verif.Model.Boundary

/-!
# Part of the mass fractions
-/

namespace Heracles

variable {d n m : ℕ} {K : Type}

/-- The fields with the mass fractions `σ 0`, `σ 1`, … only. -/
def Fields.pick (f : Fields d n K) (σ : Fin m → Fin n) : Fields d m K := { rho := f.rho, rhou := f.rhou, E := f.E, fx := fun i => f.fx (σ i) }

/-- Two states of the same gas, with different mass fractions. -/
def SameFlow {n' : ℕ} (f : Fields d n K) (f' : Fields d n' K) : Prop := f.rho = f'.rho ∧ f.rhou = f'.rhou ∧ f.E = f'.E

end Heracles

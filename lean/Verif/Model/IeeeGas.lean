import Verif.Model.Ieee
import Verif.Model.DoubleArith

/-!
# The kernels of the code on IEEE `double`s, for the perfect gas
-/

namespace Heracles

/-- No trigonometric function is called on a Cartesian grid. -/
def noTrig : Trig Ieee := ⟨fun _ => Ieee.zero, fun _ => Ieee.zero, Ieee.zero⟩

/-- The perfect gas of src/thermodynamics/perfect_gas.{hpp,cpp} on `double`s, with the constants of src/units/units.hpp 60-61, `gamma = 1.4`
and the mean molecular weight 1. -/
def airGas : EoS Ieee :=
  letI := ieeeArith noTrig
  oPerfectGas Ieee.sqrt (.lit (1380649 / 10 ^ 29)) (.lit (1672649 / 10 ^ 33)) (.lit (14 / 10)) ((Ieee.lit (14 / 10)).sub (.lit 1)) (.lit 1)

/-- The kernels of the code for this gas, operation by operation, on `double`s. -/
def airKernels (d : ℕ) (lim : Limiter) (sol : Solver) : Kernels d 0 Ieee := @orderedKernels d 0 Ieee (ieeeArith noTrig) lim sol airGas .cartesian none

/-- The kernels of the code, operation by operation, on `double`s, for a gas `eos` on a Cartesian grid. -/
def bKernels (d : ℕ) (lim : Limiter) (sol : Solver) (eos : EoS Ieee) (fix : Option Ieee) : Kernels d 0 Ieee :=
  @orderedKernels d 0 Ieee (ieeeArith noTrig) lim sol eos .cartesian fix

end Heracles

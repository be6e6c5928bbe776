import Verif.Lemmas.Doubles
import Verif.Model.Ordered
import Verif.Model.Thermo

/-!
# The operations of the code on double precision numbers

`Arith` (Model/Ordered.lean) for the set of finite `double`s (Model/Doubles.lean): every operation rounds its exact result.
-/

namespace Heracles

/-- The numbers of the code: finite `double`s. -/
abbrev FinDbl : Type := { x : ℚ // IsDouble x }

/-- The operations of IEEE 754 on finite `double`s, rounding by `rnd`, without overflow and underflow. A division by zero, which
would give an infinity or NaN, gives 0 here. `sin`, `cos` and `pi` are parameters (the library functions of src/mesh/geometry.hpp and
src/hydro/source_terms.hpp). -/
@[reducible] def dblArith (rnd : ℚ → ℚ) (hr : Nearest rnd) (tr : Trig FinDbl) : Arith FinDbl where
  zero := ⟨0, isDouble_zero⟩
  add x y := ⟨rnd (x.1 + y.1), hr.double _⟩
  sub x y := ⟨rnd (x.1 - y.1), hr.double _⟩
  mul x y := ⟨rnd (x.1 * y.1), hr.double _⟩
  div x y := ⟨rnd (x.1 / y.1), hr.double _⟩
  neg x := ⟨-x.1, x.2.neg⟩
  lt x y := x.1 < y.1
  ltDec := fun x y => inferInstanceAs (Decidable (x.1 < y.1))
  lit m := ⟨rnd m, hr.double _⟩
  c11 := ⟨rnd (11 / 10), hr.double _⟩
  pi := tr.pi
  fabs x := ⟨|x.1|, by rcases abs_choice x.1 with h | h <;> rw [h]; exacts [x.2, x.2.neg]⟩
  fmin := min
  fmax := max
  sin := tr.sin
  cos := tr.cos

/-- src/thermodynamics/perfect_gas.hpp 46-83, operation by operation. `kb`, `mp` are the constants of src/units/units.hpp, `gm1` is
`m_gamma_m1`, `sqrt` the library function. -/
def oPerfectGas {F : Type} [Arith F] (sqrt : F → F) (kb mp gamma gm1 mmw : F) : EoS F where
  evolFromPres rho P :=
    let T := P * mmw * mp / (rho * kb)
    rho * kb * T / (mmw * mp * gm1)
  presFromEvol rho evol :=
    let T := evol * mmw * mp * gm1 / (rho * kb)
    rho * kb * T / (mmw * mp)
  sound rho P := sqrt (gamma * P / rho)

end Heracles

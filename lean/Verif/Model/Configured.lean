import Verif.Model.Param
import Verif.Model.Program

/-!
# The parameters of the whole run, from the configuration
-/

namespace Heracles

/-- src/main.cpp 354-529 uses of `param` and of the objects built from it: the parameters of `progRun`. The gas is the equation of state; what the
build chooses (geometry, setup conditions) and the constants of the machine are arguments. -/
noncomputable def RunConfig.prog {d : ℕ} (n : ℕ) (c : RunConfig d (EoS ℝ) ℝ) (tr : Trig ℝ) (geom : Geom) (lo top : ℝ) (user : UserBc d n ℝ) (temp : ℝ → ℝ → ℝ) :
    ProgParams d n :=
  { hydro := { lim := c.lim, sol := c.sol, eos := c.gas, tr := tr, geom := geom, lo := lo, policy := fun _ => 0, user := user, bcs := c.bcs, order := c.order }
    loop := c.loop, tIni := c.param.tIni, temp := temp, top := top, fix := c.fix, step := c.step }

end Heracles

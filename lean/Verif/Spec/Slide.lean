import Verif.Model.Program
import Verif.Spec.Ghost

/-!
# Specification: two runs, the second of which is displaced along one periodic axis
-/

namespace Heracles

variable {d n : ℕ}

/-- Cell `C'` displaced by `s` cells along axis `b`, counted around the `N` cells of this axis, is cell `C`. -/
def Slid (b : Fin 3) (N s : ℤ) (C C' : Cell) : Prop := C b % N = (C' b + s) % N ∧ ∀ a, a ≠ b → C a = C' a

/-- What the second file says of a cell, the first says of the cell displaced by `s` along axis `b`. -/
structure SlidFile (nx : Cell) (b : Fin 3) (s : ℤ) (f f' : LoopState (FluidFile d n) ℝ) : Prop where
  rho : ∀ g g', inBox 0 nx g → inBox 0 nx g' → Slid b (nx b) s g g' → f'.h.rho.val [g' 2, g' 1, g' 0] = f.h.rho.val [g 2, g 1, g 0]
  u : ∀ g g', inBox 0 nx g → inBox 0 nx g' → Slid b (nx b) s g g' → ∀ l, (f'.h.u l).val [g' 2, g' 1, g' 0] = (f.h.u l).val [g 2, g 1, g 0]
  P : ∀ g g', inBox 0 nx g → inBox 0 nx g' → Slid b (nx b) s g g' → f'.h.P.val [g' 2, g' 1, g' 0] = f.h.P.val [g 2, g 1, g 0]
  E : ∀ g g', inBox 0 nx g → inBox 0 nx g' → Slid b (nx b) s g g' → f'.h.E.val [g' 2, g' 1, g' 0] = f.h.E.val [g 2, g 1, g 0]
  T : ∀ g g', inBox 0 nx g → inBox 0 nx g' → Slid b (nx b) s g g' → f'.h.T.val [g' 2, g' 1, g' 0] = f.h.T.val [g 2, g 1, g 0]
  fx : ∀ g g', inBox 0 nx g → inBox 0 nx g' → Slid b (nx b) s g g' → ∀ l, (f'.h.fx l).val [g' 2, g' 1, g' 0] = (f.h.fx l).val [g 2, g 1, g 0]
  t : f'.t = f.t
  iter : f'.iter = f.iter
  outputId : f'.outputId = f.outputId
  iterId : f'.iterId = f.iterId
  timeId : f'.timeId = f.timeId

/-- The second run is the first one displaced by `s` cells along axis `b`, on all ranks, ghosts included. -/
structure SlidState (nx : Cell) (b : Fin 3) (s : ℤ) (ng : ℤ) (dims dims' : Cell) (z z' : ProgState d n) : Prop where
  status : z'.status = z.status
  t : z'.s.t = z.s.t
  iter : z'.s.iter = z.s.iter
  outputId : z'.s.outputId = z.s.outputId
  iterId : z'.s.iterId = z.s.iterId
  timeId : z'.s.timeId = z.s.timeId
  fluid : ∀ rank rank' c c', inBox 0 dims rank → inBox 0 dims' rank' →
    inExt (localExt nx dims (nghostOf d ng) rank) c = true → inExt (localExt nx dims' (nghostOf d ng) rank') c' = true →
    Slid b (nx b) s (globalOf nx dims (nghostOf d ng) rank c) (globalOf nx dims' (nghostOf d ng) rank' c') →
    z'.s.h.val rank' c' = z.s.h.val rank c
  files : List.Forall₂ (SlidFile nx b s) z.files z'.files

end Heracles

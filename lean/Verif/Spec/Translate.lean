import Verif.Model.Program
import Verif.Spec.Ghost

/-!
# Specification: two runs in a periodic box, the second of which is displaced
-/

namespace Heracles

variable {d n : ℕ}

/-- The second file is the first one displaced by `s` cells around the box of size `nx`: what the second says of cell `g`, the first says of
cell `g + s`, counted around the box. -/
structure ShiftedFile (nx s : Cell) (f f' : LoopState (FluidFile d n) ℝ) : Prop where
  rho : ∀ g g', inBox 0 nx g → inBox 0 nx g' → (∀ a, g a % nx a = (g' a + s a) % nx a) → f'.h.rho.val [g' 2, g' 1, g' 0] = f.h.rho.val [g 2, g 1, g 0]
  u : ∀ g g', inBox 0 nx g → inBox 0 nx g' → (∀ a, g a % nx a = (g' a + s a) % nx a) → ∀ l, (f'.h.u l).val [g' 2, g' 1, g' 0] = (f.h.u l).val [g 2, g 1, g 0]
  P : ∀ g g', inBox 0 nx g → inBox 0 nx g' → (∀ a, g a % nx a = (g' a + s a) % nx a) → f'.h.P.val [g' 2, g' 1, g' 0] = f.h.P.val [g 2, g 1, g 0]
  E : ∀ g g', inBox 0 nx g → inBox 0 nx g' → (∀ a, g a % nx a = (g' a + s a) % nx a) → f'.h.E.val [g' 2, g' 1, g' 0] = f.h.E.val [g 2, g 1, g 0]
  T : ∀ g g', inBox 0 nx g → inBox 0 nx g' → (∀ a, g a % nx a = (g' a + s a) % nx a) → f'.h.T.val [g' 2, g' 1, g' 0] = f.h.T.val [g 2, g 1, g 0]
  fx : ∀ g g', inBox 0 nx g → inBox 0 nx g' → (∀ a, g a % nx a = (g' a + s a) % nx a) → ∀ l, (f'.h.fx l).val [g' 2, g' 1, g' 0] = (f.h.fx l).val [g 2, g 1, g 0]
  t : f'.t = f.t
  iter : f'.iter = f.iter
  outputId : f'.outputId = f.outputId
  iterId : f'.iterId = f.iterId
  timeId : f'.timeId = f.timeId

/-- The second run is the first one displaced by `s` cells around the box, on all ranks, ghosts included. -/
structure ShiftedState (nx s : Cell) (ng : ℤ) (dims dims' : Cell) (z z' : ProgState d n) : Prop where
  status : z'.status = z.status
  t : z'.s.t = z.s.t
  iter : z'.s.iter = z.s.iter
  outputId : z'.s.outputId = z.s.outputId
  iterId : z'.s.iterId = z.s.iterId
  timeId : z'.s.timeId = z.s.timeId
  fluid : ∀ rank rank' c c', inBox 0 dims rank → inBox 0 dims' rank' →
    inExt (localExt nx dims (nghostOf d ng) rank) c = true → inExt (localExt nx dims' (nghostOf d ng) rank') c' = true →
    (∀ a, globalOf nx dims (nghostOf d ng) rank c a % nx a = (globalOf nx dims' (nghostOf d ng) rank' c' a + s a) % nx a) →
    z'.s.h.val rank' c' = z.s.h.val rank c
  files : List.Forall₂ (ShiftedFile nx s) z.files z'.files

end Heracles

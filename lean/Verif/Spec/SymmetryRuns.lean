import Verif.Model.Program
import Verif.Spec.Symmetry
import Verif.Spec.Ghost

/-!
# Specification: two runs, the second of which sees the axes of the first permuted or reversed
-/

namespace Heracles

variable {d n : ℕ}

/-- The choices of a run with permuted axes. -/
structure ProgParams.Permuted (σ : Equiv.Perm (Fin d)) (p p' : ProgParams d n) : Prop where
  lim : p'.hydro.lim = p.hydro.lim
  sol : p'.hydro.sol = p.hydro.sol
  eos : p'.hydro.eos = p.hydro.eos
  tr : p'.hydro.tr = p.hydro.tr
  lo : p'.hydro.lo = p.hydro.lo
  cart : p.hydro.geom = .cartesian
  cart' : p'.hydro.geom = .cartesian
  bcs : ∀ a f, p'.hydro.bcs (σ a) f = p.hydro.bcs a f
  loop : p'.loop = p.loop
  tIni : p'.tIni = p.tIni
  temp : p'.temp = p.temp
  fix : p'.fix = p.fix
  step : p'.step = p.step

/-- The choices of a run seen in a mirror. -/
structure ProgParams.Mirrored (b : Fin d) (p p' : ProgParams d n) : Prop where
  lim : p'.hydro.lim = p.hydro.lim
  sol : p'.hydro.sol = p.hydro.sol
  eos : p'.hydro.eos = p.hydro.eos
  tr : p'.hydro.tr = p.hydro.tr
  lo : p'.hydro.lo = p.hydro.lo
  cart : p.hydro.geom = .cartesian
  cart' : p'.hydro.geom = .cartesian
  bcs : ∀ a f, p'.hydro.bcs a f = p.hydro.bcs a (if a = b then f.rev else f)
  loop : p'.loop = p.loop
  tIni : p'.tIni = p.tIni
  temp : p'.temp = p.temp
  fix : p.fix = none
  fix' : p'.fix = none
  step : p'.step = p.step

/-- The components of a vector when what was along direction `a` is along direction `σ a`. -/
def permVec (σ : Equiv.Perm (Fin d)) (v : Fin d → ℝ) : Fin d → ℝ := fun i => v (σ.symm i)

/-- The components of a vector when direction `b` is reversed. -/
def flipVec (b : Fin d) (v : Fin d → ℝ) : Fin d → ℝ := fun i => if i = b then -v i else v i

/-- The second file is the first one seen differently: the cell `g` of the domain of the second run, of size `nx'`, is the cell `μ g` of the
first, the components of vectors are changed by `vec`. -/
structure SeenFile (μ : Cell → Cell) (vec : (Fin d → ℝ) → Fin d → ℝ) (nx' : Cell) (f f' : LoopState (FluidFile d n) ℝ) : Prop where
  rho : ∀ g, inBox 0 nx' g → f'.h.rho.val [g 2, g 1, g 0] = f.h.rho.val [μ g 2, μ g 1, μ g 0]
  u : ∀ g, inBox 0 nx' g → ∀ l, (f'.h.u l).val [g 2, g 1, g 0] = vec (fun l => (f.h.u l).val [μ g 2, μ g 1, μ g 0]) l
  P : ∀ g, inBox 0 nx' g → f'.h.P.val [g 2, g 1, g 0] = f.h.P.val [μ g 2, μ g 1, μ g 0]
  E : ∀ g, inBox 0 nx' g → f'.h.E.val [g 2, g 1, g 0] = f.h.E.val [μ g 2, μ g 1, μ g 0]
  T : ∀ g, inBox 0 nx' g → f'.h.T.val [g 2, g 1, g 0] = f.h.T.val [μ g 2, μ g 1, μ g 0]
  fx : ∀ g, inBox 0 nx' g → ∀ l, (f'.h.fx l).val [g 2, g 1, g 0] = (f.h.fx l).val [μ g 2, μ g 1, μ g 0]
  t : f'.t = f.t
  iter : f'.iter = f.iter
  outputId : f'.outputId = f.outputId
  iterId : f'.iterId = f.iterId
  timeId : f'.timeId = f.timeId

/-- The second run is the first one seen differently. Cells of any two ranks that represent `g` in the second run and `μ g` in the first,
ghosts included, hold the same densities, energies and scalars, and momenta whose components are changed by `vec`. -/
structure SeenState (μ : Cell → Cell) (vec : (Fin d → ℝ) → Fin d → ℝ) (nx nx' : Cell) (ng : ℤ) (dims dims' : Cell) (z z' : ProgState d n) : Prop where
  status : z'.status = z.status
  t : z'.s.t = z.s.t
  iter : z'.s.iter = z.s.iter
  outputId : z'.s.outputId = z.s.outputId
  iterId : z'.s.iterId = z.s.iterId
  timeId : z'.s.timeId = z.s.timeId
  fluid : ∀ rank rank' c c', inBox 0 dims rank → inBox 0 dims' rank' →
    inExt (localExt nx dims (nghostOf d ng) rank) c = true → inExt (localExt nx' dims' (nghostOf d ng) rank') c' = true →
    globalOf nx dims (nghostOf d ng) rank c = μ (globalOf nx' dims' (nghostOf d ng) rank' c') →
    (z'.s.h.val rank' c').rho = (z.s.h.val rank c).rho ∧ (z'.s.h.val rank' c').rhou = vec (z.s.h.val rank c).rhou ∧
    (z'.s.h.val rank' c').E = (z.s.h.val rank c).E ∧ (z'.s.h.val rank' c').fx = (z.s.h.val rank c).fx
  files : List.Forall₂ (SeenFile μ vec nx') z.files z'.files

end Heracles

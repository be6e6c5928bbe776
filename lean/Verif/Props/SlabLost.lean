import Verif.Props.MirrorLost
import Verif.Props.Locality

/-!
# C98: the pressure fix on a grid with cells of two sizes
-/

namespace Heracles

/-- A monatomic gas with density 1 and internal energy 1/1000: its speed of sound is exactly 1/30. -/
def coldGas : EoS ℚ := ⟨fun _ P => 3 / 2 * P, fun _ e => 2 / 3 * e, fun _ _ => 1 / 30⟩

/-- No circular functions are used on a Cartesian grid. -/
def ratTrig : Trig ℚ := ⟨fun _ => 0, fun _ => 0, 0⟩

/-- The kernels of the code in exact arithmetic, with the pressure fix at 1/10. -/
def coldKernels (lim : Limiter) (sol : Solver) : Kernels 2 0 ℚ := exactKernels lim sol coldGas ratTrig .cartesian (some (1 / 10))

/-- Nodes: cells of size 1, except along the second axis, where they have size 2 from node 4 on. -/
def twoSizes (a : Fin 3) (i : ℤ) : ℚ := if a = 1 then (if i ≤ 4 then i else 2 * i - 4) else i

/-- The gas moves with speed 1 along the first axis, everywhere. -/
def coldStream (_ : Cell) : Fields 2 0 ℚ := ⟨1, ![1, 0], 501 / 1000, Fin.elim0⟩

/-- A cell after one iteration with time step 1/4. -/
def coldStep (lim : Limiter) (sol : Solver) (C : Cell) : Fields 2 0 ℚ :=
  kStepVal (coldKernels lim sol) .cartesian (kGrid (coldKernels lim sol) .cartesian twoSizes (fun _ _ => 0)) (1 / 4) coldStream
    (kPrimGlob (coldKernels lim sol) coldStream) C

theorem coldStep_hot (lim : Limiter) (sol : Solver) : (coldStep lim sol ![2, 3, 0]).E = 501 / 1000 - 1 / 2400 := by
  cases lim <;> cases sol <;> decide +kernel

/-- **C98, with the pressure fix: violated on a grid with cells of two sizes.** A grid of 4 by 4 cells, regular along the first axis, with cells of size 1 and
then 2 along the second, periodic; a cold monatomic gas (density 1, internal energy 1/1000) that moves with speed 1 along the first axis, the same in all cells.
In exact arithmetic, with any limiter and any solver, the step with time step 1/4 loses 1/2400 of energy, that is more than a third of the internal
energy, in the cells before the change of size, on every decomposition; in one dimension the same stream does not change. The sums of the fix
multiply the velocity along one axis with the face areas at the next cell along another (src/hydro/pressure_fix.hpp 139-156). -/
theorem C98_fix_violated {lim : Limiter} {sol : Solver} {p : KernelParams 2 0 ℚ} (hk : p.k = coldKernels lim sol) (hgeom : p.geom = .cartesian)
    (hpol : ∀ x, p.policy [x] = 1 / 4) (hb : ∀ a f, p.bcs a f = .periodic) {order : List ℕ} (ho : ∀ id ∈ order, id < 2 * 2) (hpo : p.order = order.map some)
    {dims : Cell} {sched : Cell → Cell → List Cell} {grav : DistView (Fields 2 0 ℚ) → Cell → GravField 2 ℚ} {M : ℕ → Cell → RankMem 2 0 ℚ} {lf : ℕ → Cell → List Cell}
    (h : KDecomposition p ![4, 4, 1] 2 twoSizes (fun _ _ _ => 0) dims sched grav M lf) {D : DistView (Fields 2 0 ℚ)}
    (hext : ∀ rank, inBox 0 dims rank → D.ext rank = localExt ![4, 4, 1] dims (nghostOf 2 2) rank)
    (hint : ∀ rank, inBox 0 dims rank → ∀ c, inBox (nghostOf 2 2) (fun a => D.ext rank a - nghostOf 2 2 a) c →
      D.val rank c = coldStream (globalOf ![4, 4, 1] dims (nghostOf 2 2) rank c)) :
    ∃ R hist, kRun p sched (borderOf dims) (nghostOf 2 2) dims grav M lf D 1 = some (R, hist) ∧
      ∀ rank c, inBox 0 dims rank → inExt (localExt ![4, 4, 1] dims (nghostOf 2 2) rank) c = true →
        globalOf ![4, 4, 1] dims (nghostOf 2 2) rank c = ![0, 1, 0] → (R.val rank c).E = 501 / 1000 - 1 / 2400 := by
  have hb' : ∀ a f, p.bcs a f ≠ .userDefined := fun a f => by rw [hb]; exact fun h => by cases h
  obtain ⟨W, R, hist, e1, e2, e3, e4, e5⟩ := kRun_global (by norm_num) (by decide) (by norm_num) hb' ho hpo h hext hint 1
  refine ⟨R, hist, e1, fun rank c hr hc hin => ?_⟩
  have hin' : inBox 0 ![4, 4, 1] (globalOf ![4, 4, 1] dims (nghostOf 2 2) rank c) := by rw [hin]; decide
  have e : c + startCell ![4, 4, 1] dims rank = globalOf ![4, 4, 1] dims (nghostOf 2 2) rank c + nghostOf 2 2 := by
    funext a
    simp only [Pi.add_apply, globalOf, startCell]
    ring
  obtain ⟨x, rfl⟩ := List.length_eq_one_iff.1 e2
  rw [e3.val rank hr c hc, e, e5 0 (by norm_num)]
  unfold kIterGlob
  rw [bcGlob_inside p.bcs (by norm_num) (by norm_num) ho _ hin', e4, bcGlob_wrap hb, hk, hgeom]
  show (kStepVal (coldKernels lim sol) .cartesian (kGrid (coldKernels lim sol) .cartesian twoSizes fun _ _ => 0) (p.policy [x]) coldStream
    (kPrimGlob (coldKernels lim sol) coldStream) (globalOf ![4, 4, 1] dims (nghostOf 2 2) rank c + nghostOf 2 2)).E = _
  rw [hpol, hin, show ((![0, 1, 0] : Cell) + nghostOf 2 2) = ![2, 3, 0] by decide]
  exact coldStep_hot lim sol

/-- A decomposition of the grid in two, and the cell in it. -/
example (lim : Limiter) (sol : Solver) (user : UserBc 2 0 ℚ) :
    let p : KernelParams 2 0 ℚ := ⟨coldKernels lim sol, .cartesian, -1, fun _ => 1 / 4, user, fun _ _ => .periodic, [some 0, some 1, some 2, some 3]⟩
    (∃ M lf, KDecomposition p ![4, 4, 1] 2 twoSizes (fun _ _ _ => 0) ![2, 1, 1] boxList (fun _ _ _ _ => some 0) M lf) ∧
    globalOf ![4, 4, 1] ![2, 1, 1] (nghostOf 2 2) ![0, 0, 0] ![2, 3, 0] = ![0, 1, 0] := by
  refine ⟨exists_kDecomposition _ (by decide) (by decide) (by norm_num) ?_ _, by decide⟩
  intro a ha r h0 h1
  rw [localSize_eq (by fin_cases a <;> decide) (lt_of_le_of_lt h0 h1)]
  fin_cases a
  · simp [not_lt.2 h0]
  · simp [not_lt.2 h0]
  · simp at ha

end Heracles

import Verif.Props.SlabLost

/-!
# C102: in two dimensions the range is left
-/

namespace Heracles

/-- Values between 3/5 and 3/4 on a grid of 4 by 4 cells. -/
def cornerVal (g : Cell) : ℚ :=
  if g 0 = 1 ∧ g 1 = 1 then 7 / 10 else if (g 0 = 1 ∧ g 1 = 2) ∨ (g 0 = 0 ∧ g 1 = 1) then 3 / 5 else 3 / 4

theorem cornerVal_range (g : Cell) : 3 / 5 ≤ cornerVal g ∧ cornerVal g ≤ 3 / 4 := by
  unfold cornerVal
  split_ifs <;> norm_num

/-- A fluid of pressure 1/1000 that moves with velocity (1/16, 1) in all cells. Its density is 1 and a mass fraction has the values of `cornerVal`, or the density has these values. -/
def cornerFluid (dense : Bool) (g : Cell) : Fields 2 1 ℚ :=
  let r := if dense then cornerVal g else 1
  ⟨r, ![r / 16, r], 3 / 2000 + r * (1 + 1 / 256) / 2, fun _ => if dense then 1 / 2 else cornerVal g⟩

/-- The kernels of the code in exact arithmetic, with the solver HLLC, without the pressure fix. -/
def cornerKernels (lim : Limiter) : Kernels 2 1 ℚ := exactKernels lim .hllc coldGas ratTrig .cartesian none

/-- A cell after one iteration with time step 7/8 on cells of size 1. -/
def cornerStep (lim : Limiter) (dense : Bool) (C : Cell) : Fields 2 1 ℚ :=
  let W : Cell → Fields 2 1 ℚ := fun C => cornerFluid dense (wrap ![4, 4, 1] (C - nghostOf 2 2))
  kStepVal (cornerKernels lim) .cartesian (kGrid (cornerKernels lim) .cartesian (fun _ i => i) (fun _ _ => 0)) (7 / 8) W
    (kPrimGlob (cornerKernels lim) W) C

/-- The value that started as `cornerVal`. -/
def cornerRead (dense : Bool) (s : Fields 2 1 ℚ) : ℚ := if dense then s.rho else s.fx 0

theorem cornerStep_over (dense : Bool) : 3 / 4 < cornerRead dense (cornerStep .vanLeer dense ![4, 3, 0]) ∧ 3 / 4 < cornerRead dense (cornerStep .vanAlbada dense ![4, 3, 0]) := by
  cases dense <;> decide +kernel

/-- The time step respects the condition of the code: the inverse time step of every cell is less than 8/7. -/
theorem cornerRate : (|(1 / 16 : ℚ)| + 1 / 30) / 1 + (|(1 : ℚ)| + 1 / 30) / 1 < 8 / 7 := by norm_num

/-- **C102, in two dimensions: violated.** A periodic grid of 4 by 4 cells of size 1, a fluid in uniform motion with velocity (1/16, 1) and pressure 1/1000, a mass fraction
(or the density, `dense`) between 3/5 and 3/4. In exact arithmetic, with the limiters VanLeer and VanAlbada and the solver HLLC, one iteration with a time step
that respects the condition of the code puts the cell (2, 1) above 3/4, on every decomposition. The limiter bounds the slope along each axis, while the
prediction over half a time step (src/hydro/extrapolation_reconstruction.hpp 94-325) adds the slopes along all axes. -/
theorem C102_diagonal_violated {lim : Limiter} (hlim : lim = .vanLeer ∨ lim = .vanAlbada) {dense : Bool} {p : KernelParams 2 1 ℚ} (hk : p.k = cornerKernels lim)
    (hgeom : p.geom = .cartesian)
    (hpol : ∀ x, p.policy [x] = 7 / 8) (hb : ∀ a f, p.bcs a f = .periodic) {order : List ℕ} (ho : ∀ id ∈ order, id < 2 * 2) (hpo : p.order = order.map some)
    {dims : Cell} {sched : Cell → Cell → List Cell} {grav : DistView (Fields 2 1 ℚ) → Cell → GravField 2 ℚ} {M : ℕ → Cell → RankMem 2 1 ℚ} {lf : ℕ → Cell → List Cell}
    (h : KDecomposition p ![4, 4, 1] 2 (fun _ i => i) (fun _ _ _ => 0) dims sched grav M lf) {D : DistView (Fields 2 1 ℚ)}
    (hext : ∀ rank, inBox 0 dims rank → D.ext rank = localExt ![4, 4, 1] dims (nghostOf 2 2) rank)
    (hint : ∀ rank, inBox 0 dims rank → ∀ c, inBox (nghostOf 2 2) (fun a => D.ext rank a - nghostOf 2 2 a) c →
      D.val rank c = cornerFluid dense (globalOf ![4, 4, 1] dims (nghostOf 2 2) rank c)) :
    ∃ R hist, kRun p sched (borderOf dims) (nghostOf 2 2) dims grav M lf D 1 = some (R, hist) ∧
      ∀ rank c, inBox 0 dims rank → inExt (localExt ![4, 4, 1] dims (nghostOf 2 2) rank) c = true →
        globalOf ![4, 4, 1] dims (nghostOf 2 2) rank c = ![2, 1, 0] → 3 / 4 < cornerRead dense (R.val rank c) := by
  have hb' : ∀ a f, p.bcs a f ≠ .userDefined := fun a f => by rw [hb]; exact fun h => by cases h
  obtain ⟨W, R, hist, e1, e2, e3, e4, e5⟩ := kRun_global (by norm_num) (by decide) (by norm_num) hb' ho hpo h hext hint 1
  refine ⟨R, hist, e1, fun rank c hr hc hin => ?_⟩
  have hin' : inBox 0 ![4, 4, 1] (globalOf ![4, 4, 1] dims (nghostOf 2 2) rank c) := by rw [hin]; decide
  have e : c + startCell ![4, 4, 1] dims rank = globalOf ![4, 4, 1] dims (nghostOf 2 2) rank c + nghostOf 2 2 := by
    funext a
    simp only [Pi.add_apply, globalOf, startCell]
    ring
  obtain ⟨x, rfl⟩ := List.length_eq_one_iff.1 e2
  rw [e3.val rank hr c hc, e, e5 0 (by norm_num)]
  unfold kIterGlob
  rw [bcGlob_inside p.bcs (by norm_num) (by norm_num) ho _ hin', e4, bcGlob_wrap hb, hk, hgeom]
  show _ < cornerRead dense (kStepVal (cornerKernels lim) .cartesian (kGrid (cornerKernels lim) .cartesian (fun _ i => i) fun _ _ => 0) (p.policy [x]) _ _
    (globalOf ![4, 4, 1] dims (nghostOf 2 2) rank c + nghostOf 2 2))
  rw [hpol, hin, show ((![2, 1, 0] : Cell) + nghostOf 2 2) = ![4, 3, 0] by decide]
  rcases hlim with rfl | rfl
  · exact (cornerStep_over dense).1
  · exact (cornerStep_over dense).2

/-- A decomposition of the grid in two, and the cell in it. -/
example (lim : Limiter) (user : UserBc 2 1 ℚ) :
    let p : KernelParams 2 1 ℚ := ⟨cornerKernels lim, .cartesian, -1, fun _ => 7 / 8, user, fun _ _ => .periodic, [some 0, some 1, some 2, some 3]⟩
    (∃ M lf, KDecomposition p ![4, 4, 1] 2 (fun _ i => i) (fun _ _ _ => 0) ![2, 1, 1] boxList (fun _ _ _ _ => some 0) M lf) ∧
    globalOf ![4, 4, 1] ![2, 1, 1] (nghostOf 2 2) ![1, 0, 0] ![2, 3, 0] = ![2, 1, 0] := by
  refine ⟨exists_kDecomposition _ (by decide) (by decide) (by norm_num) ?_ _, by decide⟩
  intro a ha r h0 h1
  rw [localSize_eq (by fin_cases a <;> decide) (lt_of_le_of_lt h0 h1)]
  fin_cases a
  · simp [not_lt.2 h0]
  · simp [not_lt.2 h0]
  · simp at ha

/-- With MinMod this cell stays in the range. -/
example (dense : Bool) : cornerRead dense (cornerStep .minmod dense ![4, 3, 0]) ≤ 3 / 4 := by cases dense <;> decide +kernel

/-- A row of densities 100, 10, 1 in a wind of velocity -1. -/
def leeRow (g : Cell) : Fields 1 0 ℚ :=
  let s := fun r : ℚ => (⟨r, fun _ => -r, 3 / 2000 + r / 2, Fin.elim0⟩ : Fields 1 0 ℚ)
  if g 0 = 0 then s 100 else if g 0 = 1 then s 10 else s 1

/-- **C102, without the condition on the densities.** With the limiter VanLeer the density predicted at the side of a cell that lies away from the wind is negative: densities
100, 10, 1, a wind of velocity -1, cells of size 1, half a time step of 9/20. (In the code the speed of sound of that state is not a number.) -/
theorem C102_lee_violated :
    (kRecVal (exactKernels (n := 0) .vanLeer .hllc coldGas ratTrig .cartesian none) .cartesian
      (kGrid (exactKernels (n := 0) .vanLeer .hllc coldGas ratTrig .cartesian none) .cartesian (fun _ i => i) (fun _ (_ : Fin 1) => 0)) (9 / 20) leeRow
      (kPrimGlob (exactKernels .vanLeer .hllc coldGas ratTrig .cartesian none) leeRow) ![1, 0, 0] 1 0).rho < -5 := by
  decide +kernel

end Heracles

import Verif.Lemmas.WindError
import Verif.Props.Convergence

/-!
# C106: with every limiter the computed profile tends to the exact one in the mean

In one dimension, for what a uniform wind carries. The error is measured as in test/convergence_advection_sinus/check_convergence_advection_sinus.py 45-46: the sum over the cells of the difference times the size of the cell.
-/

namespace Heracles

/-- The moved means of a Lipschitz profile are near the moved profile. -/
theorem movedMean_profile {rho : ℝ → ℝ} {Lp h x0 : ℝ} (hh : 0 < h) (hr : ∀ x y, |rho x - rho y| ≤ Lp * |x - y|) (s : ℝ) (i : ℤ) :
    |movedMean (fun j => rho (x0 + j * h)) s i - rho (x0 + i * h - s * h)| ≤ Lp * h / 2 := by
  have hL : 0 ≤ Lp := by
    have := (abs_nonneg _).trans (hr 1 0)
    simpa using this
  unfold movedMean
  have f0 := Int.fract_nonneg ((i : ℝ) - s)
  have f1 := (Int.fract_lt_one ((i : ℝ) - s)).le
  have fk := Int.floor_add_fract ((i : ℝ) - s)
  set f := Int.fract ((i : ℝ) - s)
  set k := ⌊(i : ℝ) - s⌋
  have y : x0 + i * h - s * h = x0 + (k + f) * h := by rw [fk]; ring
  rw [y]
  have h1 := hr (x0 + k * h) (x0 + (k + f) * h)
  have h2 := hr (x0 + ((k + 1 : ℤ) : ℝ) * h) (x0 + (k + f) * h)
  have e1 : |x0 + k * h - (x0 + (k + f) * h)| = f * h := by
    rw [show x0 + k * h - (x0 + (k + f) * h) = -(f * h) by ring, abs_neg, abs_of_nonneg (by positivity)]
  have e2 : |x0 + ((k + 1 : ℤ) : ℝ) * h - (x0 + (k + f) * h)| = (1 - f) * h := by
    rw [show x0 + ((k + 1 : ℤ) : ℝ) * h - (x0 + (k + f) * h) = (1 - f) * h by push_cast; ring, abs_of_nonneg (mul_nonneg (by linarith) hh.le)]
  rw [e1] at h1
  rw [e2] at h2
  have split : (1 - f) * rho (x0 + k * h) + f * rho (x0 + ((k + 1 : ℤ) : ℝ) * h) - rho (x0 + (k + f) * h) =
      (1 - f) * (rho (x0 + k * h) - rho (x0 + (k + f) * h)) + f * (rho (x0 + ((k + 1 : ℤ) : ℝ) * h) - rho (x0 + (k + f) * h)) := by ring
  rw [split]
  refine (abs_add_le _ _).trans ?_
  rw [abs_mul, abs_mul, abs_of_nonneg f0, abs_of_nonneg (by linarith : 0 ≤ 1 - f)]
  have b1 := mul_le_mul_of_nonneg_left h1 (by linarith : 0 ≤ 1 - f)
  have b2 := mul_le_mul_of_nonneg_left h2 f0
  have hsq : 0 ≤ Lp * h * (1 - 2 * f) ^ 2 := by positivity
  nlinarith

/-- What is known of a row `q` at the time `t` after the start, the wind having crossed `s` cells. -/
def RowNear (N : ℕ) (r : ℤ → ℝ) (s : ℝ) (q : ℤ → ℝ) : Prop :=
  circleVar N q ≤ circleVar N r ∧ (∀ i, q (i + N) = q i) ∧ ∃ P P0 : ℤ → ℝ, ∃ m : ℝ, (∀ i, P (i + 1) - P i = q i) ∧ (∀ i, P0 (i + 1) - P0 i = r i) ∧
    (∀ i, P (i + N) = P i + m) ∧ (∀ i, P0 (i + N) = P0 i + m) ∧ ∑ i ∈ Finset.range N, |P i - linOf P0 ((i : ℝ) - s)| ≤ 2 * circleVar N r * |s|

theorem rowNear_start {N : ℕ} {r : ℤ → ℝ} (hper : ∀ i, r (i + N) = r i) : RowNear N r 0 r := by
  obtain ⟨P, hP⟩ := exists_primitive r
  refine ⟨le_rfl, hper, P, P, _, hP, hP, primitive_period hper hP, primitive_period hper hP, ?_⟩
  refine le_of_eq ?_
  rw [abs_zero, mul_zero]
  refine Finset.sum_eq_zero fun i _ => ?_
  have := linOf_int P i
  rw [Int.cast_natCast] at this
  rw [sub_zero, this, sub_self, abs_zero]

theorem rowNear_step (lim : Limiter) {N : ℕ} {r q : ℤ → ℝ} (hper : ∀ i, r (i + N) = r i) {s c : ℝ} (hc : |c| ≤ 1) (hsc : 0 ≤ s * c) (hq : RowNear N r s q) :
    RowNear N r (s + c) (rowStep lim q c) := by
  obtain ⟨h1, h2, P, P0, m, h3, h4, h5, h6, h7⟩ := hq
  obtain ⟨a, b, e⟩ := row_error_step lim h2 hper h3 h4 h5 h6 hc s
  refine ⟨(circleVar_step lim h2 hc).trans h1, rowStep_periodic lim h2 c, fun i => P i - c * rowUp lim q c i, P0, m, a, h4, b, h6, e.trans ?_⟩
  have hs : |s + c| = |s| + |c| := by
    rcases le_total 0 s with hs0 | hs0 <;> rcases le_total 0 c with hc0 | hc0
    · rw [abs_of_nonneg hs0, abs_of_nonneg hc0, abs_of_nonneg (by linarith)]
    · have : s * c = 0 := le_antisymm (mul_nonpos_of_nonneg_of_nonpos hs0 hc0) hsc
      rcases mul_eq_zero.1 this with rfl | rfl <;> simp
    · have : s * c = 0 := le_antisymm (mul_nonpos_of_nonpos_of_nonneg hs0 hc0) hsc
      rcases mul_eq_zero.1 this with rfl | rfl <;> simp
    · rw [abs_of_nonpos hs0, abs_of_nonpos hc0, abs_of_nonpos (by linarith)]
      ring
  rw [hs]
  have := mul_le_mul_of_nonneg_left h1 (abs_nonneg c)
  nlinarith

/-- The error in the mean. -/
theorem rowNear_error {N : ℕ} {r q : ℤ → ℝ} (hper : ∀ i, r (i + N) = r i) {u t h : ℝ} (hh : 0 < h) (ht : 0 ≤ t) (hq : RowNear N r (t * u / h) q) :
    h * ∑ i ∈ Finset.range N, |q i - movedMean r (t * u / h) i| ≤ 4 * circleVar N r * Real.sqrt (t * |u| * h) := by
  obtain ⟨h1, h2, P, P0, m, h3, h4, h5, h6, h7⟩ := hq
  have ha : |t * u / h| = t * |u| / h := by rw [abs_div, abs_mul, abs_of_nonneg ht, abs_of_pos hh]
  rw [ha] at h7
  have := row_error h2 hper h3 h4 h5 h6 h1 le_rfl (by positivity) h7
  have e : Real.sqrt (t * |u| * h) = h * Real.sqrt (t * |u| / h) := by
    rw [show t * |u| * h = h ^ 2 * (t * |u| / h) by field_simp, Real.sqrt_mul (by positivity), Real.sqrt_sq hh.le]
  rw [e]
  calc h * _ ≤ h * (4 * circleVar N r * Real.sqrt (t * |u| / h)) := mul_le_mul_of_nonneg_left this hh.le
    _ = _ := by ring

variable {n : ℕ} {p : ProgParams 1 n} {nx : Cell} {ng : ℤ} {X : Fin 3 → ℤ → ℝ} {Gr : (Cell → Fields 1 n ℝ) → Cell → Fin 1 → ℝ} {A : Machine 1 n}
  {order : List ℕ} {S : Cell → Prim 1 ℝ} {Fx : Cell → Fin n → ℝ} {U : Cell → View Cell (Fields 1 n ℝ)} {up : Cell → View Cell (VelPres 1 ℝ)}
  {h : Fin 3 → ℝ} {w : VelPres 1 ℝ} {lo hi : ℝ}

/-- **C106, the density carried by a uniform wind, any limiter.** Exact arithmetic, the whole program in one dimension with its own time steps and outputs, HLLC, any limiter, equal cells, periodic, Courant number at most 1, no gravity, no pressure fix,
no heating, a gas whose energy per volume depends on pressure only, any process grid, any densities `r` at the start between `lo > 0` and `hi` (with VanLeer and VanAlbada `hi < 2 lo`), smooth or not. The exact solution moves them with the wind; `movedMean` is
its mean over a cell. At every turn (first part: `q` is the row of densities held by the processes) and in every file the sum over the cells of the error times the size of the cell is at most `4 T √((t - tIni) |u| h)` with `T` the sum of the jumps at the start.
For a given profile `T` is bounded and the error tends to 0 with the size `h` of the cells. Partial: one dimension, wind only; the order 1/2 holds for all data, jumps included, the order 2 the test of the project looks for on a sine is not proved. -/
theorem C106_contact_partial (hpos : ∀ a, 0 < nx a) (hng : 2 ≤ ng) (hp : ParamsOk p order) (hA : MachineOk nx ng Gr A)
    (hI : InitOf nx ng A S Fx U up) (clock : ℕ → Bool) (he : p.hydro.eos.Lawful) {e : ℝ} (hev : ∀ r, 0 < r → p.hydro.eos.evolFromPres r w.P = e)
    (hP : 0 < w.P) (hl : p.hydro.lim = .constant ∨ p.hydro.lim = .minmod ∨ hi < 2 * lo) (hsol : p.hydro.sol = .hllc)
    (hgeom : p.hydro.geom = .cartesian) (hb : ∀ a f, p.hydro.bcs a f = .periodic)
    (h0 : ∀ W C a, Gr W C a = 0) (hfix : p.fix = none) (hs : p.step ≠ .heatNickel)
    (hh : ∀ a, 0 < h a) (hX : ∀ a i, X a (i + 1) - X a i = h a) (hc0 : 0 ≤ p.loop.cfl) (hc1 : p.loop.cfl ≤ 1) (ht : p.tIni ≤ p.loop.tEnd)
    {N : ℕ} (hNx : nx 0 = N) {r : ℤ → ℝ} (hper : ∀ i, r (i + N) = r i) (hlo : 0 < lo) (hbd : ∀ i, lo ≤ r i ∧ r i ≤ hi) (hS : ∀ g, inBox 0 nx g → S g = ⟨r (g 0), w.u, w.P⟩) (k : ℕ) :
    ∃ z, progRun p nx (nghostOf 1 ng) (borderOf A.dims) A clock (progFresh p nx (nghostOf 1 ng) (borderOf A.dims) A X U up) k = some z ∧
      (∃ q : ℤ → ℝ, h 0 * ∑ i ∈ Finset.range N, |q i - movedMean r ((z.s.t - p.tIni) * w.u 0 / h 0) i| ≤ 4 * circleVar N r * Real.sqrt ((z.s.t - p.tIni) * |w.u 0| * h 0) ∧
        ∀ rank, inBox 0 A.dims rank → ∀ c, inExt (localExt nx A.dims (nghostOf 1 ng) rank) c = true →
          (z.s.h.val rank c).rho = q (globalOf nx A.dims (nghostOf 1 ng) rank c 0)) ∧
      ∀ f ∈ z.files, h 0 * ∑ i ∈ Finset.range N, |f.h.rho.at ![i, 0, 0] - movedMean r ((f.t - p.tIni) * w.u 0 / h 0) i| ≤
        4 * circleVar N r * Real.sqrt ((f.t - p.tIni) * |w.u 0| * h 0) := by
  obtain ⟨z0, e0, f0⟩ := progFresh_follows (X := X) (by norm_num) (fun a => (hpos a).le) hng hp hA hI
  obtain ⟨z, e, hz⟩ := progRun_follows (by norm_num) (fun a => (hpos a).le) hng hp hA clock e0 f0 k
  have htt : ∀ W, (freshRun p.loop p.tIni W : RunState (Cell → Fields 1 n ℝ) ℝ).s.t = p.tIni := fun W => by unfold freshRun; split <;> rfl
  have hgh : nghostOf 1 ng 0 = ng := by simp [nghostOf]
  have hNp : (0 : ℤ) < N := hNx ▸ hpos 0
  set I : (Cell → Fields 1 n ℝ) → ℝ → Prop := fun W t => 0 ≤ t - p.tIni ∧ ∃ q : ℤ → ℝ, RowNear N r ((t - p.tIni) * w.u 0 / h 0) q ∧ (∀ i, lo ≤ q i ∧ q i ≤ hi) ∧
    ∀ C, (W C).cons = toCons p.hydro.eos ⟨q (C 0 - ng), w.u, w.P⟩ with hIdef
  have hinit : I (bcGlob p.hydro.bcs nx (nghostOf 1 ng) order fun g => consFields p.hydro.eos (S g) (Fx g)) p.tIni := by
    refine ⟨(sub_self _).ge, r, ?_, hbd, fun C => ?_⟩
    · rw [sub_self, zero_mul, zero_div]
      exact rowNear_start hper
    · rw [bcGlob_wrap hb]
      show toCons p.hydro.eos (S (wrap nx (C - nghostOf 1 ng))) = _
      rw [hS _ (wrap_add_inside hpos _)]
      simp only [wrap, Pi.sub_apply, hgh, hNx, periodic_emod hper]
  have hrow : ∀ W t, I W t → ∀ C, ∃ r, 0 < r ∧ (W C).cons = toCons p.hydro.eos ⟨r, w.u, w.P⟩ := by
    rintro W t ⟨-, q, -, q2, q4⟩ C
    exact ⟨_, hlo.trans_le (q2 _).1, q4 C⟩
  have key := runN_inv_dt (q := p.loop) (hy := globHydro p nx ng X Gr order) (clock := clock)
    (r := freshRun p.loop p.tIni (bcGlob p.hydro.bcs nx (nghostOf 1 ng) order fun g => consFields p.hydro.eos (S g) (Fx g))) (I := I)
    (by unfold freshRun; split <;> exact hinit)
    (fun o ho => by
      unfold freshRun at ho
      split at ho
      · rw [List.mem_singleton.1 ho]
        exact hinit
      · exact absurd ho List.not_mem_nil) (by rw [htt]; exact ht)
    (fun W t hW => mul_nonneg hc0 (glob_dt_row (Gr := Gr) (order := order) hpos hng he hgeom hh hX hc1 (hrow W t hW) hP).1.le)
    (fun W t dt hW q1 q2 => by
      have hd := (glob_dt_row (Gr := Gr) (order := order) hpos hng he hgeom hh hX hc1 (hrow W t hW) hP).2 dt q1 q2
      obtain ⟨w0, q, w1, w2, w4⟩ := hW
      have hc : |dt * w.u 0 / h 0| ≤ 1 := by
        rw [abs_div, abs_mul, abs_of_nonneg q1, abs_of_pos (hh 0), div_le_one (hh 0)]
        exact hd
      rw [advance_plain (by norm_num) hgeom hfix hs]
      refine ⟨by linarith, rowStep p.hydro.lim q (dt * w.u 0 / h 0), ?_, rowStep_bounds _ w2 hc, fun C => ?_⟩
      · rw [show (t + dt - p.tIni) * w.u 0 / h 0 = (t - p.tIni) * w.u 0 / h 0 + dt * w.u 0 / h 0 by ring]
        refine rowNear_step _ hper hc ?_ w1
        rw [show (t - p.tIni) * w.u 0 / h 0 * (dt * w.u 0 / h 0) = (t - p.tIni) * dt * (w.u 0 / h 0) ^ 2 by ring]
        positivity
      · exact row_iter (p := plainKernels p) (lim := p.hydro.lim) (tr := p.hydro.tr) (by rw [← hsol]; rfl) rfl he hev hP hpos hng hb (hh 0) (fun i _ _ => hX 0 i)
          (fun a i _ _ => sub_pos.1 (by rw [hX]; exact hh a)) h0 (by rw [hNx]; exact w1.2.1) hlo w2 hl w4 q1 hd C) k
  refine ⟨z, e, ?_, fun f hf' => ?_⟩
  · have ht : z.s.t = (runN p.loop (globHydro p nx ng X Gr order) clock (freshRun p.loop p.tIni (bcGlob p.hydro.bcs nx (nghostOf 1 ng) order fun g => consFields p.hydro.eos (S g) (Fx g))) k).s.t :=
      congrArg LoopState.t hz.s
    obtain ⟨w0, q, w1, w2, w4⟩ := key.1
    refine ⟨q, ?_, fun rank hr c hc => ?_⟩
    · rw [ht]
      exact rowNear_error hper (hh 0) w0 w1
    · rw [hz.h.val rank hr c hc]
      refine (congrArg Cons.rho (w4 _)).trans ?_
      show q _ = q _
      congr 1
      simp only [Pi.add_apply, globalOf, startCell, hgh]
      ring_nf
  · obtain ⟨o, ho, hfo, hfo'⟩ := forall₂_mem hz.files hf'
    have ht : f.t = o.t := congrArg LoopState.t hfo'
    obtain ⟨w0, q, w1, w2, w4⟩ := key.2.2 o ho
    rw [ht]
    refine le_trans (le_of_eq ?_) (rowNear_error hper (hh 0) w0 w1)
    congr 1
    refine Finset.sum_congr rfl fun i hi => ?_
    have hi := Finset.mem_range.1 hi
    have hg : inBox 0 nx ![(i : ℤ), 0, 0] := by
      intro a
      fin_cases a
      · refine ⟨by simp, ?_⟩
        show (i : ℤ) < nx 0
        omega
      · exact ⟨le_rfl, hpos 1⟩
      · exact ⟨le_rfl, hpos 2⟩
    rw [FileOf.at hfo.rho hg]
    congr 2
    refine (congrArg Cons.rho (w4 _)).trans ?_
    simp [hgh, toCons]

/-- **C106, a mass fraction in a uniform stream, any limiter, any solver.** As `C106_contact_partial` for a mass fraction in a fluid of uniform density, velocity and pressure, for any equation of state that inverts; no condition on the limiter. -/
theorem C106_fraction_partial {j : Fin n} {rho : ℝ} (hpos : ∀ a, 0 < nx a) (hng : 2 ≤ ng) (hp : ParamsOk p order) (hA : MachineOk nx ng Gr A)
    (hI : InitOf nx ng A S Fx U up) (clock : ℕ → Bool) (he : p.hydro.eos.Lawful) (hP : 0 < w.P) (hrho : 0 < rho)
    (hgeom : p.hydro.geom = .cartesian) (hb : ∀ a f, p.hydro.bcs a f = .periodic)
    (h0 : ∀ W C a, Gr W C a = 0) (hfix : p.fix = none) (hs : p.step ≠ .heatNickel)
    (hh : ∀ a, 0 < h a) (hX : ∀ a i, X a (i + 1) - X a i = h a) (hc0 : 0 ≤ p.loop.cfl) (hc1 : p.loop.cfl ≤ 1) (ht : p.tIni ≤ p.loop.tEnd)
    {N : ℕ} (hNx : nx 0 = N) {r : ℤ → ℝ} (hper : ∀ i, r (i + N) = r i) (hbd : ∀ i, 0 ≤ r i ∧ r i ≤ 1) (hS : ∀ g, inBox 0 nx g → S g = ⟨rho, w.u, w.P⟩ ∧ Fx g j = r (g 0)) (k : ℕ) :
    ∃ z, progRun p nx (nghostOf 1 ng) (borderOf A.dims) A clock (progFresh p nx (nghostOf 1 ng) (borderOf A.dims) A X U up) k = some z ∧
      (∃ q : ℤ → ℝ, h 0 * ∑ i ∈ Finset.range N, |q i - movedMean r ((z.s.t - p.tIni) * w.u 0 / h 0) i| ≤ 4 * circleVar N r * Real.sqrt ((z.s.t - p.tIni) * |w.u 0| * h 0) ∧
        ∀ rank, inBox 0 A.dims rank → ∀ c, inExt (localExt nx A.dims (nghostOf 1 ng) rank) c = true →
          (z.s.h.val rank c).fx j = q (globalOf nx A.dims (nghostOf 1 ng) rank c 0)) ∧
      ∀ f ∈ z.files, h 0 * ∑ i ∈ Finset.range N, |(f.h.fx j).at ![i, 0, 0] - movedMean r ((f.t - p.tIni) * w.u 0 / h 0) i| ≤
        4 * circleVar N r * Real.sqrt ((f.t - p.tIni) * |w.u 0| * h 0) := by
  obtain ⟨z0, e0, f0⟩ := progFresh_follows (X := X) (by norm_num) (fun a => (hpos a).le) hng hp hA hI
  obtain ⟨z, e, hz⟩ := progRun_follows (by norm_num) (fun a => (hpos a).le) hng hp hA clock e0 f0 k
  have htt : ∀ W, (freshRun p.loop p.tIni W : RunState (Cell → Fields 1 n ℝ) ℝ).s.t = p.tIni := fun W => by unfold freshRun; split <;> rfl
  have hgh : nghostOf 1 ng 0 = ng := by simp [nghostOf]
  have hNp : (0 : ℤ) < N := hNx ▸ hpos 0
  set I : (Cell → Fields 1 n ℝ) → ℝ → Prop := fun W t => 0 ≤ t - p.tIni ∧ ∃ q : ℤ → ℝ, RowNear N r ((t - p.tIni) * w.u 0 / h 0) q ∧ (∀ i, 0 ≤ q i ∧ q i ≤ 1) ∧
    ∀ C, (W C).cons = toCons p.hydro.eos ⟨rho, w.u, w.P⟩ ∧ (W C).fx j = q (C 0 - ng) with hIdef
  have hinit : I (bcGlob p.hydro.bcs nx (nghostOf 1 ng) order fun g => consFields p.hydro.eos (S g) (Fx g)) p.tIni := by
    refine ⟨(sub_self _).ge, r, ?_, hbd, fun C => ?_⟩
    · rw [sub_self, zero_mul, zero_div]
      exact rowNear_start hper
    · rw [bcGlob_wrap hb]
      obtain ⟨s1, s2⟩ := hS _ (wrap_add_inside hpos (C - nghostOf 1 ng))
      refine ⟨?_, ?_⟩
      · show toCons p.hydro.eos (S (wrap nx (C - nghostOf 1 ng))) = _
        rw [s1]
      show Fx (wrap nx (C - nghostOf 1 ng)) j = _
      rw [s2]
      simp only [wrap, Pi.sub_apply, hgh, hNx, periodic_emod hper]
  have hrow : ∀ W t, I W t → ∀ C, ∃ r, 0 < r ∧ (W C).cons = toCons p.hydro.eos ⟨r, w.u, w.P⟩ := by
    rintro W t ⟨-, q, -, q2, q4⟩ C
    exact ⟨_, hrho, (q4 C).1⟩
  have key := runN_inv_dt (q := p.loop) (hy := globHydro p nx ng X Gr order) (clock := clock)
    (r := freshRun p.loop p.tIni (bcGlob p.hydro.bcs nx (nghostOf 1 ng) order fun g => consFields p.hydro.eos (S g) (Fx g))) (I := I)
    (by unfold freshRun; split <;> exact hinit)
    (fun o ho => by
      unfold freshRun at ho
      split at ho
      · rw [List.mem_singleton.1 ho]
        exact hinit
      · exact absurd ho List.not_mem_nil) (by rw [htt]; exact ht)
    (fun W t hW => mul_nonneg hc0 (glob_dt_row (Gr := Gr) (order := order) hpos hng he hgeom hh hX hc1 (hrow W t hW) hP).1.le)
    (fun W t dt hW q1 q2 => by
      have hd := (glob_dt_row (Gr := Gr) (order := order) hpos hng he hgeom hh hX hc1 (hrow W t hW) hP).2 dt q1 q2
      obtain ⟨w0, q, w1, w2, w4⟩ := hW
      have hc : |dt * w.u 0 / h 0| ≤ 1 := by
        rw [abs_div, abs_mul, abs_of_nonneg q1, abs_of_pos (hh 0), div_le_one (hh 0)]
        exact hd
      rw [advance_plain (by norm_num) hgeom hfix hs]
      refine ⟨by linarith, rowStep p.hydro.lim q (dt * w.u 0 / h 0), ?_, rowStep_bounds _ w2 hc, fun C => ?_⟩
      · rw [show (t + dt - p.tIni) * w.u 0 / h 0 = (t - p.tIni) * w.u 0 / h 0 + dt * w.u 0 / h 0 by ring]
        refine rowNear_step _ hper hc ?_ w1
        rw [show (t - p.tIni) * w.u 0 / h 0 * (dt * w.u 0 / h 0) = (t - p.tIni) * dt * (w.u 0 / h 0) ^ 2 by ring]
        positivity
      · exact row_fx_iter (p := plainKernels p) (lim := p.hydro.lim) (sol := p.hydro.sol) (tr := p.hydro.tr) rfl rfl he hP hrho hpos hng hb (hh 0) (fun i _ _ => hX 0 i)
          (fun a i _ _ => sub_pos.1 (by rw [hX]; exact hh a)) h0 (by rw [hNx]; exact w1.2.1) le_rfl le_rfl w2 w4 q1 hd C) k
  refine ⟨z, e, ?_, fun f hf' => ?_⟩
  · have ht : z.s.t = (runN p.loop (globHydro p nx ng X Gr order) clock (freshRun p.loop p.tIni (bcGlob p.hydro.bcs nx (nghostOf 1 ng) order fun g => consFields p.hydro.eos (S g) (Fx g))) k).s.t :=
      congrArg LoopState.t hz.s
    obtain ⟨w0, q, w1, w2, w4⟩ := key.1
    refine ⟨q, ?_, fun rank hr c hc => ?_⟩
    · rw [ht]
      exact rowNear_error hper (hh 0) w0 w1
    · rw [hz.h.val rank hr c hc]
      refine (w4 _).2.trans ?_
      show q _ = q _
      congr 1
      simp only [Pi.add_apply, globalOf, startCell, hgh]
      ring_nf
  · obtain ⟨o, ho, hfo, hfo'⟩ := forall₂_mem hz.files hf'
    have ht : f.t = o.t := congrArg LoopState.t hfo'
    obtain ⟨w0, q, w1, w2, w4⟩ := key.2.2 o ho
    rw [ht]
    refine le_trans (le_of_eq ?_) (rowNear_error hper (hh 0) w0 w1)
    congr 1
    refine Finset.sum_congr rfl fun i hi => ?_
    have hi := Finset.mem_range.1 hi
    have hg : inBox 0 nx ![(i : ℤ), 0, 0] := by
      intro a
      fin_cases a
      · refine ⟨by simp, ?_⟩
        show (i : ℤ) < nx 0
        omega
      · exact ⟨le_rfl, hpos 1⟩
      · exact ⟨le_rfl, hpos 2⟩
    rw [FileOf.at (hfo.fx j) hg]
    congr 2
    refine (w4 _).2.trans ?_
    simp [hgh]

/-- **C106, a Lipschitz profile, any limiter.** As `C106_contact_partial` for densities that are those of a profile `rho` at the centres of the cells, with `|rho x - rho y| ≤ Lp |x - y|`, periodic over the box of length `N h`; the exact
solution is `rho (x - (t - tIni) u)`. In every file the error as measured in check_convergence_advection_sinus.py is at most `4 Lp N h √((t - tIni) |u| h) + Lp h N h / 2`. -/
theorem C106_profile_partial (hpos : ∀ a, 0 < nx a) (hng : 2 ≤ ng) (hp : ParamsOk p order) (hA : MachineOk nx ng Gr A)
    (hI : InitOf nx ng A S Fx U up) (clock : ℕ → Bool) (he : p.hydro.eos.Lawful) {e : ℝ} (hev : ∀ r, 0 < r → p.hydro.eos.evolFromPres r w.P = e)
    (hP : 0 < w.P) (hl : p.hydro.lim = .constant ∨ p.hydro.lim = .minmod ∨ hi < 2 * lo) (hsol : p.hydro.sol = .hllc)
    (hgeom : p.hydro.geom = .cartesian) (hb : ∀ a f, p.hydro.bcs a f = .periodic)
    (h0 : ∀ W C a, Gr W C a = 0) (hfix : p.fix = none) (hs : p.step ≠ .heatNickel)
    (hh : ∀ a, 0 < h a) (hX : ∀ a i, X a (i + 1) - X a i = h a) (hc0 : 0 ≤ p.loop.cfl) (hc1 : p.loop.cfl ≤ 1) (ht : p.tIni ≤ p.loop.tEnd)
    {N : ℕ} (hNx : nx 0 = N) {rho : ℝ → ℝ} {Lp : ℝ} (hLp : ∀ x y, |rho x - rho y| ≤ Lp * |x - y|) (hper : ∀ x, rho (x + N * h 0) = rho x)
    (hlo : 0 < lo) (hbd : ∀ x, lo ≤ rho x ∧ rho x ≤ hi) (hS : ∀ g, inBox 0 nx g → S g = ⟨rho (cellCentre (d := 1) X (g + nghostOf 1 ng) 0), w.u, w.P⟩) (k : ℕ) :
    ∃ z, progRun p nx (nghostOf 1 ng) (borderOf A.dims) A clock (progFresh p nx (nghostOf 1 ng) (borderOf A.dims) A X U up) k = some z ∧
      ∀ f ∈ z.files, ∑ i ∈ Finset.range N, |rho (cellCentre (d := 1) X (![(i : ℤ), 0, 0] + nghostOf 1 ng) 0 - (f.t - p.tIni) * w.u 0) - f.h.rho.at ![i, 0, 0]| * h 0 ≤
        4 * (Lp * (N * h 0)) * Real.sqrt ((f.t - p.tIni) * |w.u 0| * h 0) + Lp * h 0 * (N * h 0) / 2 := by
  have hh0 := hh 0
  have hgh : nghostOf 1 ng 0 = ng := by simp [nghostOf]
  have hax : (ax (0 : Fin 1)) = 0 := rfl
  set x0 : ℝ := X 0 0 + ((ng : ℝ) + 1 / 2) * h 0 with hx0
  set r : ℤ → ℝ := fun i => rho (x0 + i * h 0) with hr
  have centre : ∀ g : Cell, cellCentre (d := 1) X (g + nghostOf 1 ng) 0 = x0 + g 0 * h 0 := fun g => by
    rw [cellCentre_equal hX, hax, Pi.add_apply, hgh, hx0]
    push_cast
    ring
  have hrper : ∀ i, r (i + N) = r i := fun i => by
    simp only [hr]
    rw [← hper (x0 + i * h 0)]
    congr 1
    push_cast
    ring
  have hL : 0 ≤ Lp := by
    have := (abs_nonneg _).trans (hLp 1 0)
    simpa using this
  have hT : circleVar N r ≤ Lp * (N * h 0) := by
    rw [circleVar_periodic hrper]
    have : ∀ i ∈ Finset.range N, |r ((i : ℤ) + 1) - r i| ≤ Lp * h 0 := fun i _ => by
      refine (hLp _ _).trans (le_of_eq ?_)
      rw [show x0 + (((i : ℤ) + 1 : ℤ) : ℝ) * h 0 - (x0 + ((i : ℤ) : ℝ) * h 0) = h 0 by push_cast; ring, abs_of_pos hh0]
    refine (Finset.sum_le_sum this).trans (le_of_eq ?_)
    rw [Finset.sum_const, Finset.card_range, nsmul_eq_mul]
    ring
  obtain ⟨z, e, -, h2⟩ := C106_contact_partial (X := X) (h := h) hpos hng hp hA hI clock he hev hP hl hsol hgeom hb h0 hfix hs hh hX hc0 hc1 ht hNx (r := r) hrper hlo (fun i => hbd _)
    (fun g hg => by rw [hS g hg, centre]) k
  refine ⟨z, e, fun f hf => ?_⟩
  have hf2 := h2 f hf
  have each : ∀ i ∈ Finset.range N, |rho (cellCentre (d := 1) X (![(i : ℤ), 0, 0] + nghostOf 1 ng) 0 - (f.t - p.tIni) * w.u 0) - f.h.rho.at ![i, 0, 0]| * h 0 ≤
      h 0 * |f.h.rho.at ![i, 0, 0] - movedMean r ((f.t - p.tIni) * w.u 0 / h 0) i| + h 0 * (Lp * h 0 / 2) := by
    intro i _
    have m := movedMean_profile (x0 := x0) hh0 hLp ((f.t - p.tIni) * w.u 0 / h 0) i
    rw [div_mul_cancel₀ _ hh0.ne'] at m
    rw [centre, mul_comm _ (h 0), ← mul_add]
    refine mul_le_mul_of_nonneg_left ?_ hh0.le
    have t := abs_sub_le (f.h.rho.at ![i, 0, 0]) (movedMean r ((f.t - p.tIni) * w.u 0 / h 0) i) (rho (x0 + ((i : ℤ) : ℝ) * h 0 - (f.t - p.tIni) * w.u 0))
    rw [abs_sub_comm]
    refine t.trans ?_
    have m' : |movedMean r ((f.t - p.tIni) * w.u 0 / h 0) i - rho (x0 + ((i : ℤ) : ℝ) * h 0 - (f.t - p.tIni) * w.u 0)| ≤ Lp * h 0 / 2 := m
    linarith
  refine (Finset.sum_le_sum each).trans ?_
  rw [Finset.sum_add_distrib, ← Finset.mul_sum, Finset.sum_const, Finset.card_range, nsmul_eq_mul]
  have b := mul_le_mul_of_nonneg_right (mul_le_mul_of_nonneg_left hT (by norm_num : (0 : ℝ) ≤ 4)) (Real.sqrt_nonneg ((f.t - p.tIni) * |w.u 0| * h 0))
  have b2 : (N : ℝ) * (h 0 * (Lp * h 0 / 2)) = Lp * h 0 * (N * h 0) / 2 := by ring
  linarith

/-- The convergence test of the project (test/convergence_advection_sinus, inputs/advection_sinus.ini): `1 + sin(2 π x) / 10` on `[0, 1]`, wind 1, pressure 1/10, VanLeer, HLLC, Courant number 0.4, two processes, with `2 m` cells for any
`m ≥ 2` where the test takes 50 to 800. The error the test computes from a file is below `(4 √(t h) + h) 2 π / 10`, `h = 1 / (2 m)`. -/
example (p : ProgParams 1 0) (hb : p.hydro.bcs = fun _ _ => .periodic)
    (hpo : p.hydro.order = [some 0, some 1]) (hs : p.step = .off) (hf : p.fix = none) (ht : p.top = 10 ^ 308) {g : Gas} (hg : g.Physical)
    (he : p.hydro.eos = PerfectGas.toEoS g) (hge : p.hydro.geom = .cartesian) (hl : p.hydro.lim = .vanLeer) (hsol : p.hydro.sol = .hllc)
    (hc : p.loop.cfl = 4 / 10) (h0 : p.tIni = 0) (h1 : p.loop.tEnd = 1) (clock : ℕ → Bool) (m : ℕ) (hm : 2 ≤ m) (k : ℕ) :
    ∃ (A : Machine 1 0) (IA : (Cell → View Cell (Fields 1 0 ℝ)) × (Cell → View Cell (VelPres 1 ℝ))) (z : ProgState 1 0), A.dims = ![2, 1, 1] ∧
      progRun p ![2 * m, 1, 1] (nghostOf 1 2) (borderOf A.dims) A clock
        (progFresh p ![2 * m, 1, 1] (nghostOf 1 2) (borderOf A.dims) A (fun _ i => (i - 2 : ℝ) / (2 * m)) IA.1 IA.2) k = some z ∧
      ∀ f ∈ z.files, ∑ i ∈ Finset.range (2 * m), |1 + 1 / 10 * Real.sin (2 * Real.pi * ((i + 1 / 2) / (2 * m) - f.t)) - f.h.rho.at ![i, 0, 0]| * (1 / (2 * m)) ≤
        (4 * Real.sqrt (f.t * (1 / (2 * m))) + 1 / (2 * m)) * (2 * Real.pi / 10) := by
  have hm0 : (0 : ℝ) < m := by exact_mod_cast (by omega : 0 < m)
  have hN : ∀ a, 0 ≤ (![2 * m, 1, 1] : Cell) a := by
    intro a
    fin_cases a <;> simp
  have hpos : ∀ a, 0 < (![2 * m, 1, 1] : Cell) a := by
    intro a
    fin_cases a
    · show (0 : ℤ) < 2 * m
      omega
    · exact one_pos
    · exact one_pos
  have hp : ParamsOk p [0, 1] := ⟨by rw [hb]; simp, by decide, hpo, by rw [hs]; simp, by rw [ht]; norm_num⟩
  have hA := mkMachine_ok (d := 1) (n := 0) (ng := 2) hN (dims := ![2, 1, 1]) (by decide) 0 (by norm_num) (by
    intro a ha r h0 h1
    rw [localSize_eq (hN a) (lt_of_le_of_lt h0 h1)]
    fin_cases a
    · have e1 : (2 * (m : ℤ)) % 2 = 0 := by omega
      have e2 : (2 * (m : ℤ)) / 2 = m := by omega
      simp only [Matrix.cons_val_zero, Fin.zero_eta, Fin.isValue, e1, e2]
      simp [not_lt.2 h0]
      omega
    · simp at ha
    · simp at ha)
  set rho : ℝ → ℝ := fun x => 1 + 1 / 10 * Real.sin (2 * Real.pi * x) with hrho
  have hi := initArrays_ok (nx := ![2 * m, 1, 1]) (ng := 2) (A := mkMachine 1 0 ![2 * m, 1, 1] 2 hN ![2, 1, 1] (by decide) 0)
    (fun c => ⟨rho (cellCentre (d := 1) (fun _ i => (i - 2 : ℝ) / (2 * m)) (c + nghostOf 1 2) 0), fun _ => 1, 1 / 10⟩) (fun _ => Fin.elim0)
  obtain ⟨z, e, h2⟩ := C106_profile_partial (p := p) (w := ⟨fun _ => 1, 1 / 10⟩) (h := fun _ => 1 / (2 * m)) (lo := 9 / 10) (hi := 11 / 10) (Lp := 2 * Real.pi / 10)
    (rho := rho) hpos (by norm_num) hp hA hi clock
    (by rw [he]; exact PerfectGas.lawful hg) (e := 1 / 10 / g.gammaM1) (fun r hr => by rw [he]; exact perfectGas_evol hg (1 / 10) hr) (by norm_num) (.inr (.inr (by norm_num))) hsol hge
    (fun a f => by rw [hb]) (fun _ _ _ => rfl) hf (by rw [hs]; simp) (fun _ => by positivity) (X := fun _ i => (i - 2 : ℝ) / (2 * m)) (fun a i => by push_cast; ring) (by rw [hc]; norm_num) (by rw [hc]; norm_num)
    (by rw [h0, h1]; norm_num) (N := 2 * m) (by show (2 * m : ℤ) = _; push_cast; ring)
    (fun x y => by
      simp only [hrho]
      rw [show 1 + 1 / 10 * Real.sin (2 * Real.pi * x) - (1 + 1 / 10 * Real.sin (2 * Real.pi * y)) = 1 / 10 * (Real.sin (2 * Real.pi * x) - Real.sin (2 * Real.pi * y)) by ring,
        abs_mul, abs_of_pos (by norm_num : (0 : ℝ) < 1 / 10)]
      have := Real.abs_sin_sub_sin_le (2 * Real.pi * x) (2 * Real.pi * y)
      rw [show 2 * Real.pi * x - 2 * Real.pi * y = 2 * Real.pi * (x - y) by ring, abs_mul, abs_of_pos Real.two_pi_pos] at this
      linarith)
    (fun x => by
      simp only [hrho]
      have : 2 * Real.pi * (x + ((2 * m : ℕ) : ℝ) * (1 / (2 * m))) = 2 * Real.pi * x + 2 * Real.pi := by
        push_cast
        field_simp
      rw [this, Real.sin_add_two_pi])
    (by norm_num) (fun x => by
      have := Real.neg_one_le_sin (2 * Real.pi * x)
      have := Real.sin_le_one (2 * Real.pi * x)
      constructor <;> simp only [hrho] <;> linarith) (fun g _ => rfl) k
  refine ⟨_, _, z, rfl, e, fun f hf => ?_⟩
  have h3 := h2 f hf
  have ec : ∀ i : ℕ, cellCentre (d := 1) (fun _ i => (i - 2 : ℝ) / (2 * m)) (![(i : ℤ), 0, 0] + nghostOf 1 2) 0 = (i + 1 / 2) / (2 * m) := by
    intro i
    have : (![(i : ℤ), 0, 0] + nghostOf 1 2) (ax (0 : Fin 1)) = i + 2 := rfl
    unfold cellCentre
    rw [this]
    push_cast
    field_simp
    ring
  have eN : ((2 * m : ℕ) : ℝ) * (1 / (2 * m)) = 1 := by
    push_cast
    field_simp
  simp only [ec, hrho, h0, sub_zero, mul_one, abs_one, eN] at h3
  refine h3.trans ?_
  have : 0 ≤ Real.pi / (2 * m) := by positivity
  have e1 : 2 * Real.pi / 10 * (1 / (2 * m)) / 2 = Real.pi / (2 * m) / 10 := by ring
  have e2 : (4 * Real.sqrt (f.t * (1 / (2 * m))) + 1 / (2 * m)) * (2 * Real.pi / 10) = 4 * (2 * Real.pi / 10) * Real.sqrt (f.t * (1 / (2 * m))) + 2 * (Real.pi / (2 * m) / 10) := by ring
  rw [e1, e2]
  linarith

end Heracles

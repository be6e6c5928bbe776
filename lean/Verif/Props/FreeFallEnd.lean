import Verif.Props.FreeFallProgram
import Mathlib.Analysis.PSeries
import Mathlib.Algebra.Order.Chebyshev

/-!
# C73: what becomes of a falling gas
-/

namespace Heracles

variable {d n : ℕ} {p : ProgParams d n} {nx : Cell} {ng : ℤ} {X : Fin 3 → ℤ → ℝ} {Gr : (Cell → Fields d n ℝ) → Cell → Fin d → ℝ} {A : Machine d n}
  {order : List ℕ} {S : Cell → Prim d ℝ} {Fx : Cell → Fin n → ℝ} {U : Cell → View Cell (Fields d n ℝ)} {up : Cell → View Cell (VelPres d ℝ)} {force : Fin d → ℝ}

/-- Steps that are at least inversely proportional to the time have an unbounded sum of squares. -/
theorem squares_grow {C A B M : ℝ} (hC : 0 < C) (hA : 0 < A) (hM : 0 ≤ M) :
    ∃ k0 : ℕ, ∀ dt : ℕ → ℝ, (∀ j < k0, 0 ≤ dt j ∧ C ≤ dt j * (A + B * ∑ l ∈ Finset.range j, dt l)) → M < ∑ j ∈ Finset.range k0, dt j ^ 2 := by
  set D : ℝ := 2 * A ^ 2 + 2 * B ^ 2 * M with hD
  have hD0 : 0 < D := by positivity
  obtain ⟨k0, hk0⟩ := (Real.tendsto_sum_range_one_div_nat_succ_atTop.eventually_gt_atTop (M * D / C ^ 2)).exists
  refine ⟨k0, fun dt h => ?_⟩
  by_contra hcon
  have hcon := not_lt.1 hcon
  refine absurd hk0 (not_lt.2 ?_)
  rw [le_div_iff₀ (by positivity), Finset.sum_mul]
  calc ∑ j ∈ Finset.range k0, 1 / ((j : ℝ) + 1) * C ^ 2 ≤ ∑ j ∈ Finset.range k0, dt j ^ 2 * D := by
        refine Finset.sum_le_sum fun j hj => ?_
        have hj := Finset.mem_range.1 hj
        obtain ⟨h1, h2⟩ := h j hj
        have hT : (∑ l ∈ Finset.range j, dt l) ^ 2 ≤ j * M := by
          have := sq_sum_le_card_mul_sum_sq (s := Finset.range j) (f := dt)
          rw [Finset.card_range] at this
          refine this.trans (mul_le_mul_of_nonneg_left (le_trans ?_ hcon) (Nat.cast_nonneg j))
          exact Finset.sum_le_sum_of_subset_of_nonneg (Finset.range_subset_range.2 hj.le) fun i _ _ => sq_nonneg _
        set T := ∑ l ∈ Finset.range j, dt l
        have hj0 : (0 : ℝ) ≤ j := Nat.cast_nonneg j
        have h3 : C ^ 2 ≤ (dt j * (A + B * T)) ^ 2 := pow_le_pow_left₀ hC.le h2 2
        have h4 : (A + B * T) ^ 2 ≤ D * (j + 1) := by
          have : (A + B * T) ^ 2 ≤ 2 * A ^ 2 + 2 * B ^ 2 * T ^ 2 := by nlinarith [sq_nonneg (A - B * T)]
          have h5 : B ^ 2 * T ^ 2 ≤ B ^ 2 * (j * M) := mul_le_mul_of_nonneg_left hT (sq_nonneg _)
          rw [hD]
          nlinarith [mul_nonneg hj0 (sq_nonneg A), mul_nonneg (sq_nonneg B) hM]
        rw [one_div_mul_eq_div, div_le_iff₀ (by positivity)]
        calc C ^ 2 ≤ dt j ^ 2 * (A + B * T) ^ 2 := by rw [← mul_pow]; exact h3
          _ ≤ dt j ^ 2 * (D * (j + 1)) := mul_le_mul_of_nonneg_left h4 (sq_nonneg _)
          _ = dt j ^ 2 * D * (j + 1) := by ring
    _ = (∑ j ∈ Finset.range k0, dt j ^ 2) * D := by rw [Finset.sum_mul]
    _ ≤ M * D := mul_le_mul_of_nonneg_right hcon hD0.le

/-- A turn of a run without timed outputs whose fluid is not bad. -/
theorem runN_turn {H : Type} {q : LoopParams ℝ} {hy : Hydro H ℝ} {clock : ℕ → Bool} {r : RunState H ℝ} {k : ℕ} (htf : q.timeFreq ≤ 0) (hcl : clock k = false)
    (hrun : (runN q hy clock r k).status = .running) (hbad : hy.bad (runN q hy clock r k).s.h = false) {dt : ℝ}
    (hdt : dt = if (runN q hy clock r k).s.t + q.cfl * hy.timeStep (runN q hy clock r k).s.h ≥ q.tEnd then q.tEnd - (runN q hy clock r k).s.t
      else q.cfl * hy.timeStep (runN q hy clock r k).s.h) :
    (runN q hy clock r (k + 1)).s.h = hy.advance (runN q hy clock r k).s.h (runN q hy clock r k).s.t dt ∧
    (runN q hy clock r (k + 1)).s.t = (runN q hy clock r k).s.t + dt ∧ (runN q hy clock r (k + 1)).s.iter = (runN q hy clock r k).s.iter + 1 ∧
    ((runN q hy clock r k).s.t + q.cfl * hy.timeStep (runN q hy clock r k).s.h < q.tEnd → (runN q hy clock r k).s.iter + 1 < q.maxIter →
      (runN q hy clock r (k + 1)).status = .running) := by
  set R := runN q hy clock r k with hR
  have hn : runN q hy clock r (k + 1) = runStep q hy (clock k) R := rfl
  have htt : ∀ x, timeTrigger q R.s x = false := fun x => by simp [timeTrigger, not_lt.2 htf]
  rw [hn]
  unfold runStep
  rw [hrun]
  unfold iteration
  simp only [decideStep, htt, hcl, hbad, Bool.false_eq_true, if_false, false_and, pure, Except.pure, bind, Except.bind, Bool.or_false, decide_eq_true_eq, Bool.or_eq_true]
  refine ⟨by rw [hdt], by rw [hdt], trivial, fun h1 h2 => ?_⟩
  rw [if_neg (by rintro (h | h) <;> linarith)]

section
variable {s : Fields d n ℝ} (ts : Fields d n ℝ → ℝ)

/-- A gas pushed with the time steps of its own states. -/
noncomputable def fallSeq (force : Fin d → ℝ) (s : Fields d n ℝ) : ℕ → Fields d n ℝ
  | 0 => s
  | k + 1 => (fallSeq force s k).pushed (ts (fallSeq force s k)) force

theorem fallSeq_props (hr : s.rho ≠ 0) (k : ℕ) : (fallSeq ts force s k).rho = s.rho ∧ (fallSeq ts force s k).fx = s.fx ∧
    (∀ a, (fallSeq ts force s k).rhou a = s.rhou a + s.rho * (force a * ∑ j ∈ Finset.range k, ts (fallSeq ts force s j))) ∧
    (fallSeq ts force s k).cons.eint = s.cons.eint - s.rho * (∑ a, force a ^ 2) / 2 * ∑ j ∈ Finset.range k, ts (fallSeq ts force s j) ^ 2 := by
  induction k with
  | zero => exact ⟨rfl, rfl, fun a => by simp [fallSeq], by simp [fallSeq]⟩
  | succ k ih =>
    obtain ⟨q2, q3, q4, q5⟩ := ih
    refine ⟨q2, q3, fun a => ?_, ?_⟩
    · show (fallSeq ts force s k).rhou a + ts (fallSeq ts force s k) * force a * (fallSeq ts force s k).rho = _
      rw [q2, q4, Finset.sum_range_succ]
      ring
    · show ((fallSeq ts force s k).pushed (ts (fallSeq ts force s k)) force).cons.eint = _
      rw [pushed_eint _ (by rw [q2]; exact hr), q5, q2, Finset.sum_range_succ]
      ring

end

theorem internal_cons (q : Fields d n ℝ) : internal q = q.cons.eint := rfl

/-- The time step of a uniform gas. -/
theorem uniform_timeStep (hpos : ∀ a, 0 < nx a) (hng : 2 ≤ ng) (hgeom : p.hydro.geom = .cartesian) (hlo : p.hydro.lo ≤ 0) {h : ℝ} (hh : 0 < h)
    (hX : ∀ a i, h ≤ X a (i + 1) - X a i) {q : Fields d n ℝ} {c V : ℝ} (hc : p.hydro.eos.sound q.rho (p.hydro.eos.presFromEvol q.rho q.cons.eint) ≤ c)
    (hc0 : 0 ≤ p.hydro.eos.sound q.rho (p.hydro.eos.presFromEvol q.rho q.cons.eint)) (hV : ∑ a, (|q.rhou a / q.rho| + c) ≤ V)
    {b : Fin d} (hmove : 0 < |q.rhou b / q.rho| + p.hydro.eos.sound q.rho (p.hydro.eos.presFromEvol q.rho q.cons.eint)) :
    0 < (globHydro p nx ng X Gr order).timeStep (fun _ => q) ∧ h ≤ (globHydro p nx ng X Gr order).timeStep (fun _ => q) * V := by
  obtain ⟨m, hm⟩ := isRate_exists p.hydro.lo p.hydro.eos p.hydro.tr p.hydro.geom nx (nghostOf d ng) X fun _ => q
  set σ := p.hydro.eos.sound q.rho (p.hydro.eos.presFromEvol q.rho q.cons.eint) with hσ
  have hpr : primGlob p.hydro.eos (fun _ => q) = fun _ => ⟨q.cons.vel, q.cons.pressure p.hydro.eos⟩ := by
    funext C
    rw [primGlob_toPrim, toPrim_eq]
  have hrate : ∀ C, (globRank p.hydro.eos nx (nghostOf d ng) X (fun _ => q)).rate p.hydro.eos p.hydro.tr p.hydro.geom C =
      ∑ a : Fin d, (|q.rhou a / q.rho| + σ) / (X (ax a) (C (ax a) + 1) - X (ax a) (C (ax a))) := by
    intro C
    unfold RankData.rate globRank
    simp only [hgeom, cellLength, hpr]
    rfl
  have hlen : ∀ (C : Cell) (a : Fin d), 0 < X (ax a) (C (ax a) + 1) - X (ax a) (C (ax a)) := fun C a => hh.trans_le (hX _ _)
  have h0in : inExt (globExt nx (nghostOf d ng)) 0 = true := inExt_iff.2 fun a => by
    have := hpos a
    have h3 : 0 ≤ nghostOf d ng a := by unfold nghostOf; split <;> omega
    simp only [globExt, Pi.zero_apply]
    omega
  have hm0 : 0 < m := by
    refine lt_of_lt_of_le ?_ (hm.le 0 h0in)
    rw [hrate]
    exact Finset.sum_pos' (fun a _ => div_nonneg (add_nonneg (abs_nonneg _) hc0) (hlen 0 a).le) ⟨b, Finset.mem_univ _, div_pos hmove (hlen 0 b)⟩
  rw [globHydro_timeStep (Gr := Gr) (order := order) hm]
  refine ⟨by positivity, ?_⟩
  rw [one_div_mul_eq_div, le_div_iff₀ hm0]
  rcases hm.mem with e | ⟨C, -, e⟩
  · linarith
  · rw [e, hrate]
    calc h * ∑ a : Fin d, (|q.rhou a / q.rho| + σ) / (X (ax a) (C (ax a) + 1) - X (ax a) (C (ax a)))
        = ∑ a : Fin d, h * ((|q.rhou a / q.rho| + σ) / (X (ax a) (C (ax a) + 1) - X (ax a) (C (ax a)))) := Finset.mul_sum _ _ _
      _ ≤ ∑ a : Fin d, (|q.rhou a / q.rho| + c) := by
        refine Finset.sum_le_sum fun a _ => ?_
        rw [mul_div_assoc', div_le_iff₀ (hlen C a), mul_comm]
        exact mul_le_mul (by linarith) (hX _ _) hh.le (add_nonneg (abs_nonneg _) (hc0.trans hc))
      _ ≤ V := hV

/-- **C73, violated over whole runs of the program.** Take a gas law with a sound speed of at most `c` at density `w.rho` and internal energies up to that of the start, gravity `force` not zero, a uniform gas of positive internal energy, positive sound speed and a velocity not against
gravity, a Courant number `cfl > 0` and a smallest cell size `h > 0`. There are a time `T` and a number of iterations `N` such that for every run of the program with these (any number of cells, any mesh with cells of at least `h`, any process grid, limiter and solver,
boundaries periodic or open, no pressure fix, no heating, no timed outputs) that is asked to go on for a time `T` or more and for more than `N` iterations, the internal energy is negative in every cell after some turn: the run then stops with the error of src/main.cpp 424, or has just ended in such a state. The time step
gets shorter as the gas gets faster, but the sum of the squares of the time steps diverges all the same. -/
theorem C73_program_violated {eos : EoS ℝ} {w : Prim d ℝ} {cfl h c : ℝ} (hr : 0 < w.rho) (he0 : 0 < eos.evolFromPres w.rho w.P)
    (hcs : ∀ e, 0 ≤ e → e ≤ eos.evolFromPres w.rho w.P → 0 ≤ eos.sound w.rho (eos.presFromEvol w.rho e) ∧ eos.sound w.rho (eos.presFromEvol w.rho e) ≤ c)
    (hc1 : 0 < eos.sound w.rho (eos.presFromEvol w.rho (eos.evolFromPres w.rho w.P))) {b : Fin d} (hb0 : force b ≠ 0) (hdown : 0 ≤ ∑ a, w.u a * force a)
    (hcfl : 0 < cfl) (hh : 0 < h) :
    ∃ (T : ℝ) (N : ℕ), ∀ {n : ℕ} {p : ProgParams d n} {nx : Cell} {ng : ℤ} {X : Fin 3 → ℤ → ℝ} {Gr : (Cell → Fields d n ℝ) → Cell → Fin d → ℝ} {A : Machine d n}
      {order : List ℕ} {S : Cell → Prim d ℝ} {Fx : Cell → Fin n → ℝ} {U : Cell → View Cell (Fields d n ℝ)} {up : Cell → View Cell (VelPres d ℝ)},
      d ≤ 3 → (∀ a, 0 < nx a) → 2 ≤ ng → ParamsOk p order → MachineOk nx ng Gr A → InitOf nx ng A S Fx U up → ∀ clock : ℕ → Bool, (∀ k, clock k = false) →
      p.hydro.eos = eos → p.hydro.geom = .cartesian → p.hydro.lo ≤ 0 → (∀ a f, p.hydro.bcs a f = .periodic ∨ p.hydro.bcs a f = .nullGradient) → (∀ W c a, Gr W c a = force a) →
      p.fix = none → p.step ≠ .heatNickel → p.loop.cfl = cfl → p.loop.timeFreq ≤ 0 → T ≤ p.loop.tEnd - p.tIni → (N : ℤ) < p.loop.maxIter → (∀ a i, h ≤ X a (i + 1) - X a i) →
      ∀ {fx : Fin n → ℝ}, (∀ i, 0 ≤ fx i ∧ fx i ≤ 1) → (∀ g, inBox 0 nx g → S g = w ∧ Fx g = fx) →
      ∃ k ≤ N, ∃ z, progRun p nx (nghostOf d ng) (borderOf A.dims) A clock (progFresh p nx (nghostOf d ng) (borderOf A.dims) A X U up) k = some z ∧
        ∀ r, inBox 0 A.dims r → ∀ c, inExt (localExt nx A.dims (nghostOf d ng) r) c = true → (z.s.h.val r c).cons.eint < 0 := by
  have hf : 0 < ∑ a, force a ^ 2 :=
    lt_of_lt_of_le (by positivity) (Finset.single_le_sum (f := fun a => force a ^ 2) (fun b _ => sq_nonneg _) (Finset.mem_univ b))
  set e0 := eos.evolFromPres w.rho w.P with he0'
  set L := w.rho * (∑ a, force a ^ 2) / 2 with hL
  have hL0 : 0 < L := by positivity
  set M := e0 / L with hM
  have hM0 : 0 ≤ M := by positivity
  have hML : L * M = e0 := mul_div_cancel₀ _ hL0.ne'
  have hcpos : 0 < c := hc1.trans_le (hcs e0 he0.le le_rfl).2
  obtain ⟨k0, hk0⟩ := squares_grow (C := cfl * h) (A := ∑ a, (|w.u a| + c)) (B := ∑ a, |force a|) (mul_pos hcfl hh)
    (Finset.sum_pos (fun a _ => add_pos_of_nonneg_of_pos (abs_nonneg _) hcpos) ⟨b, Finset.mem_univ _⟩) hM0
  refine ⟨(k0 * M + 1) + (M + 1), k0, ?_⟩
  intro n p nx ng X Gr A order S Fx U up hd3 hpos hng hp hA hI clock hclk heos hgeom hlo hb hGr hfix hs hpcfl htf hT hmax hX fx hfx hS
  obtain ⟨z0, e1, f0⟩ := progFresh_follows (X := X) hd3 (fun a => (hpos a).le) hng hp hA hI
  set hy := globHydro p nx ng X Gr order with hhy
  set W0 := bcGlob p.hydro.bcs nx (nghostOf d ng) order (fun g => consFields p.hydro.eos (S g) (Fx g)) with hW0
  set r0 := freshRun p.loop p.tIni W0 with hr0
  set s := consFields eos w fx with hs0
  have hsr : s.rho = w.rho := rfl
  have hsr0 : s.rho ≠ 0 := hr.ne'
  have hse : s.cons.eint = e0 := toCons_eint hr.ne'
  have hb2 : ∀ a f, p.hydro.bcs a f ≠ .reflexive := fun a f => by rcases hb a f with h | h <;> rw [h] <;> decide
  have hinit : W0 = fun _ => s := funext fun C => by
    refine bcGlob_copies (P := fun q => q = s) hb2 hpos (fun g hg => ?_) C
    rw [(hS g hg).1, (hS g hg).2, heos]
  set ts : Fields d n ℝ → ℝ := fun q => p.loop.cfl * hy.timeStep (fun _ => q) with hts
  set q := fallSeq ts force s with hq
  have hqp := fun k => fallSeq_props (force := force) ts hsr0 k
  set Tk : ℕ → ℝ := fun k => ∑ j ∈ Finset.range k, ts (q j) with hTk
  have hqe : ∀ k, (q k).cons.eint = e0 - L * ∑ j ∈ Finset.range k, ts (q j) ^ 2 := fun k => by
    rw [(hqp k).2.2.2, hse]
    rfl
  have hvel : ∀ k a, (q k).rhou a / (q k).rho = w.u a + force a * Tk k := fun k a => by
    rw [(hqp k).2.2.1, (hqp k).1]
    show (w.rho * w.u a + w.rho * _) / w.rho = _
    rw [← mul_add, mul_div_cancel_left₀ _ hr.ne']
  have hle : ∀ k, (q k).cons.eint ≤ e0 := fun k => by
    rw [hqe]
    have : 0 ≤ ∑ j ∈ Finset.range k, ts (q j) ^ 2 := Finset.sum_nonneg fun _ _ => sq_nonneg _
    have := mul_nonneg hL0.le this
    linarith
  -- the time steps while the internal energy is not negative
  have hstep : ∀ k, (∀ j ≤ k, 0 ≤ (q j).cons.eint) → 0 < ts (q k) ∧ cfl * h ≤ ts (q k) * (∑ a, (|w.u a| + c) + (∑ a, |force a|) * Tk k) := by
    intro k
    induction k using Nat.strong_induction_on with
    | _ k ih =>
      intro hk
      have hTk0 : 0 ≤ Tk k := Finset.sum_nonneg fun j hj => (ih j (Finset.mem_range.1 hj) fun l hl => hk l (hl.trans (Finset.mem_range.1 hj).le)).1.le
      have hcq := hcs _ (hk k le_rfl) (hle k)
      have hrk : (q k).rho = w.rho := (hqp k).1
      obtain ⟨b', hb'⟩ : ∃ b' : Fin d, 0 < |(q k).rhou b' / (q k).rho| + p.hydro.eos.sound (q k).rho (p.hydro.eos.presFromEvol (q k).rho (q k).cons.eint) := by
        rw [heos, hrk]
        rcases k with _ | k
        · refine ⟨b, add_pos_of_nonneg_of_pos (abs_nonneg _) ?_⟩
          show 0 < eos.sound w.rho (eos.presFromEvol w.rho s.cons.eint)
          rw [hse]
          exact hc1
        · have hTpos : 0 < Tk (k + 1) := by
            refine Finset.sum_pos (fun j hj => (ih j (Finset.mem_range.1 hj) fun l hl => hk l (hl.trans (Finset.mem_range.1 hj).le)).1) ⟨0, by simp⟩
          have hsum : 0 < ∑ a, (w.u a + force a * Tk (k + 1)) * force a := by
            have e : ∑ a, (w.u a + force a * Tk (k + 1)) * force a = ∑ a, w.u a * force a + Tk (k + 1) * ∑ a, force a ^ 2 := by
              rw [Finset.mul_sum, ← Finset.sum_add_distrib]
              exact Finset.sum_congr rfl fun a _ => by ring
            rw [e]
            have := mul_pos hTpos hf
            linarith
          obtain ⟨b', -, hb'⟩ := Finset.exists_ne_zero_of_sum_ne_zero hsum.ne'
          have hv := hvel (k + 1) b'
          rw [hrk] at hv
          refine ⟨b', add_pos_of_pos_of_nonneg ?_ hcq.1⟩
          rw [hv]
          exact abs_pos.2 (left_ne_zero_of_mul hb')
      have hU := uniform_timeStep (p := p) (Gr := Gr) (order := order) hpos hng hgeom hlo hh hX (q := q k) (c := c) (V := ∑ a, (|w.u a| + c) + (∑ a, |force a|) * Tk k)
        (by rw [heos, hrk]; exact hcq.2) (by rw [heos, hrk]; exact hcq.1) (by
          rw [Finset.sum_mul, ← Finset.sum_add_distrib]
          refine Finset.sum_le_sum fun a _ => ?_
          rw [hvel]
          have h1 := abs_add_le (w.u a) (force a * Tk k)
          rw [abs_mul, abs_of_nonneg hTk0] at h1
          linarith) hb'
      refine ⟨mul_pos (hpcfl ▸ hcfl) hU.1, ?_⟩
      show cfl * h ≤ p.loop.cfl * _ * _
      rw [hpcfl, mul_assoc]
      exact mul_le_mul_of_nonneg_left hU.2 hcfl.le
  -- the first negative internal energy
  have hneg : ∃ k, k ≤ k0 ∧ (q k).cons.eint < 0 := by
    by_contra hcon
    push Not at hcon
    have := hk0 (fun j => ts (q j)) fun j hj => by
      obtain ⟨h1, h2⟩ := hstep j fun l hl => hcon l (by omega)
      exact ⟨h1.le, h2⟩
    have h3 := hcon k0 le_rfl
    rw [hqe] at h3
    have := mul_lt_mul_of_pos_left this hL0
    rw [hML] at this
    linarith
  classical
  obtain ⟨hk1, hk1e⟩ := Nat.find_spec hneg
  have hmin : ∀ j < Nat.find hneg, 0 ≤ (q j).cons.eint := fun j hj => by
    have := Nat.find_min hneg hj
    rw [not_and] at this
    exact not_lt.1 (this (by omega))
  generalize Nat.find hneg = k1 at hk1 hk1e hmin
  obtain ⟨k2, rfl⟩ : ∃ k2, k1 = k2 + 1 := by
    rcases k1 with _ | k2
    · exfalso
      have : (q 0).cons.eint = e0 := hse
      linarith
    · exact ⟨k2, rfl⟩
  have hTb : ∀ j ≤ k2, Tk j ≤ k0 * M + 1 := fun j hj => by
    have h1 : ∑ l ∈ Finset.range j, ts (q l) ^ 2 ≤ M := by
      have h2 := hmin j (by omega)
      rw [hqe, ← hML] at h2
      exact le_of_mul_le_mul_left (by linarith) hL0
    have h3 := sq_sum_le_card_mul_sum_sq (s := Finset.range j) (f := fun l => ts (q l))
    rw [Finset.card_range] at h3
    have h4 : Tk j ^ 2 ≤ k0 * M := h3.trans (mul_le_mul (by exact_mod_cast (by omega : j ≤ k0)) h1 (Finset.sum_nonneg fun _ _ => sq_nonneg _) (Nat.cast_nonneg _))
    nlinarith [sq_nonneg (Tk j - 1), sq_nonneg (Tk j)]
  have hrun : ∀ j ≤ k2, (runN p.loop hy clock r0 j).s.h = (fun _ => q j) ∧ (runN p.loop hy clock r0 j).s.t = p.tIni + Tk j ∧ (runN p.loop hy clock r0 j).s.iter = j ∧
      (runN p.loop hy clock r0 j).status = .running := by
    intro j
    induction j with
    | zero =>
      intro _
      show r0.s.h = _ ∧ r0.s.t = _ ∧ r0.s.iter = _ ∧ r0.status = _
      rw [hr0, hinit]
      unfold freshRun
      split <;> exact ⟨rfl, by simp [hTk], rfl, rfl⟩
    | succ j ih =>
      intro hj
      obtain ⟨i1, i2, i3, i4⟩ := ih (by omega)
      have hnb : hy.bad (runN p.loop hy clock r0 j).s.h = false := by
        rw [← Bool.not_eq_true, hhy, globHydro_bad]
        rintro ⟨g, -, hg⟩
        rw [← hhy, i1, internal_cons] at hg
        exact absurd (hmin j (by omega)) (not_le.2 hg)
      have hTs : Tk (j + 1) = Tk j + ts (q j) := Finset.sum_range_succ _ _
      have hlt : (runN p.loop hy clock r0 j).s.t + p.loop.cfl * hy.timeStep (runN p.loop hy clock r0 j).s.h < p.loop.tEnd := by
        rw [i1, i2]
        have := hTb (j + 1) hj
        rw [hTs] at this
        show p.tIni + Tk j + ts (q j) < _
        linarith
      obtain ⟨t1, t2, t3, t4⟩ := runN_turn (dt := ts (q j)) htf (hclk j) i4 hnb (by rw [if_neg (not_le.2 hlt), i1])
      refine ⟨?_, ?_, ?_, t4 hlt (by rw [i3]; omega)⟩
      · rw [t1, i1]
        exact funext fun C => fell_advance hd3 hpos hng hgeom hb hGr hfix hs (q := q j) (by rw [(hqp j).1]; exact hsr0) (by rw [(hqp j).2.1]; exact hfx) (fun _ => rfl) _ _ C
      · rw [t2, i2, hTs, add_assoc]
      · rw [t3, i3]
        push_cast
        rfl
  obtain ⟨i1, i2, i3, i4⟩ := hrun k2 le_rfl
  have hnb : hy.bad (runN p.loop hy clock r0 k2).s.h = false := by
    rw [← Bool.not_eq_true, hhy, globHydro_bad]
    rintro ⟨g, -, hg⟩
    rw [← hhy, i1, internal_cons] at hg
    exact absurd (hmin k2 (by omega)) (not_le.2 hg)
  obtain ⟨t1, -⟩ := runN_turn htf (hclk k2) i4 hnb rfl
  obtain ⟨z, e, hz⟩ := progRun_follows hd3 (fun a => (hpos a).le) hng hp hA clock e1 f0 (k2 + 1)
  refine ⟨k2 + 1, hk1, z, e, fun r hrk C hC => ?_⟩
  rw [hz.h.val r hrk C hC]
  show ((runN p.loop hy clock r0 (k2 + 1)).s.h _).cons.eint < 0
  rw [t1, i1, i2, fell_advance hd3 hpos hng hgeom hb hGr hfix hs (q := q k2) (by rw [(hqp k2).1]; exact hsr0) (by rw [(hqp k2).2.1]; exact hfx) (fun _ => rfl)]
  split
  · rw [pushed_eint _ (by rw [(hqp k2).1]; exact hsr0), (hqp k2).1, hsr]
    have h1 : M + 1 ≤ p.loop.tEnd - (p.tIni + Tk k2) := by
      have := hTb k2 le_rfl
      linarith
    have h2 : M < (p.loop.tEnd - (p.tIni + Tk k2)) ^ 2 := by nlinarith
    have h3 := mul_lt_mul_of_pos_left h2 hL0
    rw [hML] at h3
    have h4 := hle k2
    have h5 : w.rho * (∑ i, force i ^ 2) * (p.loop.tEnd - (p.tIni + Tk k2)) ^ 2 / 2 = L * (p.loop.tEnd - (p.tIni + Tk k2)) ^ 2 := by rw [hL]; ring
    rw [h5]
    linarith
  · exact hk1e

/-- A perfect gas at rest in a periodic tube of 8 cells on two ranks, gravity 1: there are a time and a number of iterations such that a run asked to go beyond them comes to a negative internal energy; until then, and in all files, it falls as a stone. -/
example {g : Gas} (hg : g.Physical) : ∃ (T : ℝ) (N : ℕ), ∀ (p : ProgParams 1 0), p.hydro.bcs = (fun _ _ => .periodic) → p.hydro.order = [some 0, some 1] → p.step = .off → p.fix = none → p.top = 10 ^ 308 →
    p.hydro.eos = PerfectGas.toEoS g → p.hydro.geom = .cartesian → p.hydro.lo = -10 ^ 308 → p.loop.cfl = 1 / 2 → p.loop.timeFreq = 0 → T ≤ p.loop.tEnd - p.tIni → N < p.loop.maxIter →
    ∃ (A : Machine 1 0) (IA : (Cell → View Cell (Fields 1 0 ℝ)) × (Cell → View Cell (VelPres 1 ℝ))), A.dims = ![2, 1, 1] ∧
      (∃ k ≤ N, ∃ z, progRun p ![8, 1, 1] (nghostOf 1 2) (borderOf A.dims) A (fun _ => false)
        (progFresh p ![8, 1, 1] (nghostOf 1 2) (borderOf A.dims) A (fun _ i => (i : ℝ) / 10) IA.1 IA.2) k = some z ∧
        ∀ r, inBox 0 ![2, 1, 1] r → ∀ c, inExt (localExt ![8, 1, 1] ![2, 1, 1] (nghostOf 1 2) r) c = true → (z.s.h.val r c).cons.eint < 0) ∧
      ∃ z, progRun p ![8, 1, 1] (nghostOf 1 2) (borderOf A.dims) A (fun _ => false)
        (progFresh p ![8, 1, 1] (nghostOf 1 2) (borderOf A.dims) A (fun _ i => (i : ℝ) / 10) IA.1 IA.2) 100 = some z ∧
        ∀ f ∈ z.files, ∀ g, inBox 0 ![8, 1, 1] g → (f.h.u 0).at g = f.t - p.tIni := by
  have hev : (PerfectGas.toEoS g).evolFromPres 2 7 = 7 / g.gammaM1 := perfectGas_evol hg 7 two_pos
  have hga := hg.gammaM1_pos
  have hgp : 0 < g.gamma := by linarith [hg.gamma]
  have hpe : ∀ e, (PerfectGas.toEoS g).sound 2 ((PerfectGas.toEoS g).presFromEvol 2 e) = Real.sqrt (g.gamma * (g.gammaM1 * e) / 2) := fun e => by
    show PerfectGas.soundSpeed g 2 (PerfectGas.presFromEvol g 2 e) = _
    have hm := hg.mmw
    have hk : PerfectGas.presFromEvol g 2 e = g.gammaM1 * e := by
      unfold PerfectGas.presFromEvol PerfectGas.presFromTemp PerfectGas.tempFromEvol
      have := kB_pos.ne'
      have := mP_pos.ne'
      field_simp
    unfold PerfectGas.soundSpeed
    rw [hk]
  obtain ⟨T, N, h⟩ := C73_program_violated (d := 1) (force := fun _ => 1) (eos := PerfectGas.toEoS g) (w := ⟨2, fun _ => 0, 7⟩) (cfl := 1 / 2) (h := 1 / 10) (c := Real.sqrt (g.gamma * 7 / 2))
    two_pos (by rw [hev]; positivity) (fun e h0 h1 => by
      rw [hpe]
      refine ⟨Real.sqrt_nonneg _, Real.sqrt_le_sqrt ?_⟩
      rw [hev, le_div_iff₀ hga] at h1
      have h2 : g.gammaM1 * e ≤ 7 := by linarith
      have := mul_le_mul_of_nonneg_left h2 hgp.le
      linarith) (by
      rw [hpe, hev]
      refine Real.sqrt_pos.2 ?_
      positivity) (b := 0) one_ne_zero (by simp) (by norm_num) (by norm_num)
  refine ⟨T, N, fun p hb hpo hs hf ht he hge hlo hc htf h1 h2 => ?_⟩
  have hpos : ∀ a, 0 < (![8, 1, 1] : Cell) a := by decide
  have hN : ∀ a, 0 ≤ (![8, 1, 1] : Cell) a := by decide
  have hp : ParamsOk p [0, 1] := ⟨by rw [hb]; simp, by decide, hpo, by rw [hs]; simp, by rw [ht]; norm_num⟩
  have hA := mkMachine_ok (d := 1) (n := 0) (ng := 2) hN (dims := ![2, 1, 1]) (by decide) 1 (by norm_num) (by
    intro a ha r h0 h1
    rw [localSize_eq (hN a) (lt_of_le_of_lt h0 h1)]
    fin_cases a
    · simp [not_lt.2 h0]
    · simp at ha
    · simp at ha)
  have hi := initArrays_ok (nx := ![8, 1, 1]) (ng := 2) (A := mkMachine 1 0 ![8, 1, 1] 2 hN ![2, 1, 1] (by decide) 1) (fun _ => ⟨2, fun _ => 0, 7⟩) (fun _ => Fin.elim0)
  refine ⟨_, _, rfl, h (fx := Fin.elim0) (by norm_num) hpos (by norm_num) hp hA hi (fun _ => false) (fun _ => rfl) he hge (by rw [hlo]; norm_num) (fun a f => by rw [hb]; exact .inl rfl) (fun _ _ _ => rfl) hf
    (by rw [hs]; simp) hc htf.le h1 h2 (fun a i => by push_cast; ring_nf; norm_num) (fun i => i.elim0) (fun _ _ => ⟨rfl, rfl⟩), ?_⟩
  obtain ⟨z, e, -, h3⟩ := C73_program_partial (p := p) (X := fun _ i => (i : ℝ) / 10) (force := fun _ => 1) (by norm_num) hpos (by norm_num) hp hA hi (fun _ => false) hge (fun a f => by rw [hb]; exact .inl rfl) (fun _ _ _ => rfl) hf
    (by rw [hs]; simp) (w := ⟨2, fun _ => 0, 7⟩) two_pos (fx := Fin.elim0) (fun i => i.elim0) (fun _ _ => ⟨rfl, rfl⟩) 100
  exact ⟨z, e, fun f hf' g hg => by rw [(h3 f hf' g hg).2.2 0]; ring⟩

end Heracles

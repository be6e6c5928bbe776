import Verif.Props.FreeFallProgram
import Verif.Props.Convergence
import Verif.Spec.Heated
import Mathlib.Analysis.Calculus.Deriv.MeanValue

/-!
# C110: a uniform gas heated by nickel
-/

namespace Heracles

variable {d n : ℕ}

namespace Nickel

theorem power_antitone : Antitone power := by
  intro s t h
  rw [← C51_decay_rate, ← C51_decay_rate]
  have hN : (8.8 : ℝ) * unitDay = tauNi := by norm_num [unitDay, tauNi]
  have hC : (111.3 : ℝ) * unitDay = tauCo := by norm_num [unitDay, tauCo]
  have hM : (55.9421278 : ℝ) * unitAmu = mNi := by norm_num [unitAmu, mNi]
  have hq : (1.75 : ℝ) * unitMeV = qNi := by norm_num [unitMeV, qNi]
  have hq' : (3.73 : ℝ) * unitMeV = qCo := by norm_num [unitMeV, qCo]
  unfold nickelEpsilon
  rw [hN, hC, hM, hq, hq']
  have h1 : 0 < qNi * (tauCo / tauNi - 1) - qCo := by norm_num [qNi, qCo, tauCo, tauNi]
  have h2 : 0 < qCo := by norm_num [qCo]
  have h3 : 0 < 1 / (mNi * (tauCo - tauNi)) := by norm_num [mNi, tauCo, tauNi]
  have h4 : 0 < tauNi := by norm_num [tauNi]
  have h5 : 0 < tauCo := by norm_num [tauCo]
  have e1 : Real.exp (-t / tauNi) ≤ Real.exp (-s / tauNi) := Real.exp_le_exp.2 (div_le_div_of_nonneg_right (neg_le_neg h) h4.le)
  have e2 : Real.exp (-t / tauCo) ≤ Real.exp (-s / tauCo) := Real.exp_le_exp.2 (div_le_div_of_nonneg_right (neg_le_neg h) h5.le)
  exact mul_le_mul_of_nonneg_right (add_le_add (mul_le_mul_of_nonneg_left e1 h1.le) (mul_le_mul_of_nonneg_left e2 h2.le)) h3.le

theorem power_pos (t : ℝ) : 0 < power t := C51_decay_rate t ▸ C51_rate_pos t

/-- The power is the rate of release. -/
theorem released_deriv (t : ℝ) : HasDerivAt released (power t) t := by
  obtain ⟨h1, h2, -, -⟩ := C51_decay_chain t
  have := ((h1.const_sub (nNi 0)).const_mul qNi).add (((h1.const_sub (nNi 0)).sub h2).const_mul qCo)
  refine this.congr_deriv ?_
  unfold power
  ring

theorem released_step {t dt : ℝ} (h : 0 ≤ dt) : power (t + dt) * dt ≤ released (t + dt) - released t ∧ released (t + dt) - released t ≤ power t * dt := by
  rcases h.eq_or_lt with h | h
  · rw [← h]; simp
  · obtain ⟨c, hc, e⟩ := exists_hasDerivAt_eq_slope released power (show t < t + dt by linarith)
      (fun s _ => (released_deriv s).continuousAt.continuousWithinAt) (fun s _ => released_deriv s)
    have e' : released (t + dt) - released t = power c * dt := by
      rw [e, add_sub_cancel_left, div_mul_cancel₀ _ h.ne']
    rw [e']
    exact ⟨mul_le_mul_of_nonneg_right (power_antitone hc.2.le) h.le, mul_le_mul_of_nonneg_right (power_antitone hc.1.le) h.le⟩

theorem released_mono {s t : ℝ} (h : s ≤ t) : released s ≤ released t := by
  have := (released_step (t := s) (sub_nonneg.2 h)).1
  rw [add_sub_cancel] at this
  nlinarith [power_pos t]

end Nickel

open Nickel in
/-- **C110, the energy released** (specification): zero at the start, its rate is the power of C51, it never decreases, and it never exceeds the energy of the decay of all the nickel to iron. -/
theorem C110_released : released 0 = 0 ∧ (∀ t, HasDerivAt released (power t) t) ∧ Monotone released ∧ ∀ t, 0 ≤ t → released t ≤ (qNi + qCo) / mNi := by
  obtain ⟨-, -, h3, h4⟩ := C51_decay_chain 0
  refine ⟨by unfold released; rw [h4]; ring, released_deriv, fun s t h => released_mono h, fun t ht => ?_⟩
  have a1 : 0 < qNi := by norm_num [qNi]
  have a2 : 0 < qCo := by norm_num [qCo]
  have a3 : 0 < mNi := by norm_num [mNi]
  have a4 : 0 < tauNi := by norm_num [tauNi]
  have a5 : 0 < tauCo := by norm_num [tauCo]
  have a6 : 0 < tauCo - tauNi := by norm_num [tauNi, tauCo]
  have n1 : 0 ≤ nNi t := div_nonneg (Real.exp_pos _).le a3.le
  have n2 : 0 ≤ nCo t := by
    refine div_nonneg (mul_nonneg (div_nonneg a5.le a6.le) (sub_nonneg.2 (Real.exp_le_exp.2 ?_))) a3.le
    rw [neg_div, neg_div]
    exact neg_le_neg (div_le_div_of_nonneg_left ht a4 (by linarith))
  unfold released
  rw [h3, add_div]
  have := mul_nonneg a1.le n1
  have := mul_nonneg a2.le n1
  have := mul_nonneg a2.le n2
  have e1 : qNi / mNi = qNi * (1 / mNi) := by ring
  have e2 : qCo / mNi = qCo * (1 / mNi) := by ring
  rw [e1, e2]
  nlinarith

open Nickel in
/-- A day: power times a day exceeds what is released in it. -/
example : released 86400 ≤ power 0 * 86400 ∧ power 86400 * 86400 ≤ released 86400 := by
  have h := released_step (t := 0) (dt := 86400) (by norm_num)
  rw [zero_add, C110_released.1, sub_zero] at h
  exact ⟨h.2, h.1⟩

variable {p : ProgParams d n} {nx : Cell} {ng : ℤ} {X : Fin 3 → ℤ → ℝ} {Gr : (Cell → Fields d n ℝ) → Cell → Fin d → ℝ} {A : Machine d n}
  {order : List ℕ} {S : Cell → Prim d ℝ} {Fx : Cell → Fin n → ℝ} {U : Cell → View Cell (Fields d n ℝ)} {up : Cell → View Cell (VelPres d ℝ)}

/-- A turn of the loop for a uniform gas without gravity: it is heated and stays uniform. -/
theorem heated_advance (hd3 : d ≤ 3) (hpos : ∀ a, 0 < nx a) (hng : 2 ≤ ng) (ho : ∀ id ∈ order, id < 2 * d) (hgeom : p.hydro.geom = .cartesian)
    (hb : ∀ a f, p.hydro.bcs a f = .periodic ∨ p.hydro.bcs a f = .nullGradient) (h0 : ∀ W C a, Gr W C a = 0) (hfix : p.fix = none) (hs : p.step = .heatNickel) (hn : 0 < n)
    {q : Fields d n ℝ} (hr : q.rho ≠ 0) (hfx : ∀ i, 0 ≤ q.fx i ∧ q.fx i ≤ 1) {W : Cell → Fields d n ℝ} (hW : ∀ C, W C = q) (t dt : ℝ) (C : Cell) :
    (globHydro p nx ng X Gr order).advance W t dt C = { q with E := q.E + q.fx ⟨0, hn⟩ * q.rho * Nickel.power t * dt } := by
  have hb2 : ∀ a f, p.hydro.bcs a f ≠ .reflexive := fun a f => by rcases hb a f with h | h <;> rw [h] <;> decide
  rw [globHydro_advance]
  refine bcGlob_copies (P := fun s => s = { q with E := q.E + q.fx ⟨0, hn⟩ * q.rho * Nickel.power t * dt }) hb2 hpos (fun g hg => ?_) C
  have e : ∀ (G : PGrid d ℝ) (V : Cell → VelPres d ℝ) (c : Cell), progVal p G t dt W V c = heatVal .heatNickel t dt (progVal { p with step := .off } G t dt W V c) := by
    intro G V c
    unfold progVal
    rw [hs]
    rfl
  have e2 := fell_advance (p := { p with step := .off }) (X := X) (order := order) (force := fun _ => 0) hd3 hpos hng hgeom hb h0 hfix (by show UserStepKind.off ≠ _; decide) hr hfx hW t dt (g + nghostOf d ng)
  rw [globHydro_advance, bcGlob_interior _ hd3 (by omega) ho _ hg] at e2
  have e3 : q.pushed dt (fun _ => 0) = q := by
    unfold Fields.pushed
    simp
  rw [e3] at e2
  rw [e]
  refine (congrArg (heatVal .heatNickel t dt) e2).trans ?_
  unfold heatVal
  rw [dif_pos hn, C51_decay_rate]

/-- A uniform gas heated from time `t0` to time `t`. -/
structure Heated (r : ℝ) (v : Fin d → ℝ) (y : Fin n → ℝ) (x t0 e0 tau t : ℝ) (W : Cell → Fields d n ℝ) (q : Fields d n ℝ) : Prop where
  all : ∀ C, W C = q
  rho : q.rho = r
  fx : q.fx = y
  rhou : ∀ a, q.rhou a = r * v a
  time : t0 ≤ t
  least : e0 + r * x * (Nickel.released t - Nickel.released t0) ≤ q.cons.eint
  most : q.cons.eint ≤ e0 + r * x * (Nickel.released t - Nickel.released t0 + tau * (Nickel.power t0 - Nickel.power t))

section
variable {w : Prim d ℝ} {fx : Fin n → ℝ} {tau : ℝ} {G : Gas}

theorem Heated.sound {rho : ℝ} {u : Fin d → ℝ} {x t0 e0 t : ℝ} {W : Cell → Fields d n ℝ} {q : Fields d n ℝ} (h : Heated rho u fx x t0 e0 tau t W q) (hr : 0 < rho) (hx : 0 ≤ x) : e0 ≤ q.cons.eint := by
  have := Nickel.released_mono h.time
  have : 0 ≤ rho * x * (Nickel.released t - Nickel.released t0) := mul_nonneg (mul_nonneg hr.le hx) (by linarith)
  linarith [h.least]

theorem perfectGas_pres {g : Gas} {r : ℝ} (hg : g.Physical) (hr : 0 < r) (e : ℝ) : (PerfectGas.toEoS g).presFromEvol r e = g.gammaM1 * e := by
  have h1 := kB_pos.ne'
  have h2 := mP_pos.ne'
  have h3 := hg.mmw.ne'
  have h4 := hr.ne'
  simp only [PerfectGas.toEoS, PerfectGas.presFromEvol, PerfectGas.presFromTemp, PerfectGas.tempFromEvol]
  field_simp

/-- The time step of a heated gas is positive and not above that of the start. -/
theorem heated_timeStep (hd : 0 < d) (hpos : ∀ a, 0 < nx a) (hng : 2 ≤ ng) (hG : G.Physical) (heos : p.hydro.eos = PerfectGas.toEoS G) (hgeom : p.hydro.geom = .cartesian)
    (hX : ∀ a i, 0 ≤ i → i < nx a + 2 * nghostOf d ng a → X a i < X a (i + 1)) (hcfl : 0 ≤ p.loop.cfl) (hr : 0 < w.rho) (hP : 0 < w.P)
    (htau : p.loop.cfl * (X (ax ⟨0, hd⟩) 1 - X (ax ⟨0, hd⟩) 0) ≤ tau * p.hydro.eos.sound w.rho w.P) {x t0 t : ℝ} (hx : 0 ≤ x) {W : Cell → Fields d n ℝ} {q : Fields d n ℝ}
    (h : Heated w.rho w.u fx x t0 (p.hydro.eos.evolFromPres w.rho w.P) tau t W q) :
    0 ≤ p.loop.cfl * (globHydro p nx ng X Gr order).timeStep W ∧ p.loop.cfl * (globHydro p nx ng X Gr order).timeStep W ≤ tau := by
  obtain ⟨m, hm⟩ := isRate_exists p.hydro.lo p.hydro.eos p.hydro.tr p.hydro.geom nx (nghostOf d ng) X W
  have hg0 : ∀ a, 0 ≤ nghostOf d ng a := fun a => by unfold nghostOf; split <;> omega
  have h0in : inExt (globExt nx (nghostOf d ng)) 0 = true := inExt_iff.2 fun a => by
    have := hpos a
    have := hg0 a
    simp only [globExt, Pi.zero_apply]
    omega
  have hlen : ∀ a : Fin d, 0 < X (ax a) 1 - X (ax a) 0 := fun a => sub_pos.2 (hX _ 0 le_rfl (by have := hpos (ax a); have := hg0 (ax a); omega))
  have hc0 : 0 < p.hydro.eos.sound w.rho w.P := by
    rw [heos]; exact (PerfectGas.lawful hG).sound_pos _ _ hr hP
  have hPq : w.P ≤ (W 0).cons.pressure p.hydro.eos := by
    have h1 := h.sound hr hx
    have h2 : p.hydro.eos.evolFromPres w.rho w.P = w.P / G.gammaM1 := by rw [heos]; exact perfectGas_evol hG _ hr
    rw [h2, div_le_iff₀ hG.gammaM1_pos] at h1
    rw [h.all]
    show _ ≤ p.hydro.eos.presFromEvol q.rho q.cons.eint
    rw [h.rho, heos, perfectGas_pres hG hr]
    linarith
  have hcq : p.hydro.eos.sound w.rho w.P ≤ p.hydro.eos.sound (W 0).rho ((W 0).cons.pressure p.hydro.eos) := by
    rw [h.all, h.rho] at *
    rw [heos] at *
    refine Real.sqrt_le_sqrt ?_
    have : 0 < G.gamma := by linarith [hG.gamma]
    exact div_le_div_of_nonneg_right (mul_le_mul_of_nonneg_left hPq this.le) hr.le
  have hrate : ∑ a : Fin d, (|(primGlob p.hydro.eos W 0).u a| + p.hydro.eos.sound (W 0).rho (primGlob p.hydro.eos W 0).P) / (X (ax a) 1 - X (ax a) 0) ≤ m := by
    refine le_trans (le_of_eq ?_) (hm.le 0 h0in)
    unfold RankData.rate globRank
    simp only [hgeom, cellLength]
    rfl
  have hone : p.hydro.eos.sound w.rho w.P / (X (ax ⟨0, hd⟩) 1 - X (ax ⟨0, hd⟩) 0) ≤ m := by
    refine le_trans ?_ hrate
    have hsp : 0 ≤ p.hydro.eos.sound (W 0).rho (primGlob p.hydro.eos W 0).P := by
      rw [primGlob_toPrim, toPrim_eq]
      exact hc0.le.trans hcq
    refine le_trans ?_ (Finset.single_le_sum (f := fun a : Fin d => (|(primGlob p.hydro.eos W 0).u a| + p.hydro.eos.sound (W 0).rho (primGlob p.hydro.eos W 0).P) / (X (ax a) 1 - X (ax a) 0))
      (fun a _ => div_nonneg (add_nonneg (abs_nonneg _) hsp) (hlen a).le) (Finset.mem_univ ⟨0, hd⟩))
    refine div_le_div_of_nonneg_right ?_ (hlen _).le
    have : p.hydro.eos.sound w.rho w.P ≤ p.hydro.eos.sound (W 0).rho (primGlob p.hydro.eos W 0).P := by
      rw [primGlob_toPrim, toPrim_eq]
      exact hcq
    have := abs_nonneg ((primGlob p.hydro.eos W 0).u ⟨0, hd⟩)
    linarith
  have hm0 : 0 < m := lt_of_lt_of_le (div_pos hc0 (hlen _)) hone
  rw [globHydro_timeStep (Gr := Gr) (order := order) hm, mul_one_div]
  refine ⟨div_nonneg hcfl hm0.le, ?_⟩
  rw [div_le_iff₀ hm0]
  rw [div_le_iff₀ (hlen _)] at hone
  have htau0 : 0 ≤ tau := by
    by_contra hneg
    have : 0 ≤ p.loop.cfl * (X (ax ⟨0, hd⟩) 1 - X (ax ⟨0, hd⟩) 0) := mul_nonneg hcfl (hlen _).le
    nlinarith
  have h1 : p.loop.cfl * (X (ax ⟨0, hd⟩) 1 - X (ax ⟨0, hd⟩) 0) ≤ tau * m * (X (ax ⟨0, hd⟩) 1 - X (ax ⟨0, hd⟩) 0) := by
    refine htau.trans ?_
    rw [mul_assoc]
    exact mul_le_mul_of_nonneg_left hone htau0
  exact le_of_mul_le_mul_right h1 (hlen _)

/-- **C110.** A uniform gas with the heating by nickel on: perfect gas, Cartesian grid (any mesh), no gravity, no pressure fix, every boundary periodic or open, any limiter and solver, on any process grid. Then at every turn and in every file
density, velocity and mass fractions are those of the start, the energy is the same in all cells, and what was added to the internal energy is at least what the decay chain nickel - cobalt - iron has released since the start, for the
nickel that the first mass fraction says, and at most that plus the loss of power since the start times `tau`, the time step of the start. The run never fails for a negative energy. -/
theorem C110_heated (hd : 0 < d) (hd3 : d ≤ 3) (hpos : ∀ a, 0 < nx a) (hng : 2 ≤ ng) (hp : ParamsOk p order) (hA : MachineOk nx ng Gr A)
    (hI : InitOf nx ng A S Fx U up) (clock : ℕ → Bool) (hG : G.Physical) (heos : p.hydro.eos = PerfectGas.toEoS G) (hgeom : p.hydro.geom = .cartesian)
    (hb : ∀ a f, p.hydro.bcs a f = .periodic ∨ p.hydro.bcs a f = .nullGradient) (h0 : ∀ W C a, Gr W C a = 0) (hfix : p.fix = none) (hs : p.step = .heatNickel) (hn : 0 < n)
    (hX : ∀ a i, 0 ≤ i → i < nx a + 2 * nghostOf d ng a → X a i < X a (i + 1)) (hcfl : 0 ≤ p.loop.cfl) (hend : p.tIni ≤ p.loop.tEnd) (hr : 0 < w.rho) (hP : 0 < w.P)
    (hfx : ∀ i, 0 ≤ fx i ∧ fx i ≤ 1) (hS : ∀ g, inBox 0 nx g → S g = w ∧ Fx g = fx)
    (htau : p.loop.cfl * (X (ax ⟨0, hd⟩) 1 - X (ax ⟨0, hd⟩) 0) ≤ tau * p.hydro.eos.sound w.rho w.P) (k : ℕ) :
    ∃ z, progRun p nx (nghostOf d ng) (borderOf A.dims) A clock (progFresh p nx (nghostOf d ng) (borderOf A.dims) A X U up) k = some z ∧
      (p.loop.timeFreq ≤ 0 → z.status ≠ .failed) ∧
      ∀ f ∈ z.files, HeatedFile nx w.rho w.u fx (fx ⟨0, hn⟩) p.tIni (w.P / G.gammaM1) G.gammaM1 tau f := by
  obtain ⟨z0, e0, f0⟩ := progFresh_follows (X := X) hd3 (fun a => (hpos a).le) hng hp hA hI
  obtain ⟨z, e, hz⟩ := progRun_follows hd3 (fun a => (hpos a).le) hng hp hA clock e0 f0 k
  have hb2 : ∀ a f, p.hydro.bcs a f ≠ .reflexive := fun a f => by rcases hb a f with h | h <;> rw [h] <;> decide
  have hevol : p.hydro.eos.evolFromPres w.rho w.P = w.P / G.gammaM1 := by rw [heos]; exact perfectGas_evol hG _ hr
  have hev0 : 0 < w.P / G.gammaM1 := div_pos hP hG.gammaM1_pos
  have hx := (hfx ⟨0, hn⟩).1
  set R0 := freshRun p.loop p.tIni (bcGlob p.hydro.bcs nx (nghostOf d ng) order fun g => consFields p.hydro.eos (S g) (Fx g)) with hR0
  have hinit : ∃ q, Heated w.rho w.u fx (fx ⟨0, hn⟩) p.tIni (p.hydro.eos.evolFromPres w.rho w.P) tau p.tIni
      (bcGlob p.hydro.bcs nx (nghostOf d ng) order (fun g => consFields p.hydro.eos (S g) (Fx g))) q := by
    have he : (consFields p.hydro.eos w fx).cons.eint = p.hydro.eos.evolFromPres w.rho w.P := toCons_eint hr.ne'
    refine ⟨consFields p.hydro.eos w fx, fun C => ?_, rfl, rfl, fun a => rfl, le_rfl, ?_, ?_⟩
    · refine bcGlob_copies (P := fun q => q = consFields p.hydro.eos w fx) hb2 hpos (fun g hg => ?_) C
      rw [(hS g hg).1, (hS g hg).2]
    · rw [he, sub_self, mul_zero, add_zero]
    · rw [he]; simp
  have key := fun k => runN_inv_dt (q := p.loop) (hy := globHydro p nx ng X Gr order) (clock := clock) (r := R0)
    (I := fun W t => ∃ q, Heated w.rho w.u fx (fx ⟨0, hn⟩) p.tIni (p.hydro.eos.evolFromPres w.rho w.P) tau t W q)
    (by rw [hR0]; unfold freshRun; split <;> exact hinit)
    (fun o ho => by
      rw [hR0] at ho
      unfold freshRun at ho
      split at ho
      · rw [List.mem_singleton.1 ho]
        exact hinit
      · exact absurd ho List.not_mem_nil)
    (by rw [hR0]; unfold freshRun; split <;> exact hend)
    (fun W t ⟨q, h⟩ => (heated_timeStep hd hpos hng hG heos hgeom hX hcfl hr hP htau hx h).1)
    (fun W t dt ⟨q, h⟩ hdt hle => by
      have hdt' : dt ≤ tau := hle.trans (heated_timeStep hd hpos hng hG heos hgeom hX hcfl hr hP htau hx h).2
      have hqr : q.rho ≠ 0 := by rw [h.rho]; exact hr.ne'
      obtain ⟨s1, s2⟩ := Nickel.released_step (t := t) hdt
      have he : ({ q with E := q.E + q.fx ⟨0, hn⟩ * q.rho * Nickel.power t * dt } : Fields d n ℝ).cons.eint = q.cons.eint + w.rho * fx ⟨0, hn⟩ * (Nickel.power t * dt) := by
        show q.E + q.fx ⟨0, hn⟩ * q.rho * Nickel.power t * dt - (∑ i, q.rhou i ^ 2) / (2 * q.rho) = q.E - (∑ i, q.rhou i ^ 2) / (2 * q.rho) + _
        rw [h.rho, h.fx]
        ring
      have hanti : Nickel.power (t + dt) ≤ Nickel.power t := Nickel.power_antitone (by linarith)
      have hrx : 0 ≤ w.rho * fx ⟨0, hn⟩ := mul_nonneg hr.le hx
      refine ⟨_, heated_advance hd3 hpos hng hp.ids hgeom hb h0 hfix hs hn hqr (by rw [h.fx]; exact hfx) h.all t dt, h.rho, h.fx, h.rhou, by linarith [h.time], ?_, ?_⟩
      · rw [he]
        have := mul_le_mul_of_nonneg_left s2 hrx
        have := h.least
        nlinarith
      · rw [he]
        have h1 : Nickel.power t * dt ≤ Nickel.released (t + dt) - Nickel.released t + tau * (Nickel.power t - Nickel.power (t + dt)) := by
          have := mul_le_mul_of_nonneg_right hdt' (sub_nonneg.2 hanti)
          linarith
        have := mul_le_mul_of_nonneg_left h1 hrx
        have := h.most
        nlinarith) k
  refine ⟨z, e, fun htf => ?_, fun f hf => ?_⟩
  · rw [hz.status]
    refine runN_never_fails (by rw [hR0]; unfold freshRun; split <;> exact fun h => Status.noConfusion h) (fun k => ?_) htf k
    obtain ⟨q, h⟩ := (key k).1
    by_contra hbad
    rw [Bool.not_eq_false, globHydro_bad] at hbad
    obtain ⟨g, -, hlt⟩ := hbad
    have h1 := h.sound hr hx
    rw [h.all] at hlt
    have h2 : internal q = q.cons.eint := by
      show q.E - kinetic q = q.E - (∑ i, q.rhou i ^ 2) / (2 * q.rho)
      unfold kinetic
      ring
    rw [hevol] at h1
    rw [h2] at hlt
    linarith
  · obtain ⟨o, ho, hfo, hfo'⟩ := forall₂_mem hz.files hf
    obtain ⟨q, h⟩ := (key k).2.2 o ho
    have ht : f.t = o.t := congrArg LoopState.t hfo'
    have hE : ∀ g, inBox 0 nx g → f.h.E.at g = q.E := fun g hg => by rw [FileOf.at hfo.E hg, h.all]
    have hei : q.cons.eint = q.E - w.rho * (∑ a, w.u a ^ 2) / 2 := by
      show q.E - (∑ i, q.rhou i ^ 2) / (2 * q.rho) = _
      simp only [h.rhou, h.rho, mul_pow, ← Finset.mul_sum]
      field_simp
    have hpr : ∀ C, primGlob p.hydro.eos o.h C = ⟨q.cons.vel, q.cons.pressure p.hydro.eos⟩ := fun C => by rw [primGlob_toPrim, toPrim_eq, h.all]
    refine ⟨fun g hg => ?_, fun g hg a => ?_, fun g hg l => ?_, fun g g' hg hg' => ?_, fun g hg => ?_, fun g hg => ?_, fun g hg => ?_⟩
    · rw [FileOf.at hfo.rho hg, h.all, h.rho]
    · rw [FileOf.at (hfo.u a) hg, hpr]
      show q.rhou a / q.rho = _
      rw [h.rhou, h.rho, mul_div_cancel_left₀ _ hr.ne']
    · rw [FileOf.at (hfo.fx l) hg, h.all, h.fx]
    · rw [hE g hg, hE g' hg']
    · rw [FileOf.at hfo.P hg, hpr, hE g hg, ← hei]
      show p.hydro.eos.presFromEvol q.rho q.cons.eint = _
      rw [h.rho, heos, perfectGas_pres hG hr]
    · rw [hE g hg, ← hei, ht, ← hevol]
      exact h.least
    · rw [hE g hg, ← hei, ht, ← hevol]
      exact h.most

end

end Heracles

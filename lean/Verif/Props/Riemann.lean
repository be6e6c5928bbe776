import Verif.Lemmas.Riemann

/-!
# Properties of the Riemann solvers (C24 - C29, C61)

States are admissible (positive density and pressure); `EoS.Lawful` holds for the perfect gas
(`PerfectGas.lawful`).
-/

namespace Heracles

variable {d : ℕ} {K : Type} [Field K] [LinearOrder K] [IsStrictOrderedRing K]

/-- The gas of the non-vacuity examples below (`gamma = 2`). -/
theorem sampleGas_physical : Gas.Physical ⟨2, 2 - 1, 1⟩ := ⟨by norm_num, by norm_num, rfl⟩

/-- Admissible states of that gas: density 1, momentum `(m, n)`, total energy `E > (m² + n²) / 2`. -/
theorem sampleGas_adm (m n E : ℝ) (h : (m ^ 2 + n ^ 2) / 2 < E) :
    Cons.Adm (PerfectGas.toEoS ⟨2, 2 - 1, 1⟩) (⟨1, ![m, n], E⟩ : Cons 2 ℝ) := by
  refine ⟨one_pos, ?_⟩
  show 0 < PerfectGas.presFromEvol _ _ _
  have h1 := kB_pos; have h2 := mP_pos
  have : Cons.eint (⟨1, ![m, n], E⟩ : Cons 2 ℝ) = E - (m ^ 2 + n ^ 2) / 2 := by
    simp [Cons.eint, Fin.sum_univ_two]
  rw [this]
  simp only [PerfectGas.presFromEvol, PerfectGas.presFromTemp, PerfectGas.tempFromEvol]
  have : 0 < E - (m ^ 2 + n ^ 2) / 2 := by linarith
  have : (0 : ℝ) < 2 - 1 := by norm_num
  positivity

/-- **C28.** HLLC is the flux at the origin of a fan of three waves: left wave `wL`, contact `us`, right wave
`wR`. The denominator of the contact speed does not vanish, the contact lies strictly between the two waves, the
intermediate densities are positive, the normal velocity is `us` and the pressure `ps` on both sides of the
contact, and the jump relations hold across the three waves. -/
theorem C28_hllc_fan {eos : EoS K} (he : eos.Lawful) {cL cR : Cons d K} (hL : cL.Adm eos) (hR : cR.Adm eos)
    (a : Fin d) :
    let wL := min (cL.vel a - cL.cs eos) (cR.vel a - cR.cs eos)
    let wR := max (cL.vel a + cL.cs eos) (cR.vel a + cR.cs eos)
    cL.rho * (wL - cL.vel a) - cR.rho * (wR - cR.vel a) ≠ 0 ∧
    ∃ (us ps : K) (UL UR : Cons d K),
      wL < us ∧ us < wR ∧ 0 < UL.rho ∧ 0 < UR.rho ∧ UL.vel a = us ∧ UR.vel a = us ∧
      (∀ i, i ≠ a → UL.vel i = cL.vel i ∧ UR.vel i = cR.vel i) ∧
      Jump cL UL (physFlux eos cL a) (eulerFlux UL.rho UL.rhou UL.E ps a) wL ∧
      Jump UL UR (eulerFlux UL.rho UL.rhou UL.E ps a) (eulerFlux UR.rho UR.rhou UR.E ps a) us ∧
      Jump UR cR (eulerFlux UR.rho UR.rhou UR.E ps a) (physFlux eos cR a) wR ∧
      (0 ≤ wL → hllcFlux eos cL cR a = physFlux eos cL a) ∧
      (wL ≤ 0 → 0 ≤ us → hllcFlux eos cL cR a = eulerFlux UL.rho UL.rhou UL.E ps a) ∧
      (us ≤ 0 → 0 ≤ wR → hllcFlux eos cL cR a = eulerFlux UR.rho UR.rhou UR.E ps a) ∧
      (wR ≤ 0 → hllcFlux eos cL cR a = physFlux eos cR a) := by
  intro wL wR
  obtain ⟨hD, -, -, us, ps, h1, h2, -, -, -, rL, rR, vL, vR, hf⟩ := hllc_full he hL hR a (rfl : wL = _) (rfl : wR = _)
  exact ⟨hD.ne, us, ps, _, _, h1, h2, rL, rR, (vL a).trans (if_pos rfl), (vR a).trans (if_pos rfl),
    fun i hi => ⟨(vL i).trans (if_neg hi), (vR i).trans (if_neg hi)⟩, hf _ _ rfl rfl⟩

/-- Non-vacuity: a shear layer with a pressure jump. -/
example := C28_hllc_fan (PerfectGas.lawful sampleGas_physical) (sampleGas_adm 1 2 5 (by norm_num))
  (sampleGas_adm (-1) 0 1 (by norm_num)) 0

/-- **C24.** With equal left and right states every solver returns the physical flux. -/
theorem C24_consistency (s : Solver) {eos : EoS K} (he : eos.Lawful) {c : Cons d K} (hc : c.Adm eos) (a : Fin d) :
    s.flux eos c c a = physFlux eos c a := by
  cases s with
  | hll =>
    have hcs := (hc.sound he).1
    have hne : max (c.vel a + c.cs eos) 0 - min (c.vel a - c.cs eos) 0 ≠ 0 := by
      have h1 := le_max_left (c.vel a + c.cs eos) 0
      have h2 := min_le_left (c.vel a - c.cs eos) 0
      apply ne_of_gt
      linarith
    have hF : ∀ U F : K, fluxHll U U F F (min (c.vel a - c.cs eos) 0) (max (c.vel a + c.cs eos) 0) = F := by
      intro U F
      rw [fluxHll, div_eq_iff hne]; ring
    show hllFlux eos c c a = _
    simp only [hllFlux, (wave_eq eos c c a).1, (wave_eq eos c c a).2, min_self, max_self, hF, fluxPrim_toPrim he hc.1]
  | hllc =>
    show hllcFlux eos c c a = _
    rw [hllc_contact he hc hc a rfl rfl, ite_self]
  | splitting =>
    have hr := hc.1.ne'
    show splittingFlux eos c c a = _
    simp only [splittingFlux, toPrim_eq, sub_self, mul_zero, sub_zero, ite_self, add_self_div_two]
    apply Flux.ext
    · simp only [physFlux, eulerFlux, Cons.vel]; field_simp
    · funext i
      simp only [physFlux, eulerFlux, Cons.vel, Function.update_apply]
      split_ifs with h
      · subst h; field_simp
      · field_simp; ring
    · simp only [physFlux, eulerFlux, Cons.vel]; ring

example (s : Solver) := C24_consistency s (PerfectGas.lawful sampleGas_physical) (sampleGas_adm 1 2 5 (by norm_num)) 1

/-- **C25.** If no wave moves to the left (right), HLL and HLLC return the physical flux of the left (right)
state. -/
theorem C25_supersonic_upwind {s : Solver} (hs : s = .hll ∨ s = .hllc) {eos : EoS K} (he : eos.Lawful)
    {cL cR : Cons d K} (hL : cL.Adm eos) (hR : cR.Adm eos) (a : Fin d) :
    (0 ≤ cL.vel a - cL.cs eos → 0 ≤ cR.vel a - cR.cs eos → s.flux eos cL cR a = physFlux eos cL a) ∧
    (cL.vel a + cL.cs eos ≤ 0 → cR.vel a + cR.cs eos ≤ 0 → s.flux eos cL cR a = physFlux eos cR a) := by
  have hcL := (hL.sound he).1
  have hcR := (hR.sound he).1
  rcases hs with rfl | rfl
  · constructor
    · intro h1 h2
      have e1 : min (min (cL.vel a - cL.cs eos) (cR.vel a - cR.cs eos)) 0 = 0 := min_eq_right (le_min h1 h2)
      have e2 : (0 : K) < max (max (cL.vel a + cL.cs eos) (cR.vel a + cR.cs eos)) 0 :=
        lt_max_of_lt_left (lt_max_of_lt_left (by linarith))
      have hF : ∀ U U' F F' : K, fluxHll U U' F F' 0 (max (max (cL.vel a + cL.cs eos) (cR.vel a + cR.cs eos)) 0) = F := by
        intro U U' F F'
        rw [fluxHll, sub_zero, div_eq_iff e2.ne']; ring
      show hllFlux eos cL cR a = _
      simp only [hllFlux, (wave_eq eos cL cR a).1, (wave_eq eos cL cR a).2, e1, hF, fluxPrim_toPrim he hL.1]
    · intro h1 h2
      have e1 : max (max (cL.vel a + cL.cs eos) (cR.vel a + cR.cs eos)) 0 = 0 := max_eq_right (max_le h1 h2)
      have e2 : min (min (cL.vel a - cL.cs eos) (cR.vel a - cR.cs eos)) 0 < 0 :=
        min_lt_of_left_lt (min_lt_of_left_lt (by linarith))
      have hF : ∀ U U' F F' : K, fluxHll U U' F F' (min (min (cL.vel a - cL.cs eos) (cR.vel a - cR.cs eos)) 0) 0 = F' := by
        intro U U' F F'
        rw [fluxHll, zero_sub, div_eq_iff (neg_ne_zero.2 e2.ne)]; ring
      show hllFlux eos cL cR a = _
      simp only [hllFlux, (wave_eq eos cL cR a).1, (wave_eq eos cL cR a).2, e1, hF, fluxPrim_toPrim he hR.1]
  · obtain ⟨-, us, ps, UL, UR, -, -, -, -, -, -, -, -, -, -, f1, -, -, f4⟩ := C28_hllc_fan he hL hR a
    exact ⟨fun h1 h2 => f1 (le_min h1 h2), fun h1 h2 => f4 (max_le h1 h2)⟩

/-- Non-vacuity: flow at speed 10 with unit pressure is supersonic. -/
example (s : Solver) (hs : s = .hll ∨ s = .hllc) :
    let c : Cons 2 ℝ := ⟨1, ![10, 0], 51⟩
    let c' : Cons 2 ℝ := ⟨1, ![10, 3], 56⟩
    s.flux (PerfectGas.toEoS ⟨2, 2 - 1, 1⟩) c c' 0 = physFlux (PerfectGas.toEoS ⟨2, 2 - 1, 1⟩) c 0 := by
  have hs1 : ∀ n E : ℝ, (10 ^ 2 + n ^ 2) / 2 < E → E < (10 ^ 2 + n ^ 2) / 2 + 50 →
      0 ≤ Cons.vel (⟨1, ![10, n], E⟩ : Cons 2 ℝ) 0 - Cons.cs (PerfectGas.toEoS ⟨2, 2 - 1, 1⟩) ⟨1, ![10, n], E⟩ := by
    intro n E h h'
    have h1 := kB_pos; have h2 := mP_pos
    have e1 : Cons.vel (⟨1, ![10, n], E⟩ : Cons 2 ℝ) 0 = 10 := by simp [Cons.vel]
    have e2 : Cons.pressure (PerfectGas.toEoS ⟨2, 2 - 1, 1⟩) (⟨1, ![10, n], E⟩ : Cons 2 ℝ) = E - (10 ^ 2 + n ^ 2) / 2 := by
      have : Cons.eint (⟨1, ![10, n], E⟩ : Cons 2 ℝ) = E - (10 ^ 2 + n ^ 2) / 2 := by
        simp [Cons.eint, Fin.sum_univ_two]
      rw [Cons.pressure, this]
      show PerfectGas.presFromEvol _ _ _ = _
      simp only [PerfectGas.presFromEvol, PerfectGas.presFromTemp, PerfectGas.tempFromEvol]
      field_simp
      ring
    rw [e1, Cons.cs, e2, sub_nonneg]
    show Real.sqrt _ ≤ 10
    rw [Real.sqrt_le_left (by norm_num)]
    simp only [div_one]
    linarith
  intro c c'
  exact (C25_supersonic_upwind hs (PerfectGas.lawful sampleGas_physical) (sampleGas_adm 10 0 51 (by norm_num))
    (sampleGas_adm 10 3 56 (by norm_num)) 0).1 (hs1 0 51 (by norm_num) (by norm_num)) (hs1 3 56 (by norm_num) (by norm_num))

/-- **C27.** Across an isolated contact (equal pressures and normal velocities; densities and transverse velocities
arbitrary) HLLC returns the physical flux of the upwind state. If the contact is at rest, HLLC and the low-Mach solver
return no mass, energy or transverse momentum flux, and the pressure as normal momentum flux. -/
theorem C27_contacts {eos : EoS K} (he : eos.Lawful) {cL cR : Cons d K} (hL : cL.Adm eos) (hR : cR.Adm eos)
    (a : Fin d) (hv : cL.vel a = cR.vel a) (hP : cL.pressure eos = cR.pressure eos) :
    (Solver.hllc.flux eos cL cR a = if 0 < cL.vel a then physFlux eos cL a else physFlux eos cR a) ∧
    (∀ s : Solver, s = .hllc ∨ s = .splitting → cL.vel a = 0 →
      s.flux eos cL cR a = ⟨0, fun i => if i = a then cL.pressure eos else 0, 0⟩) := by
  refine ⟨hllc_contact he hL hR a hv hP, ?_⟩
  rintro s (rfl | rfl) h0
  · show hllcFlux eos cL cR a = _
    rw [hllc_contact he hL hR a hv hP, h0, if_neg (lt_irrefl _)]
    have h0' : cR.vel a = 0 := by rw [← hv, h0]
    have hm : cR.rhou a = 0 := by
      rw [Cons.vel, div_eq_zero_iff] at h0'
      exact h0'.resolve_right hR.1.ne'
    simp only [physFlux, eulerFlux, hm, hP, zero_mul, zero_div, mul_zero, zero_add]
  · show splittingFlux eos cL cR a = _
    simp only [splittingFlux, toPrim_eq, ← hv, ← hP, h0, sub_self, mul_zero, sub_zero, add_self_div_two, zero_mul,
      add_zero, zero_div]
    apply Flux.ext
    · rfl
    · funext i
      simp only [Function.update_apply]
      split_ifs <;> simp
    · rfl

/-- Non-vacuity: a slip line at rest (equal pressures, different transverse velocities). -/
example : ∃ cL cR : Cons 2 ℝ, cL ≠ cR ∧ cL.Adm (PerfectGas.toEoS ⟨2, 2 - 1, 1⟩) ∧ cR.Adm (PerfectGas.toEoS ⟨2, 2 - 1, 1⟩) ∧
    cL.vel 0 = cR.vel 0 ∧ cL.pressure (PerfectGas.toEoS ⟨2, 2 - 1, 1⟩) = cR.pressure (PerfectGas.toEoS ⟨2, 2 - 1, 1⟩) := by
  refine ⟨⟨1, ![0, 0], 1⟩, ⟨1, ![0, 2], 3⟩, ?_, sampleGas_adm 0 0 1 (by norm_num), sampleGas_adm 0 2 3 (by norm_num), ?_, ?_⟩
  · intro h
    have := congrArg Cons.E h
    norm_num at this
  · simp [Cons.vel]
  · simp [Cons.pressure, Cons.eint, Fin.sum_univ_two]
    norm_num

/-- HLL, in contrast, diffuses a contact at rest: if the densities differ there is a mass flux. -/
theorem C27_hll_diffuses {eos : EoS K} (he : eos.Lawful) {cL cR : Cons d K} (hL : cL.Adm eos) (hR : cR.Adm eos)
    (a : Fin d) (hvL : cL.vel a = 0) (hvR : cR.vel a = 0) (hr : cL.rho ≠ cR.rho) :
    (Solver.hll.flux eos cL cR a).rho ≠ 0 := by
  have hcL := (hL.sound he).1
  have hcR := (hR.sound he).1
  obtain ⟨w, hw⟩ : ∃ w, w = min (min (0 - cL.cs eos) (0 - cR.cs eos)) 0 := ⟨_, rfl⟩
  obtain ⟨w', hw'⟩ : ∃ w', w' = max (max (cL.cs eos) (cR.cs eos)) 0 := ⟨_, rfl⟩
  have e1 : w < 0 := hw ▸ min_lt_of_left_lt (min_lt_of_left_lt (by linarith))
  have e2 : 0 < w' := hw' ▸ lt_max_of_lt_left (lt_max_of_lt_left (by linarith))
  have mL : cL.rhou a = 0 := by
    rw [Cons.vel, div_eq_zero_iff] at hvL; exact hvL.resolve_right hL.1.ne'
  have mR : cR.rhou a = 0 := by
    rw [Cons.vel, div_eq_zero_iff] at hvR; exact hvR.resolve_right hR.1.ne'
  have : (Solver.hll.flux eos cL cR a).rho = w * w' * (cR.rho - cL.rho) / (w' - w) := by
    show (hllFlux eos cL cR a).rho = _
    simp only [hllFlux, (wave_eq eos cL cR a).1, (wave_eq eos cL cR a).2, hvL, hvR, ← hw, ← hw', fluxPrim_toPrim he hL.1,
      fluxPrim_toPrim he hR.1, physFlux, eulerFlux, mL, mR, fluxHll, mul_zero, sub_zero, zero_add]
  rw [this]
  exact div_ne_zero (mul_ne_zero (mul_ne_zero e1.ne e2.ne') (sub_ne_zero.2 hr.symm)) (by linarith)

/-- **C26.** Exchanging the two states and reversing the normal velocity gives the mirrored flux, for every solver and
every pair of admissible states: the tie `ustar = 0` of the upwinded solvers is harmless. -/
theorem C26_mirror_symmetry (s : Solver) {eos : EoS K} (he : eos.Lawful) {cL cR : Cons d K} (hL : cL.Adm eos)
    (hR : cR.Adm eos) (a : Fin d) :
    s.flux eos (cR.mirror a) (cL.mirror a) a = (s.flux eos cL cR a).mirror a := by
  have hwL' : min ((cR.mirror a).vel a - (cR.mirror a).cs eos) ((cL.mirror a).vel a - (cL.mirror a).cs eos) =
      -max (cL.vel a + cL.cs eos) (cR.vel a + cR.cs eos) := by
    rw [← min_neg_neg, min_comm]
    simp only [Cons.mirror_vel, Cons.mirror_cs, if_pos, neg_add']
  have hwR' : max ((cR.mirror a).vel a + (cR.mirror a).cs eos) ((cL.mirror a).vel a + (cL.mirror a).cs eos) =
      -min (cL.vel a - cL.cs eos) (cR.vel a - cR.cs eos) := by
    rw [← max_neg_neg, max_comm]
    simp only [Cons.mirror_vel, Cons.mirror_cs, if_pos, neg_sub, neg_add_eq_sub]
  obtain ⟨wL, hwL⟩ : ∃ w, w = min (cL.vel a - cL.cs eos) (cR.vel a - cR.cs eos) := ⟨_, rfl⟩
  obtain ⟨wR, hwR⟩ : ∃ w, w = max (cL.vel a + cL.cs eos) (cR.vel a + cR.cs eos) := ⟨_, rfl⟩
  rw [← hwR] at hwL'
  rw [← hwL] at hwR'
  cases s with
  | hll =>
    show hllFlux eos (cR.mirror a) (cL.mirror a) a = (hllFlux eos cL cR a).mirror a
    simp only [hllFlux, (wave_eq eos cL cR a).1, (wave_eq eos cL cR a).2, (wave_eq eos (cR.mirror a) (cL.mirror a) a).1,
      (wave_eq eos (cR.mirror a) (cL.mirror a) a).2, hwL', hwR', ← hwL, ← hwR, fluxPrim_toPrim he hL.1,
      fluxPrim_toPrim he hR.1, fluxPrim_toPrim he (hL.mirror a).1, fluxPrim_toPrim he (hR.mirror a).1, physFlux_mirror]
    have m1 : min (-wR) 0 = -max wR 0 := by rw [← min_neg_neg, neg_zero]
    have m2 : max (-wL) 0 = -min wL 0 := by rw [← max_neg_neg, neg_zero]
    rw [m1, m2]
    generalize min wL 0 = x
    generalize max wR 0 = y
    have e : -x - -y = y - x := by ring
    have h1 : ∀ U U' F F', fluxHll U U' (-F) (-F') (-y) (-x) = -fluxHll U' U F' F x y := by
      intro U U' F F'; simp only [fluxHll, e]; rw [← neg_div]; congr 1; ring
    have h2 : ∀ U U' F F', fluxHll (-U) (-U') F F' (-y) (-x) = fluxHll U' U F' F x y := by
      intro U U' F F'; simp only [fluxHll, e]; congr 1; ring
    apply Flux.ext
    · exact h1 _ _ _ _
    · funext i
      simp only [Flux.mirror, Cons.mirror]
      split_ifs
      · exact h2 _ _ _ _
      · exact h1 _ _ _ _
    · exact h1 _ _ _ _
  | hllc =>
    show hllcFlux eos (cR.mirror a) (cL.mirror a) a = (hllcFlux eos cL cR a).mirror a
    obtain ⟨hD, b1, b3, us, ps, g1, g2, g3, g4, g5, -, -, -, -, hf⟩ := hllc_full he hL hR a hwL hwR
    obtain ⟨hD', -, -, us', ps', -, -, g3', -, g5', -, -, -, -, hf'⟩ :=
      hllc_full he (hR.mirror a) (hL.mirror a) a hwL'.symm hwR'.symm
    simp only [Cons.mirror_vel, Cons.mirror_pressure, if_pos] at hD' g3' g5'
    have rr : ∀ c : Cons d K, (c.mirror a).rho = c.rho := fun c => rfl
    simp only [rr] at hD' g3' g5'
    have hus : us' = -us := by
      apply mul_right_cancel₀ hD'.ne
      rw [g5']
      have : -us * (cR.rho * (-wR - -cR.vel a) - cL.rho * (-wL - -cL.vel a)) =
          -(us * (cL.rho * (wL - cL.vel a) - cR.rho * (wR - cR.vel a))) := by ring
      rw [this, g5]; ring
    have hps : ps' = ps := by rw [g3', g4, hus]; ring
    subst hus hps
    obtain ⟨-, -, -, f1, f2, f3, f4⟩ := hf _ _ rfl rfl
    obtain ⟨-, -, -, f1', f2', f3', f4'⟩ := hf' _ _ (starState_mirror eos cR a wR us).symm
      (starState_mirror eos cL a wL us).symm
    simp only [eulerFlux_mirror, physFlux_mirror] at f1' f2' f3' f4'
    rcases le_total 0 wL with h | h
    · rw [f1 h, f4' (by linarith)]
    rcases le_total 0 us with h' | h'
    · rw [f2 h h', f3' (by linarith) (by linarith)]
    rcases le_total 0 wR with h'' | h''
    · rw [f3 h' h'', f2' (by linarith) (by linarith)]
    · rw [f4 h'', f1' (by linarith)]
  | splitting =>
    show splittingFlux eos (cR.mirror a) (cL.mirror a) a = (splittingFlux eos cL cR a).mirror a
    have rr : ∀ c : Cons d K, (c.mirror a).rho = c.rho := fun c => rfl
    simp only [splittingFlux, toPrim_eq, Cons.mirror_vel, Cons.mirror_pressure, if_pos, rr]
    rw [max_comm (cR.rho * _), min_comm (eos.sound cR.rho _)]
    generalize max (cL.rho * eos.sound cL.rho (cL.pressure eos)) (cR.rho * eos.sound cR.rho (cR.pressure eos)) = m
    generalize min (eos.sound cL.rho (cL.pressure eos)) (eos.sound cR.rho (cR.pressure eos)) = n
    have eu : (-cR.vel a + -cL.vel a) / 2 - 1 / (2 * (11 / 10 * m)) * (cL.pressure eos - cR.pressure eos) =
        -((cL.vel a + cR.vel a) / 2 - 1 / (2 * (11 / 10 * m)) * (cR.pressure eos - cL.pressure eos)) := by ring
    rw [eu]
    generalize (cL.vel a + cR.vel a) / 2 - 1 / (2 * (11 / 10 * m)) * (cR.pressure eos - cL.pressure eos) = us
    rw [abs_neg]
    have ep : (cR.pressure eos + cL.pressure eos) / 2 - min 1 (|us| / n) * (11 / 10 * m) / 2 * (-cL.vel a - -cR.vel a) =
        (cL.pressure eos + cR.pressure eos) / 2 - min 1 (|us| / n) * (11 / 10 * m) / 2 * (cR.vel a - cL.vel a) := by ring
    rw [ep]
    generalize (cL.pressure eos + cR.pressure eos) / 2 - min 1 (|us| / n) * (11 / 10 * m) / 2 * (cR.vel a - cL.vel a) = ps
    rcases lt_trichotomy us 0 with h | h | h
    · rw [if_pos (by linarith : -us > 0), if_neg (by linarith : ¬ us > 0)]
      apply Flux.ext
      · simp [Flux.mirror, Cons.mirror]
      · funext i
        by_cases hi : i = a
        · subst hi; simp [Flux.mirror, Cons.mirror]
        · simp [Flux.mirror, Cons.mirror, Function.update_apply, hi]
      · simp [Flux.mirror, Cons.mirror]; ring
    · subst h
      apply Flux.ext
      · simp [Flux.mirror]
      · funext i
        by_cases hi : i = a
        · subst hi; simp [Flux.mirror]
        · simp [Flux.mirror, Function.update_apply, hi]
      · simp [Flux.mirror]
    · rw [if_neg (by linarith : ¬ -us > 0), if_pos (by linarith : us > 0)]
      apply Flux.ext
      · simp [Flux.mirror, Cons.mirror]
      · funext i
        by_cases hi : i = a
        · subst hi; simp [Flux.mirror, Cons.mirror]
        · simp [Flux.mirror, Cons.mirror, Function.update_apply, hi]
      · simp [Flux.mirror, Cons.mirror]; ring

example (s : Solver) := C26_mirror_symmetry s (PerfectGas.lawful sampleGas_physical)
  (sampleGas_adm 1 2 5 (by norm_num)) (sampleGas_adm (-1) 0 1 (by norm_num)) 0

/-- **C29.** Through a face whose two sides are mirror images of each other (ghost cells of a reflexive wall, on the
right or on the left) every solver gives zero mass, energy and transverse momentum flux. -/
theorem C29_mirror_wall (s : Solver) {eos : EoS K} (he : eos.Lawful) {c : Cons d K} (hc : c.Adm eos) (a : Fin d) :
    (let F := s.flux eos c (c.mirror a) a
     F.rho = 0 ∧ F.E = 0 ∧ ∀ i, i ≠ a → F.rhou i = 0) ∧
    (let F := s.flux eos (c.mirror a) c a
     F.rho = 0 ∧ F.E = 0 ∧ ∀ i, i ≠ a → F.rhou i = 0) := by
  have key : ∀ F : Flux d K, F = F.mirror a → F.rho = 0 ∧ F.E = 0 ∧ ∀ i, i ≠ a → F.rhou i = 0 := by
    intro F h
    have h1 : F.rho = -F.rho := congrArg Flux.rho h
    have h2 : F.E = -F.E := congrArg Flux.E h
    refine ⟨by linarith, by linarith, fun i hi => ?_⟩
    have h3 := congrFun (congrArg Flux.rhou h) i
    simp only [Flux.mirror, if_neg hi] at h3
    linarith
  constructor
  · have h := C26_mirror_symmetry s he hc (hc.mirror a) a
    rw [Cons.mirror_mirror] at h
    exact key _ h
  · have h := C26_mirror_symmetry s he (hc.mirror a) hc a
    rw [Cons.mirror_mirror] at h
    exact key _ h

example (s : Solver) := C29_mirror_wall s (PerfectGas.lawful sampleGas_physical) (sampleGas_adm 1 2 5 (by norm_num)) 0

/-- **C61**, HLLC: both intermediate states have positive density and positive internal energy. -/
theorem C61_hllc_positive {eos : EoS K} (he : eos.Lawful) (hf : eos.Fast) {cL cR : Cons d K} (hL : cL.Adm eos)
    (hR : cR.Adm eos) (a : Fin d) :
    let wL := min (cL.vel a - cL.cs eos) (cR.vel a - cR.cs eos)
    let wR := max (cL.vel a + cL.cs eos) (cR.vel a + cR.cs eos)
    ∃ (us ps : K) (UL UR : Cons d K),
      wL < us ∧ us < wR ∧ 0 < UL.rho ∧ 0 < UR.rho ∧ 0 < UL.eint ∧ 0 < UR.eint ∧
      Jump cL UL (physFlux eos cL a) (eulerFlux UL.rho UL.rhou UL.E ps a) wL ∧
      Jump UR cR (eulerFlux UR.rho UR.rhou UR.E ps a) (physFlux eos cR a) wR ∧
      (0 ≤ wL → hllcFlux eos cL cR a = physFlux eos cL a) ∧
      (wL ≤ 0 → 0 ≤ us → hllcFlux eos cL cR a = eulerFlux UL.rho UL.rhou UL.E ps a) ∧
      (us ≤ 0 → 0 ≤ wR → hllcFlux eos cL cR a = eulerFlux UR.rho UR.rhou UR.E ps a) ∧
      (wR ≤ 0 → hllcFlux eos cL cR a = physFlux eos cR a) := by
  intro wL wR
  obtain ⟨-, b1, b3, us, ps, h1, h2, -, -, -, rL, rR, -, -, hF⟩ := hllc_full he hL hR a (rfl : wL = _) (rfl : wR = _)
  obtain ⟨j1, -, j3, f⟩ := hF _ _ rfl rfl
  have k1 : wL ≤ cL.vel a - cL.cs eos := min_le_left _ _
  have k2 : cR.vel a + cR.cs eos ≤ wR := le_max_right _ _
  refine ⟨us, ps, _, _, h1, h2, rL, rR, ?_, ?_, j1, j3, f⟩
  · apply starState_eint_pos he hf hL (div_pos_of_neg_of_neg b1 (by linarith))
    have := (hL.sound he).1
    nlinarith
  · apply starState_eint_pos he hf hR (div_pos b3 (by linarith))
    have := (hR.sound he).1
    nlinarith

example := C61_hllc_positive (PerfectGas.lawful sampleGas_physical) (PerfectGas.fast sampleGas_physical)
  (sampleGas_adm (-9) 2 43 (by norm_num)) (sampleGas_adm 9 0 41 (by norm_num)) 0

/-- **C61**, HLL: the flux is the one at the origin of a fan of two waves separated by one intermediate state, whose
density and internal energy are positive; in particular the solver never divides by zero. -/
theorem C61_hll_positive {eos : EoS K} (he : eos.Lawful) (hf : eos.Fast) {cL cR : Cons d K} (hL : cL.Adm eos)
    (hR : cR.Adm eos) (a : Fin d) :
    let wL := min (cL.vel a - cL.cs eos) (cR.vel a - cR.cs eos)
    let wR := max (cL.vel a + cL.cs eos) (cR.vel a + cR.cs eos)
    wL < wR ∧ 0 < max wR 0 - min wL 0 ∧ ∃ (U : Cons d K) (F : Flux d K), 0 < U.rho ∧ 0 < U.eint ∧
      Jump cL U (physFlux eos cL a) F wL ∧ Jump U cR F (physFlux eos cR a) wR ∧
      (0 ≤ wL → hllFlux eos cL cR a = physFlux eos cL a) ∧
      (wL ≤ 0 → 0 ≤ wR → hllFlux eos cL cR a = F) ∧
      (wR ≤ 0 → hllFlux eos cL cR a = physFlux eos cR a) := by
  intro wL wR
  have hcL := (hL.sound he).1
  have hcR := (hR.sound he).1
  have k1 : wL ≤ cL.vel a - cL.cs eos := min_le_left _ _
  have k2 : cR.vel a + cR.cs eos ≤ wR := le_max_right _ _
  have k3 : wL ≤ cR.vel a - cR.cs eos := min_le_right _ _
  have k4 : cL.vel a + cL.cs eos ≤ wR := le_max_left _ _
  have hw : wL < wR := by linarith
  have hden : 0 < max wR 0 - min wL 0 := by
    have := le_max_left wR 0; have := min_le_left wL 0; linarith
  obtain ⟨p1, p2⟩ := hllState_pos he hf hL hR (a := a) (sub_neg.2 (lt_of_le_of_lt k1 (by linarith)))
    (sub_pos.2 (lt_of_lt_of_le (by linarith) k2)) (by nlinarith) (by nlinarith) hw
  obtain ⟨F, hF⟩ : ∃ F : Flux d K, F = ⟨fluxHll cL.rho cR.rho (physFlux eos cL a).rho (physFlux eos cR a).rho wL wR,
    fun i => fluxHll (cL.rhou i) (cR.rhou i) ((physFlux eos cL a).rhou i) ((physFlux eos cR a).rhou i) wL wR,
    fluxHll cL.E cR.E (physFlux eos cL a).E (physFlux eos cR a).E wL wR⟩ := ⟨_, rfl⟩
  have hne : wR - wL ≠ 0 := by linarith
  refine ⟨hw, hden, hllState cL cR (physFlux eos cL a) (physFlux eos cR a) wL wR, F, p1, p2, ?_, ?_, ?_, ?_, ?_⟩
  · subst hF
    refine ⟨?_, fun i => ?_, ?_⟩ <;> simp only [hllState, fluxHll] <;> field_simp <;> ring
  · subst hF
    refine ⟨?_, fun i => ?_, ?_⟩ <;> simp only [hllState, fluxHll] <;> field_simp <;> ring
  · intro h
    exact (C25_supersonic_upwind (Or.inl rfl) he hL hR a).1 (h.trans k1) (h.trans k3)
  · intro h h'
    simp only [hllFlux, (wave_eq eos cL cR a).1, (wave_eq eos cL cR a).2, fluxPrim_toPrim he hL.1, fluxPrim_toPrim he hR.1]
    rw [hF, min_eq_left (show min (cL.vel a - cL.cs eos) (cR.vel a - cR.cs eos) ≤ 0 from h),
      max_eq_left (show 0 ≤ max (cL.vel a + cL.cs eos) (cR.vel a + cR.cs eos) from h')]
  · intro h
    exact (C25_supersonic_upwind (Or.inl rfl) he hL hR a).2 (k4.trans h) (k2.trans h)

example := C61_hll_positive (PerfectGas.lawful sampleGas_physical) (PerfectGas.fast sampleGas_physical)
  (sampleGas_adm (-9) 2 43 (by norm_num)) (sampleGas_adm 9 0 41 (by norm_num)) 0

end Heracles

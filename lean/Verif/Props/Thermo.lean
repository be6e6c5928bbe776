import Verif.Lemmas.Thermo
import Mathlib.Analysis.Calculus.Deriv.Pow
import Mathlib.Analysis.Calculus.Deriv.Inv
import Mathlib.Tactic.LinearCombination

/-!
# Properties of the equations of state (C17, C18, C19, C60)
-/

namespace Heracles

/-! ## C18 – constructor guards -/

/-- **C18.** For every pair of `double` arguments (NaN and infinities included) the constructor returns a
gas exactly when `gamma` is a real `> 1` and `mmw` a real `> 0`; the members are then these reals and
`gamma - 1`. In every other case an exception is thrown. -/
theorem C18_constructor_ok_iff (gamma mmw : Dbl) (g : Gas) :
    Gas.mk? gamma mmw = .ok g ↔
      ∃ x y : ℝ, gamma = .fin x ∧ mmw = .fin y ∧ 1 < x ∧ 0 < y ∧ g = ⟨x, x - 1, y⟩ := by
  cases gamma with
  | fin x =>
    by_cases hx : x ≤ 1
    · simp only [Gas.mk?, Dbl.isFinite, Dbl.leConst, hx, or_true, if_true]
      constructor
      · intro h; cases h
      · rintro ⟨x', y, h, _, h1, _⟩
        cases h
        linarith
    · cases mmw with
      | fin y =>
        by_cases hy : y ≤ 0
        · simp only [Gas.mk?, Dbl.isFinite, Dbl.leConst, hx, hy, or_true, if_true, not_true, or_self, if_false]
          constructor
          · intro h; cases h
          · rintro ⟨x', y', h, h', _, h2, _⟩
            cases h; cases h'
            linarith
        · simp only [Gas.mk?, Dbl.isFinite, Dbl.leConst, hx, hy, not_true, or_self, if_false, Dbl.toReal]
          constructor
          · intro h
            cases h
            exact ⟨x, y, rfl, rfl, not_le.1 hx, not_le.1 hy, rfl⟩
          · rintro ⟨x', y', h, h', _, _, rfl⟩
            cases h; cases h'; rfl
      | inf n =>
        simp only [Gas.mk?, Dbl.isFinite, Dbl.leConst, hx, not_true, or_self, if_false, not_false_eq_true, true_or,
          if_true]
        constructor
        · intro h; cases h
        · rintro ⟨_, _, _, h, _⟩; cases h
      | nan =>
        simp only [Gas.mk?, Dbl.isFinite, Dbl.leConst, hx, not_true, or_self, if_false, not_false_eq_true, true_or,
          if_true]
        constructor
        · intro h; cases h
        · rintro ⟨_, _, _, h, _⟩; cases h
  | inf n =>
    simp only [Gas.mk?, Dbl.isFinite, not_false_eq_true, true_or, if_true]
    constructor
    · intro h; cases h
    · rintro ⟨_, _, h, _⟩; cases h
  | nan =>
    simp only [Gas.mk?, Dbl.isFinite, not_false_eq_true, true_or, if_true]
    constructor
    · intro h; cases h
    · rintro ⟨_, _, h, _⟩; cases h

/-- The invariant used by the other theorems is what the constructor establishes. -/
theorem C18_constructed_is_physical {gamma mmw : Dbl} {g : Gas} (h : Gas.mk? gamma mmw = .ok g) : g.Physical := by
  obtain ⟨x, y, _, _, h1, h2, rfl⟩ := (C18_constructor_ok_iff gamma mmw g).1 h
  exact ⟨h1, h2, rfl⟩

example : Gas.mk? (.fin (5 / 3)) (.fin 1) = .ok ⟨5 / 3, 5 / 3 - 1, 1⟩ :=
  (C18_constructor_ok_iff _ _ _).2 ⟨5 / 3, 1, rfl, rfl, by norm_num, by norm_num, rfl⟩

example (g : Gas) : Gas.mk? .nan (.fin 1) ≠ .ok g := by
  rw [Ne, C18_constructor_ok_iff]
  rintro ⟨_, _, h, _⟩
  cases h

/-! ## C17 – perfect gas -/

/-- **C17**, the relations themselves: ideal gas law `P = rho kB T / (mmw mP)` and
`P = (gamma - 1) evol`, stated directly on the outputs. -/
theorem C17_perfect_gas_law {g : Gas} (hg : g.Physical) {rho : ℝ} (hrho : 0 < rho) :
    (∀ P, PerfectGas.evolFromPres g rho P = P / (g.gamma - 1)) ∧
    (∀ e, PerfectGas.presFromEvol g rho e = (g.gamma - 1) * e) ∧
    (∀ T, PerfectGas.presFromTemp g rho T = rho * kB * T / (g.mmw * mP)) ∧
    (∀ T, PerfectGas.evolFromTemp g rho T = rho * kB * T / (g.mmw * mP) / (g.gamma - 1)) := by
  have h1 := kB_pos.ne'; have h2 := mP_pos.ne'; have h3 := hg.mmw.ne'
  have h4 := hg.gammaM1_pos.ne'; have h5 := hrho.ne'
  refine ⟨?_, ?_, fun _ => rfl, ?_⟩
  · intro P
    rw [← hg.gammaM1]
    simp only [PerfectGas.evolFromPres, PerfectGas.evolFromTemp, PerfectGas.tempFromPres]
    field_simp
  · intro e
    rw [← hg.gammaM1]
    simp only [PerfectGas.presFromEvol, PerfectGas.presFromTemp, PerfectGas.tempFromEvol]
    field_simp
  · intro T
    rw [← hg.gammaM1]
    simp only [PerfectGas.evolFromTemp]
    field_simp

/-- **C17**, mutual inverses: pressure ↔ energy, pressure ↔ temperature, energy ↔ temperature. -/
theorem C17_mutually_inverse {g : Gas} (hg : g.Physical) {rho : ℝ} (hrho : 0 < rho) :
    Function.LeftInverse (PerfectGas.presFromEvol g rho) (PerfectGas.evolFromPres g rho) ∧
    Function.RightInverse (PerfectGas.presFromEvol g rho) (PerfectGas.evolFromPres g rho) ∧
    Function.LeftInverse (PerfectGas.tempFromPres g rho) (PerfectGas.presFromTemp g rho) ∧
    Function.RightInverse (PerfectGas.tempFromPres g rho) (PerfectGas.presFromTemp g rho) ∧
    Function.LeftInverse (PerfectGas.tempFromEvol g rho) (PerfectGas.evolFromTemp g rho) ∧
    Function.RightInverse (PerfectGas.tempFromEvol g rho) (PerfectGas.evolFromTemp g rho) := by
  have h1 := kB_pos.ne'; have h2 := mP_pos.ne'; have h3 := hg.mmw.ne'
  have h4 := hg.gammaM1_pos.ne'; have h5 := hrho.ne'
  refine ⟨?_, ?_, ?_, ?_, ?_, ?_⟩ <;> intro x <;>
    simp only [PerfectGas.evolFromPres, PerfectGas.evolFromTemp, PerfectGas.tempFromPres,
      PerfectGas.presFromEvol, PerfectGas.presFromTemp, PerfectGas.tempFromEvol] <;>
    field_simp

/-- **C17**, monotonicity and positivity of the six conversions. -/
theorem C17_monotone_positive {g : Gas} (hg : g.Physical) {rho : ℝ} (hrho : 0 < rho) :
    ∀ F ∈ [PerfectGas.evolFromPres g rho, PerfectGas.presFromEvol g rho, PerfectGas.presFromTemp g rho,
      PerfectGas.tempFromPres g rho, PerfectGas.evolFromTemp g rho, PerfectGas.tempFromEvol g rho],
      StrictMono F ∧ ∀ x, 0 < x → 0 < F x := by
  have h1 := kB_pos; have h2 := mP_pos; have h3 := hg.mmw
  have h4 := hg.gammaM1_pos
  have lin : ∀ (F : ℝ → ℝ) (a : ℝ), 0 < a → (∀ x, F x = a * x) → StrictMono F ∧ ∀ x, 0 < x → 0 < F x := by
    intro F a ha hF
    refine ⟨fun x y hxy => ?_, fun x hx => ?_⟩
    · rw [hF, hF]; exact mul_lt_mul_of_pos_left hxy ha
    · rw [hF]; exact mul_pos ha hx
  intro F hF
  simp only [List.mem_cons, List.not_mem_nil, or_false] at hF
  obtain ⟨e1, e2, e3, e4⟩ := C17_perfect_gas_law hg hrho
  rw [← hg.gammaM1] at e1 e2 e4
  rcases hF with rfl | rfl | rfl | rfl | rfl | rfl
  · exact lin _ (1 / g.gammaM1) (by positivity) (fun x => by rw [e1]; ring)
  · exact lin _ g.gammaM1 h4 e2
  · exact lin _ (rho * kB / (g.mmw * mP)) (by positivity) (fun x => by rw [e3]; ring)
  · exact lin _ (g.mmw * mP / (rho * kB)) (by positivity) (fun x => by simp only [PerfectGas.tempFromPres]; ring)
  · exact lin _ (rho * kB / (g.mmw * mP) / g.gammaM1) (by positivity) (fun x => by rw [e4]; ring)
  · exact lin _ (g.mmw * mP * g.gammaM1 / (rho * kB)) (by positivity)
      (fun x => by simp only [PerfectGas.tempFromEvol]; ring)

/-- **C17**, sound speed. -/
theorem C17_sound_speed {g : Gas} (hg : g.Physical) {rho P : ℝ} (hrho : 0 < rho) (hP : 0 < P) :
    (PerfectGas.soundSpeed g rho P) ^ 2 = g.gamma * P / rho ∧ 0 < PerfectGas.soundSpeed g rho P := by
  have : 0 < g.gamma := by linarith [hg.gamma]
  have h : 0 < g.gamma * P / rho := by positivity
  exact ⟨Real.sq_sqrt h.le, Real.sqrt_pos.2 h⟩

example : (⟨5 / 3, 5 / 3 - 1, 1⟩ : Gas).Physical := ⟨by norm_num, by norm_num, rfl⟩

/-! ## C19 – radiative gas: Newton inversion -/

/-- **C19**, the exact relation has exactly one positive temperature. -/
theorem C19_temperature_exists_unique {g : Gas} (hg : g.Physical) {rho : ℝ} (hrho : 0 < rho) :
    (∀ P, 0 < P → ∃! T, 0 < T ∧ RadGas.presFromTemp g rho T = P) ∧
    (∀ e, 0 < e → ∃! T, 0 < T ∧ RadGas.evolFromTemp g rho T = e) := by
  have h1 := kB_pos; have h2 := mP_pos; have h3 := hg.mmw; have h4 := hg.gammaM1_pos; have h5 := aR_pos
  constructor
  · intro P hP
    have hC : 0 < rho * kB / (g.mmw * mP) := by positivity
    obtain ⟨S, hS, hr⟩ := exists_root (A := aR / 3) (by positivity) hC hP
    refine ⟨S, ⟨hS, ?_⟩, ?_⟩
    · rw [← hr]; simp only [RadGas.presFromTemp]; ring
    · rintro T ⟨hT, h⟩
      refine root_unique (A := aR / 3) (by positivity) hC hT hS ?_ hr
      rw [← h]; simp only [RadGas.presFromTemp]; ring
  · intro e he
    have hC : 0 < rho * kB / (g.mmw * mP * g.gammaM1) := by positivity
    obtain ⟨S, hS, hr⟩ := exists_root (A := aR) h5 hC he
    refine ⟨S, ⟨hS, ?_⟩, ?_⟩
    · rw [← hr]; simp only [RadGas.evolFromTemp]; ring
    · rintro T ⟨hT, h⟩
      refine root_unique (A := aR) h5 hC hT hS ?_ hr
      rw [← h]; simp only [RadGas.evolFromTemp]; ring

section
variable {A C Y S : ℝ}

/-- Properties of the Newton iteration, for any positive coefficients. -/
private theorem newton_core (hA : 0 < A) (hC : 0 < C) (hY : 0 < Y) (hS : 0 < S) (hroot : A * S ^ 4 + C * S = Y) :
    S ≤ (RadGas.newton A C Y).T ∧
    (|(RadGas.newton A C Y).delta| ≤ RadGas.tolNewton → |(RadGas.newton A C Y).T - S| ≤ 3 * RadGas.tolNewton) ∧
    (RadGas.newton A C Y).itr < RadGas.maxItr ∧
    ∃ k < 100, (RadGas.newton A C Y).T =
        (nstep (resid A C Y) (dresid A C))^[k + 1] (if (Y / A) ^ (1 / 4 : ℝ) > Y / C then (Y / A) ^ (1 / 4 : ℝ) else Y / C) ∧
      (RadGas.newton A C Y).delta = -resid A C Y ((nstep (resid A C Y) (dresid A C))^[k]
        (if (Y / A) ^ (1 / 4 : ℝ) > Y / C then (Y / A) ^ (1 / 4 : ℝ) else Y / C)) /
        dresid A C ((nstep (resid A C Y) (dresid A C))^[k]
        (if (Y / A) ^ (1 / 4 : ℝ) > Y / C then (Y / A) ^ (1 / 4 : ℝ) else Y / C)) ∧
      (|(RadGas.newton A C Y).delta| ≤ RadGas.tolNewton ∨ k + 1 = 100) := by
  obtain ⟨T0, hT0⟩ : ∃ T0, T0 = (if (Y / A) ^ (1 / 4 : ℝ) > Y / C then (Y / A) ^ (1 / 4 : ℝ) else Y / C) := ⟨_, rfl⟩
  have hST : S ≤ T0 := by
    rw [hT0]; split_ifs
    · exact root_le_rad hA hC hS hY hroot
    · exact root_le_gas hA hC hS hroot
  have e : RadGas.newton A C Y = newtonLoop (resid A C Y) (dresid A C) RadGas.tolNewton 100 0 ⟨T0, 0, 0⟩ := by
    rw [hT0]; rfl
  obtain ⟨k, hk, h1, h2, h3, h4, -⟩ := newtonLoop_spec (resid A C Y) (dresid A C) RadGas.tolNewton 100 0 ⟨T0, 0, 0⟩
    (by norm_num)
  rw [← e] at h1 h2 h3 h4
  simp only at h1 h3
  have hk' := iter_ge hA hC hS hroot hST k
  refine ⟨?_, ?_, ?_, k, hk, by rw [h1, hT0], by rw [h3, hT0], h4⟩
  · rw [h1]; exact iter_ge hA hC hS hroot hST _
  · intro hd
    have hge := iter_ge hA hC hS hroot hST (k + 1)
    have hdel := nstep_delta hA hC hS hroot hk'
    rw [← h3] at hdel
    have hab := (abs_le.1 hd).1
    rw [h1, abs_le]
    constructor
    · have : 0 ≤ RadGas.tolNewton := by unfold RadGas.tolNewton; norm_num
      linarith
    · have : (nstep (resid A C Y) (dresid A C))^[k + 1] T0 =
          (nstep (resid A C Y) (dresid A C))^[k] T0 + (RadGas.newton A C Y).delta := by
        rw [Function.iterate_succ_apply', h3]; rfl
      rw [this]
      linarith
  · rw [h2]; simpa [RadGas.maxItr] using hk

private theorem newton_converges (hA : 0 < A) (hC : 0 < C) (hY : 0 < Y) (hS : 0 < S) (hroot : A * S ^ 4 + C * S = Y)
    (hgr : Y / C ≤ 5 * 10 ^ 8 * (Y / A) ^ (1 / 4 : ℝ)) (hrg : (Y / A) ^ (1 / 4 : ℝ) ≤ 5 * 10 ^ 8 * (Y / C))
    (hS300 : S ≤ 10 ^ 300) :
    |(RadGas.newton A C Y).T - S| ≤ 3 * RadGas.tolNewton := by
  obtain ⟨hge, hacc, -, k, hk, h1, h3, h4⟩ := newton_core hA hC hY hS hroot
  obtain ⟨T0, hT0⟩ : ∃ T0, T0 = (if (Y / A) ^ (1 / 4 : ℝ) > Y / C then (Y / A) ^ (1 / 4 : ℝ) else Y / C) := ⟨_, rfl⟩
  rw [← hT0] at h1 h3
  rcases h4 with h4 | h4
  · exact hacc h4
  · have hST : S ≤ T0 := by
      rw [hT0]; split_ifs
      · exact root_le_rad hA hC hS hY hroot
      · exact root_le_gas hA hC hS hroot
    have hg : 0 < Y / C := by positivity
    have hr : 0 < (Y / A) ^ (1 / 4 : ℝ) := by positivity
    have hT0S : T0 ≤ 10 ^ 9 * S := by
      rw [hT0]; split_ifs with hc
      · have := root_ge_half hA hC hS hY hroot hg le_rfl hc.le
        linarith
      · have := root_ge_half hA hC hS hY hroot hr (not_lt.1 hc) le_rfl
        linarith
    have hk : k + 1 = 20 + 80 := by omega
    rw [h1, hk, Function.iterate_add_apply]
    obtain ⟨U, hU⟩ : ∃ U, U = (nstep (resid A C Y) (dresid A C))^[80] T0 := ⟨_, rfl⟩
    have hUS : S ≤ U := hU ▸ iter_ge hA hC hS hroot hST 80
    have hlin := iter_linear hA hC hS hroot hST 80
    rw [← hU] at hlin ⊢
    have h0 : 3 / 2 * ((U - S) / S) ≤ 1 / 2 := by
      have h1 : U - S ≤ 1 / 3 * S := by
        have hn : ((3 : ℝ) / 4) ^ 80 * 10 ^ 9 ≤ 1 / 3 := by norm_num
        have : ((3 : ℝ) / 4) ^ 80 * (T0 - S) ≤ (3 / 4) ^ 80 * (10 ^ 9 * S) := by
          apply mul_le_mul_of_nonneg_left _ (by positivity)
          linarith
        have h2 : ((3 : ℝ) / 4) ^ 80 * (10 ^ 9 * S) ≤ 1 / 3 * S := by
          rw [← mul_assoc]; exact mul_le_mul_of_nonneg_right hn hS.le
        linarith
      have h2 : (U - S) / S ≤ 1 / 3 := by rw [div_le_iff₀ hS]; exact h1
      linarith
    have hq := iter_quadratic hA hC hS hroot hUS h0 20
    have hge' := iter_ge hA hC hS hroot hUS 20
    obtain ⟨ε, hε0, hp, hp2⟩ : ∃ ε : ℝ, 0 ≤ ε ∧ ((1 : ℝ) / 2) ^ (2 ^ 20) ≤ ε ∧ ε * 10 ^ 300 ≤ 1e-6 := by
      refine ⟨((1 : ℝ) / 1000) ^ 102, by positivity, ?_, ?_⟩
      · have e1 : ((1 : ℝ) / 2) ^ (2 ^ 20) ≤ (1 / 2) ^ (10 * 102) :=
          pow_le_pow_of_le_one (by norm_num) (by norm_num) (by norm_num)
        rw [pow_mul] at e1
        exact e1.trans (pow_le_pow_left₀ (by positivity) (by norm_num) _)
      · have : ((10 : ℝ)) ^ 300 = 1000 ^ 100 := by rw [show (300 : ℕ) = 3 * 100 by norm_num, pow_mul]; norm_num
        rw [this, show (102 : ℕ) = 2 + 100 by norm_num, pow_add, mul_assoc, ← mul_pow]
        norm_num
    obtain ⟨V, hV⟩ : ∃ V, V = (nstep (resid A C Y) (dresid A C))^[20] U := ⟨_, rfl⟩
    rw [← hV] at hq hge' ⊢
    have hVS : (V - S) / S ≤ ε := by
      have h : 0 ≤ (V - S) / S := div_nonneg (by linarith) hS.le
      have hq' := hq.trans hp
      clear hq hp hp2 hlin
      linarith
    rw [div_le_iff₀ hS] at hVS
    have hb : ε * S ≤ ε * 10 ^ 300 := mul_le_mul_of_nonneg_left hS300 hε0
    rw [abs_le]
    have htol : RadGas.tolNewton = 1e-6 := rfl
    have hfin : V - S ≤ 1e-6 := hVS.trans (hb.trans hp2)
    rw [htol]
    clear hq hp hp2 hb hVS hlin hS300
    constructor <;> norm_num at hfin ⊢ <;> linarith

end

/-- **C19** (partial). Full statement: for every positive density and pressure the returned temperature is
within the tolerance of the true one *or an error is reported*. This is false, see `C19_violated`.
Proved here: the returned temperature is within three times the Newton tolerance of the true temperature `T`
whenever the pure-gas temperature `P mmw mP / (rho kB)` and the pure-radiation temperature `(3 P / aR)^(1/4)`
differ by a factor of at most `5·10^8`. (`T ≤ 10^300` is the range of `double`.) -/
theorem C19_temp_from_pres_partial {g : Gas} (hg : g.Physical) {rho P T : ℝ} (hrho : 0 < rho) (hT : 0 < T)
    (hP : RadGas.presFromTemp g rho T = P)
    (hgr : PerfectGas.tempFromPres g rho P ≤ 5 * 10 ^ 8 * (3 * P / aR) ^ (1 / 4 : ℝ))
    (hrg : (3 * P / aR) ^ (1 / 4 : ℝ) ≤ 5 * 10 ^ 8 * PerfectGas.tempFromPres g rho P) (hT300 : T ≤ 10 ^ 300) :
    |RadGas.tempFromPres g rho P - T| ≤ 3 * 1e-6 := by
  have h1 := kB_pos; have h2 := mP_pos; have h3 := hg.mmw; have h5 := aR_pos
  have hC : 0 < rho * kB / (g.mmw * mP) := by positivity
  have hroot : aR / 3 * T ^ 4 + rho * kB / (g.mmw * mP) * T = P := by
    rw [← hP]; simp only [RadGas.presFromTemp]; ring
  have hPpos : 0 < P := by rw [← hroot]; positivity
  have e1 : PerfectGas.tempFromPres g rho P = P / (rho * kB / (g.mmw * mP)) := by
    simp only [PerfectGas.tempFromPres]; field_simp
  have e2 : 3 * P / aR = P / (aR / 3) := by field_simp
  rw [e1, e2] at hgr hrg
  exact newton_converges (by positivity) hC hPpos hT hroot hgr hrg hT300

/-- **C19** (partial), same for the inversion of the internal energy. Full statement and gap as in
`C19_temp_from_pres_partial`. -/
theorem C19_temp_from_evol_partial {g : Gas} (hg : g.Physical) {rho e T : ℝ} (hrho : 0 < rho) (hT : 0 < T)
    (he : RadGas.evolFromTemp g rho T = e)
    (hgr : PerfectGas.tempFromEvol g rho e ≤ 5 * 10 ^ 8 * (e / aR) ^ (1 / 4 : ℝ))
    (hrg : (e / aR) ^ (1 / 4 : ℝ) ≤ 5 * 10 ^ 8 * PerfectGas.tempFromEvol g rho e) (hT300 : T ≤ 10 ^ 300) :
    |RadGas.tempFromEvol g rho e - T| ≤ 3 * 1e-6 := by
  have h1 := kB_pos; have h2 := mP_pos; have h3 := hg.mmw; have h5 := aR_pos; have h4 := hg.gammaM1_pos
  have hC : 0 < rho * kB / (g.mmw * mP * g.gammaM1) := by positivity
  have hroot : aR * T ^ 4 + rho * kB / (g.mmw * mP * g.gammaM1) * T = e := by
    rw [← he]; simp only [RadGas.evolFromTemp]; ring
  have hPpos : 0 < e := by rw [← hroot]; positivity
  have e1 : PerfectGas.tempFromEvol g rho e = e / (rho * kB / (g.mmw * mP * g.gammaM1)) := by
    simp only [PerfectGas.tempFromEvol]; field_simp
  rw [e1] at hgr hrg
  exact newton_converges h5 hC hPpos hT hroot hgr hrg hT300

/-- **C19**, what holds without any restriction on the state: the returned temperature is never below the
true one, and when the last Newton increment is below the tolerance the error is at most three times the
tolerance. -/
theorem C19_one_sided {g : Gas} (hg : g.Physical) {rho T : ℝ} (hrho : 0 < rho) (hT : 0 < T) :
    (∀ P, RadGas.presFromTemp g rho T = P → T ≤ RadGas.tempFromPres g rho P ∧
      (|(RadGas.tempFromPresOut g rho P).delta| ≤ 1e-6 → |RadGas.tempFromPres g rho P - T| ≤ 3 * 1e-6)) ∧
    (∀ e, RadGas.evolFromTemp g rho T = e → T ≤ RadGas.tempFromEvol g rho e ∧
      (|(RadGas.tempFromEvolOut g rho e).delta| ≤ 1e-6 → |RadGas.tempFromEvol g rho e - T| ≤ 3 * 1e-6)) := by
  have h1 := kB_pos; have h2 := mP_pos; have h3 := hg.mmw; have h5 := aR_pos; have h4 := hg.gammaM1_pos
  constructor
  · intro P hP
    have hC : 0 < rho * kB / (g.mmw * mP) := by positivity
    have hroot : aR / 3 * T ^ 4 + rho * kB / (g.mmw * mP) * T = P := by
      rw [← hP]; simp only [RadGas.presFromTemp]; ring
    have hPpos : 0 < P := by rw [← hroot]; positivity
    obtain ⟨a, b, -⟩ := newton_core (by positivity : 0 < aR / 3) hC hPpos hT hroot
    exact ⟨a, b⟩
  · intro e he
    have hC : 0 < rho * kB / (g.mmw * mP * g.gammaM1) := by positivity
    have hroot : aR * T ^ 4 + rho * kB / (g.mmw * mP * g.gammaM1) * T = e := by
      rw [← he]; simp only [RadGas.evolFromTemp]; ring
    have hPpos : 0 < e := by rw [← hroot]; positivity
    obtain ⟨a, b, -⟩ := newton_core h5 hC hPpos hT hroot
    exact ⟨a, b⟩

/-- The loop counter never reaches the value tested by the error branch, for any input at all. -/
private theorem newton_itr_lt (A C Y : ℝ) : (RadGas.newton A C Y).itr < RadGas.maxItr := by
  obtain ⟨k, hk, -, h2, -⟩ := newtonLoop_spec (fun T => A * (T * T * T) * T + C * T - Y)
    (fun T => 4 * A * (T * T * T) + C) RadGas.tolNewton 100 0
    ⟨if (Y / A) ^ (1 / 4 : ℝ) > Y / C then (Y / A) ^ (1 / 4 : ℝ) else Y / C, 0, 0⟩ (by norm_num)
  have : (RadGas.newton A C Y).itr = 0 + k := h2
  rw [this]; simpa [RadGas.maxItr] using hk

/-- **C19**, the non-convergence branch is unreachable: the loop counter stops at `max_itr - 1` but the
test compares it with `max_itr`. -/
theorem C19_never_reports (g : Gas) (rho x : ℝ) :
    ¬ RadGas.warns (RadGas.tempFromPresOut g rho x) ∧ ¬ RadGas.warns (RadGas.tempFromEvolOut g rho x) := by
  constructor
  · rintro ⟨h, -⟩
    exact absurd h (newton_itr_lt _ _ _).ne
  · rintro ⟨h, -⟩
    exact absurd h (newton_itr_lt _ _ _).ne

/-- **C19 is violated.** A hydrogen gas (`gamma = 5/3`, `mmw = 1`) at true temperature at most `10^9 K` and
density `rho = aR/3 · 10^12 · mP/kB` (about `3·10^-8 kg/m³`): the inversion of its pressure stops after 100
iterations without any message and returns more than 80 times the true temperature. -/
theorem C19_violated :
    ∃ (g : Gas) (rho P T : ℝ), g.Physical ∧ 0 < rho ∧ 0 < P ∧ 0 < T ∧ T ≤ 10 ^ 9 ∧ RadGas.presFromTemp g rho T = P ∧
      80 * T < RadGas.tempFromPres g rho P ∧ ¬ RadGas.warns (RadGas.tempFromPresOut g rho P) := by
  have h1 := kB_pos; have h2 := mP_pos; have h5 := aR_pos
  obtain ⟨A, hA⟩ : ∃ A, A = aR / 3 := ⟨_, rfl⟩
  have hApos : 0 < A := by rw [hA]; positivity
  let g : Gas := ⟨5 / 3, 5 / 3 - 1, 1⟩
  let rho := A * 10 ^ 12 * mP / kB
  have hg : g.Physical := ⟨by norm_num [g], by norm_num [g], rfl⟩
  have hrho : 0 < rho := by positivity
  have hCe : rho * kB / (g.mmw * mP) = A * 10 ^ 12 := by
    simp only [rho, g]; field_simp
  have hC : 0 < A * 10 ^ 12 := by positivity
  have hY : 0 < A * 10 ^ 36 := by positivity
  obtain ⟨S, hS, hroot⟩ := exists_root hApos hC hY
  have hS9 : S ≤ 10 ^ 9 := by
    have h : A * S ^ 4 ≤ A * (10 ^ 9) ^ 4 := by
      have : 0 ≤ A * 10 ^ 12 * S := by positivity
      nlinarith
    have h := le_of_mul_le_mul_left h hApos
    exact le_of_pow_le_pow_left₀ (by norm_num) (by norm_num) h
  refine ⟨g, rho, A * 10 ^ 36, S, hg, hrho, hY, hS, hS9, ?_, ?_, (C19_never_reports _ _ _).1⟩
  · rw [← hroot]
    have : RadGas.presFromTemp g rho S = rho * kB / (g.mmw * mP) * S + aR / 3 * S ^ 4 := by
      simp only [RadGas.presFromTemp]; ring
    rw [this, hCe, ← hA]; ring
  · have e : RadGas.tempFromPres g rho (A * 10 ^ 36) = (RadGas.newton A (A * 10 ^ 12) (A * 10 ^ 36)).T := by
      unfold RadGas.tempFromPres RadGas.tempFromPresOut
      rw [hCe, ← hA]
    rw [e]
    obtain ⟨-, -, -, k, hk, hT, hd, h4⟩ := newton_core hApos hC hY hS hroot
    have hT0 : (if (A * 10 ^ 36 / A) ^ (1 / 4 : ℝ) > A * 10 ^ 36 / (A * 10 ^ 12) then
        (A * 10 ^ 36 / A) ^ (1 / 4 : ℝ) else A * 10 ^ 36 / (A * 10 ^ 12)) = 10 ^ 24 := by
      have e1 : A * 10 ^ 36 / A = 10 ^ 36 := by field_simp
      have e2 : A * 10 ^ 36 / (A * 10 ^ 12) = 10 ^ 24 := by field_simp
      have e3 : ((10 : ℝ) ^ 36) ^ (1 / 4 : ℝ) = 10 ^ 9 := by
        rw [show (10 : ℝ) ^ 36 = (10 ^ 9) ^ (4 : ℝ) by norm_num, ← Real.rpow_mul (by norm_num)]
        norm_num
      rw [e1, e2, e3, if_neg (by norm_num)]
    rw [hT0] at hT hd
    have step : ∀ T : ℝ, 10 ^ 9 ≤ T → 74 / 100 * T ≤ nstep (resid A (A * 10 ^ 12) (A * 10 ^ 36)) (dresid A (A * 10 ^ 12)) T := by
      intro T hT
      have hTp : 0 < T := by linarith [show (0 : ℝ) < 10 ^ 9 by norm_num]
      have hd := dresid_pos hApos hC hTp
      unfold nstep
      have : resid A (A * 10 ^ 12) (A * 10 ^ 36) T / dresid A (A * 10 ^ 12) T ≤ 26 / 100 * T := by
        rw [div_le_iff₀ hd]
        unfold resid dresid
        have h3 : (10 : ℝ) ^ 27 ≤ T ^ 3 := by
          calc (10 : ℝ) ^ 27 = (10 ^ 9) ^ 3 := by norm_num
            _ ≤ T ^ 3 := by gcongr
        have h4 : 0 ≤ T * (4 / 100 * T ^ 3 - 74 / 100 * 10 ^ 12) := by
          apply mul_nonneg hTp.le
          linarith
        have : 0 ≤ A * (T * (4 / 100 * T ^ 3 - 74 / 100 * 10 ^ 12) + 10 ^ 36) := by positivity
        nlinarith
      rw [neg_div]; linarith
    have low : ∀ n ≤ 100, (10 : ℝ) ^ 24 * (74 / 100) ^ n ≤
        (nstep (resid A (A * 10 ^ 12) (A * 10 ^ 36)) (dresid A (A * 10 ^ 12)))^[n] (10 ^ 24) := by
      intro n
      induction n with
      | zero => intro _; simp
      | succ n ih =>
        intro hn
        have ih := ih (by omega)
        rw [Function.iterate_succ_apply', pow_succ (74 / 100 : ℝ) n]
        have hbig : (10 : ℝ) ^ 9 ≤ 10 ^ 24 * (74 / 100) ^ n := by
          have : ((74 : ℝ) / 100) ^ 99 ≤ (74 / 100) ^ n :=
            pow_le_pow_of_le_one (by norm_num) (by norm_num) (by omega)
          have h99 : (10 : ℝ) ^ 9 ≤ 10 ^ 24 * (74 / 100) ^ 99 := by norm_num
          linarith
        have := step _ (hbig.trans ih)
        linarith
    have h100 : (81 : ℝ) * 10 ^ 9 ≤ 10 ^ 24 * (74 / 100) ^ 100 := by norm_num
    have hmono : ∀ n ≤ 100, (81 : ℝ) * 10 ^ 9 ≤
        (nstep (resid A (A * 10 ^ 12) (A * 10 ^ 36)) (dresid A (A * 10 ^ 12)))^[n] (10 ^ 24) := by
      intro n hn
      have : ((74 : ℝ) / 100) ^ 100 ≤ (74 / 100) ^ n := pow_le_pow_of_le_one (by norm_num) (by norm_num) hn
      exact h100.trans ((mul_le_mul_of_nonneg_left this (by positivity)).trans (low n hn))
    rw [hT]
    have := hmono (k + 1) (by omega)
    linarith

/-- Non-vacuity of the partial theorems: a gas with `rho`, `P` such that both pure temperatures are 1 K. -/
example : ∃ (g : Gas) (rho P T : ℝ), g.Physical ∧ 0 < rho ∧ 0 < T ∧ RadGas.presFromTemp g rho T = P ∧
    PerfectGas.tempFromPres g rho P ≤ 5 * 10 ^ 8 * (3 * P / aR) ^ (1 / 4 : ℝ) ∧
    (3 * P / aR) ^ (1 / 4 : ℝ) ≤ 5 * 10 ^ 8 * PerfectGas.tempFromPres g rho P ∧ T ≤ 10 ^ 300 := by
  have h1 := kB_pos; have h2 := mP_pos; have h5 := aR_pos
  let g : Gas := ⟨5 / 3, 5 / 3 - 1, 1⟩
  have hg : g.Physical := ⟨by norm_num [g], by norm_num [g], rfl⟩
  have hrho : 0 < aR / 3 * mP / kB := by positivity
  obtain ⟨S, ⟨hS, hr⟩, -⟩ := (C19_temperature_exists_unique hg hrho).1 (aR / 3) (by positivity)
  have e1 : PerfectGas.tempFromPres g (aR / 3 * mP / kB) (aR / 3) = 1 := by
    simp only [PerfectGas.tempFromPres, g]; field_simp
  have e2 : (3 * (aR / 3) / aR) ^ (1 / 4 : ℝ) = 1 := by
    have : 3 * (aR / 3) / aR = 1 := by field_simp
    rw [this, Real.one_rpow]
  refine ⟨g, aR / 3 * mP / kB, aR / 3, S, hg, hrho, hS, hr, ?_, ?_, ?_⟩
  · rw [e1, e2]; norm_num
  · rw [e1, e2]; norm_num
  · have : S ≤ 1 := by
      have h : PerfectGas.tempFromPres g (aR / 3 * mP / kB) (RadGas.presFromTemp g (aR / 3 * mP / kB) S) = 1 := by
        rw [hr, e1]
      have e3 : PerfectGas.tempFromPres g (aR / 3 * mP / kB) (RadGas.presFromTemp g (aR / 3 * mP / kB) S) =
          S + S ^ 4 := by
        simp only [PerfectGas.tempFromPres, RadGas.presFromTemp, g]; field_simp
      rw [e3] at h
      have : 0 ≤ S ^ 4 := by positivity
      linarith
    exact this.trans (one_le_pow₀ (by norm_num))

/-! ## C60 – the sound speeds are the isentropic ones -/

/-- An isentropic curve through density `rho`: the temperature `Th` follows the density such that the
specific internal energy `evol / rho` obeys the first law `de = P / rho² drho`. -/
def Isentropic (evol pres : ℝ → ℝ → ℝ) (Th : ℝ → ℝ) (rho : ℝ) : Prop :=
  DifferentiableAt ℝ Th rho ∧ HasDerivAt (fun r => evol r (Th r) / r) (pres rho (Th rho) / rho ^ 2) rho

/-- **C60**, perfect gas: along an isentrope `dP/drho` is the square of the code's sound speed. -/
theorem C60_perfect_gas {g : Gas} (hg : g.Physical) {rho : ℝ} {Th : ℝ → ℝ} (hrho : 0 < rho) (hT : 0 < Th rho)
    (hs : Isentropic (PerfectGas.evolFromTemp g) (PerfectGas.presFromTemp g) Th rho) :
    HasDerivAt (fun r => PerfectGas.presFromTemp g r (Th r))
      ((PerfectGas.soundSpeed g rho (PerfectGas.presFromTemp g rho (Th rho))) ^ 2) rho := by
  have h1 := kB_pos; have h2 := mP_pos; have h3 := hg.mmw; have h4 := hg.gammaM1_pos
  have hga : 0 < g.gamma := by linarith [hg.gamma]
  obtain ⟨hd, he⟩ := hs
  obtain ⟨T', hT'⟩ : ∃ T', HasDerivAt Th T' rho := ⟨_, hd.hasDerivAt⟩
  have hP : 0 < PerfectGas.presFromTemp g rho (Th rho) := by unfold PerfectGas.presFromTemp; positivity
  rw [(C17_sound_speed hg hrho hP).1]
  have hE : HasDerivAt (fun r => PerfectGas.evolFromTemp g r (Th r) / r) (kB / (g.mmw * mP * g.gammaM1) * T') rho := by
    have : HasDerivAt (fun r => kB / (g.mmw * mP * g.gammaM1) * Th r) (kB / (g.mmw * mP * g.gammaM1) * T') rho :=
      hT'.const_mul _
    refine this.congr_of_eventuallyEq ?_
    filter_upwards [eventually_ne_nhds hrho.ne'] with r hr
    simp only [PerfectGas.evolFromTemp]
    field_simp
  have hu := he.unique hE
  have hPd : HasDerivAt (fun r => PerfectGas.presFromTemp g r (Th r))
      (kB / (g.mmw * mP) * (1 * Th rho + rho * T')) rho := by
    have := ((hasDerivAt_id rho).mul hT').const_mul (kB / (g.mmw * mP))
    refine this.congr_of_eventuallyEq ?_
    filter_upwards with r
    simp only [PerfectGas.presFromTemp, id, Pi.mul_apply]
    ring
  convert hPd using 1
  have hT'' : T' = g.gammaM1 * Th rho / rho := by
    simp only [PerfectGas.presFromTemp] at hu
    field_simp at hu
    field_simp
    linarith
  rw [hT'', show g.gamma = g.gammaM1 + 1 by rw [hg.gammaM1]; ring]
  simp only [PerfectGas.presFromTemp]
  field_simp
  ring

/-- **C60**, radiative gas: along an isentrope of gas plus radiation, `dP/drho` is the quantity under the
square root of the code's sound speed evaluated at the true temperature. -/
theorem C60_radiative_gas {g : Gas} (hg : g.Physical) {rho : ℝ} {Th : ℝ → ℝ} (hrho : 0 < rho) (hT : 0 < Th rho)
    (hs : Isentropic (RadGas.evolFromTemp g) (RadGas.presFromTemp g) Th rho) :
    HasDerivAt (fun r => RadGas.presFromTemp g r (Th r)) (RadGas.soundArg g rho (Th rho)) rho ∧
      0 < RadGas.soundArg g rho (Th rho) := by
  have h1 := kB_pos; have h2 := mP_pos; have h3 := hg.mmw; have h4 := hg.gammaM1_pos; have h5 := aR_pos
  have hga : 0 < g.gamma := by linarith [hg.gamma]
  obtain ⟨hd, he⟩ := hs
  obtain ⟨T', hT'⟩ : ∃ T', HasDerivAt Th T' rho := ⟨_, hd.hasDerivAt⟩
  obtain ⟨R, hR⟩ : ∃ R, R = kB / (g.mmw * mP) := ⟨_, rfl⟩
  have hRp : 0 < R := by rw [hR]; positivity
  have hT4 : HasDerivAt (fun r => Th r ^ 4) (4 * Th rho ^ 3 * T') rho := by
    have h := hT'.pow 4
    simp only [Nat.cast_ofNat, Nat.add_one_sub_one] at h
    exact h
  have hE : HasDerivAt (fun r => RadGas.evolFromTemp g r (Th r) / r)
      (R / g.gammaM1 * T' + aR * ((4 * Th rho ^ 3 * T') * rho⁻¹ + Th rho ^ 4 * (-(rho ^ 2)⁻¹))) rho := by
    have h := (hT'.const_mul (R / g.gammaM1)).add ((hT4.mul (hasDerivAt_inv hrho.ne')).const_mul aR)
    refine h.congr_of_eventuallyEq ?_
    filter_upwards [eventually_ne_nhds hrho.ne'] with r hr
    simp only [RadGas.evolFromTemp, hR, Pi.add_apply, Pi.mul_apply]
    field_simp
  have hu := he.unique hE
  have hPd : HasDerivAt (fun r => RadGas.presFromTemp g r (Th r))
      (R * (1 * Th rho + rho * T') + aR / 3 * (4 * Th rho ^ 3 * T')) rho := by
    have := (((hasDerivAt_id rho).mul hT').const_mul R).add (hT4.const_mul (aR / 3))
    refine this.congr_of_eventuallyEq ?_
    filter_upwards with r
    simp only [RadGas.presFromTemp, id, Pi.mul_apply, Pi.add_apply, hR]
    ring
  obtain ⟨t, ht⟩ : ∃ t, t = Th rho := ⟨_, rfl⟩
  have hpres : RadGas.presFromTemp g rho (Th rho) = rho * R * t + aR / 3 * t ^ 4 := by
    rw [ht, hR]; simp only [RadGas.presFromTemp]; ring
  rw [hpres] at hu
  rw [← ht] at hu hPd hT ⊢
  have hsound : RadGas.soundArg g rho t =
      ((g.gammaM1 + 1) / g.gammaM1 + 20 * (aR * t ^ 4 / 3 / (rho * R * t)) + 16 * (aR * t ^ 4 / 3 / (rho * R * t)) ^ 2) /
      (1 / g.gammaM1 + 12 * (aR * t ^ 4 / 3 / (rho * R * t))) * (rho * R * t) / rho := by
    rw [hR, hg.gammaM1]
    simp only [RadGas.soundArg]
    have e1 : g.gamma - 1 + 1 = g.gamma := by ring
    have e2 : rho * kB * t / (g.mmw * mP) = rho * (kB / (g.mmw * mP)) * t := by ring
    rw [e1, e2]
    ring_nf
  have hden : 0 < 1 / g.gammaM1 + 12 * (aR * t ^ 4 / 3 / (rho * R * t)) := by positivity
  constructor
  · convert hPd using 1
    have hT'' : T' * (R / g.gammaM1 + 4 * aR * t ^ 3 / rho) = (rho * R * t + 4 / 3 * aR * t ^ 4) / rho ^ 2 := by
      field_simp at hu ⊢
      linarith
    have hq : 0 < R / g.gammaM1 + 4 * aR * t ^ 3 / rho := by positivity
    have hT3 : T' = (rho * R * t + 4 / 3 * aR * t ^ 4) / rho ^ 2 / (R / g.gammaM1 + 4 * aR * t ^ 3 / rho) := by
      rw [eq_div_iff hq.ne']; exact hT''
    rw [hsound, hT3]
    have hdd : (1 / g.gammaM1 + 12 * (aR * t ^ 4 / 3 / (rho * R * t))) =
        (R / g.gammaM1 + 4 * aR * t ^ 3 / rho) / R := by
      field_simp
      ring
    rw [hdd]
    field_simp
    ring
  · rw [hsound]; positivity

/-- Non-vacuity of the isentropic hypothesis: `T = rho^2` is an isentrope of a gas with `gamma = 3`. -/
example : Isentropic (PerfectGas.evolFromTemp ⟨3, 3 - 1, 1⟩) (PerfectGas.presFromTemp ⟨3, 3 - 1, 1⟩) (fun r => r ^ 2) 1 := by
  have h2 := mP_pos
  refine ⟨by fun_prop, ?_⟩
  have : HasDerivAt (fun r : ℝ => kB / (mP * 2) * r ^ 2) (kB / (mP * 2) * (2 * 1)) 1 := by
    have := (hasDerivAt_pow 2 (1 : ℝ)).const_mul (kB / (mP * 2))
    simpa using this
  have h := this.congr_of_eventuallyEq (f₁ := fun r => PerfectGas.evolFromTemp ⟨3, 3 - 1, 1⟩ r (r ^ 2) / r) (by
    filter_upwards [eventually_ne_nhds (one_ne_zero : (1 : ℝ) ≠ 0)] with r hr
    simp only [PerfectGas.evolFromTemp]
    norm_num
    field_simp)
  have e : PerfectGas.presFromTemp ⟨3, 3 - 1, 1⟩ 1 ((fun r : ℝ => r ^ 2) 1) / 1 ^ 2 = kB / (mP * 2) * (2 * 1) := by
    show (1 : ℝ) * kB * (1 ^ 2) / (1 * mP) / 1 ^ 2 = _
    field_simp
  rw [e]
  exact h

end Heracles

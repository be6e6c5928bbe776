import Verif.Model.Thermo
import Mathlib.Topology.Order.IntermediateValue
import Mathlib.Tactic.Linarith
import Mathlib.Tactic.FieldSimp
import Mathlib.Tactic.Positivity

namespace Heracles

theorem kB_pos : 0 < kB := by unfold kB; norm_num
theorem mP_pos : 0 < mP := by unfold mP; norm_num
theorem cLight_pos : 0 < cLight := by unfold cLight; norm_num
theorem hPlanck_pos : 0 < hPlanck := by unfold hPlanck; norm_num
theorem aR_pos : 0 < aR := by
  unfold aR
  have := kB_pos; have := cLight_pos; have := hPlanck_pos; have := Real.pi_pos
  positivity

/-- A gas accepted by the constructors. -/
structure Gas.Physical (g : Gas) : Prop where
  gamma : 1 < g.gamma
  mmw : 0 < g.mmw
  gammaM1 : g.gammaM1 = g.gamma - 1

theorem Gas.Physical.gammaM1_pos {g : Gas} (h : g.Physical) : 0 < g.gammaM1 := by
  rw [h.gammaM1]; linarith [h.gamma]

/-! ## The Newton iteration -/

section Newton

/-- One Newton step. -/
noncomputable def nstep (f df : ℝ → ℝ) (T : ℝ) : ℝ := T + -f T / df T

theorem newtonLoop_spec (f df : ℝ → ℝ) (tol : ℝ) (fuel i : ℕ) (out : NewtonOut) (hf : 0 < fuel) :
    ∃ k < fuel, (newtonLoop f df tol fuel i out).T = (nstep f df)^[k + 1] out.T ∧
      (newtonLoop f df tol fuel i out).itr = i + k ∧
      (newtonLoop f df tol fuel i out).delta = -f ((nstep f df)^[k] out.T) / df ((nstep f df)^[k] out.T) ∧
      (|(newtonLoop f df tol fuel i out).delta| ≤ tol ∨ k + 1 = fuel) ∧
      ∀ j < k, tol < |-f ((nstep f df)^[j] out.T) / df ((nstep f df)^[j] out.T)| := by
  induction fuel generalizing i out with
  | zero => omega
  | succ fuel ih =>
    by_cases h : |-f out.T / df out.T| ≤ tol
    · refine ⟨0, by omega, ?_, ?_, ?_, ?_, by simp⟩ <;> simp [newtonLoop, h, nstep]
    · have hred : newtonLoop f df tol (fuel + 1) i out =
          newtonLoop f df tol fuel (i + 1) ⟨out.T + -f out.T / df out.T, i, -f out.T / df out.T⟩ := by
        rw [newtonLoop]; simp only [h, if_false]
      rw [hred]
      by_cases hfu : fuel = 0
      · subst hfu
        refine ⟨0, by omega, ?_, ?_, ?_, ?_, by simp⟩ <;> simp [newtonLoop, nstep]
      · obtain ⟨k, hk, h1, h2, h3, h4, h5⟩ := ih (i + 1) ⟨out.T + -f out.T / df out.T, i, -f out.T / df out.T⟩ (by omega)
        refine ⟨k + 1, by omega, ?_, by rw [h2]; omega, ?_, ?_, ?_⟩
        · rw [h1, Function.iterate_succ_apply (nstep f df) (k + 1)]; rfl
        · rw [h3, Function.iterate_succ_apply (nstep f df) k]; rfl
        · rcases h4 with h4 | h4
          · exact Or.inl h4
          · right; omega
        · intro j hj
          cases j with
          | zero => simpa using not_le.1 h
          | succ j =>
            rw [Function.iterate_succ_apply]
            exact h5 j (by omega)

variable {A C Y S : ℝ}

/-- The residual and its derivative (src/thermodynamics/rad_gas.hpp 85-87). -/
noncomputable def resid (A C Y T : ℝ) : ℝ := A * (T * T * T) * T + C * T - Y
noncomputable def dresid (A C T : ℝ) : ℝ := 4 * A * (T * T * T) + C

theorem exists_root (hA : 0 < A) (hC : 0 < C) (hY : 0 < Y) : ∃ S, 0 < S ∧ A * S ^ 4 + C * S = Y := by
  have hc : ContinuousOn (fun T : ℝ => A * T ^ 4 + C * T) (Set.Icc 0 (Y / C)) := by fun_prop
  have h := intermediate_value_Icc (by positivity : (0 : ℝ) ≤ Y / C) hc
  have hY' : Y ∈ Set.Icc (A * (0 : ℝ) ^ 4 + C * 0) (A * (Y / C) ^ 4 + C * (Y / C)) := by
    constructor
    · simp [hY.le]
    · have : C * (Y / C) = Y := by field_simp
      rw [this]
      have : 0 ≤ A * (Y / C) ^ 4 := by positivity
      linarith
  obtain ⟨S, hS, hSY⟩ := h hY'
  refine ⟨S, ?_, hSY⟩
  rcases hS.1.eq_or_lt with h | h
  · exfalso
    rw [← h] at hSY
    simp at hSY
    linarith
  · exact h

theorem root_unique (hA : 0 < A) (hC : 0 < C) {S T : ℝ} (hS : 0 < S) (hT : 0 < T)
    (h1 : A * S ^ 4 + C * S = Y) (h2 : A * T ^ 4 + C * T = Y) : S = T := by
  have key : ∀ {a b : ℝ}, 0 < a → a < b → A * a ^ 4 + C * a < A * b ^ 4 + C * b := by
    intro a b ha hab
    have h4 : a ^ 4 < b ^ 4 := pow_lt_pow_left₀ hab ha.le (by norm_num)
    nlinarith
  rcases lt_trichotomy S T with h | h | h
  · have := key hS h; linarith
  · exact h
  · have := key hT h; linarith

/-- Factorisation of the residual at the root. -/
theorem resid_eq (hroot : A * S ^ 4 + C * S = Y) (T : ℝ) :
    resid A C Y T = (A * (T ^ 3 + T ^ 2 * S + T * S ^ 2 + S ^ 3) + C) * (T - S) := by
  unfold resid; rw [← hroot]; ring

theorem dresid_pos (hA : 0 < A) (hC : 0 < C) {T : ℝ} (hT : 0 < T) : 0 < dresid A C T := by
  unfold dresid; positivity

theorem nstep_ge (hA : 0 < A) (hC : 0 < C) (hS : 0 < S) (hroot : A * S ^ 4 + C * S = Y) {T : ℝ} (hT : S ≤ T) :
    S ≤ nstep (resid A C Y) (dresid A C) T := by
  have hTp : 0 < T := by linarith
  have hd := dresid_pos hA hC hTp
  unfold nstep
  have : resid A C Y T / dresid A C T ≤ T - S := by
    rw [div_le_iff₀ hd, resid_eq hroot]
    unfold dresid
    have h3 : T ^ 3 + T ^ 2 * S + T * S ^ 2 + S ^ 3 ≤ 4 * T ^ 3 := by
      have h1 : T ^ 2 * S ≤ T ^ 2 * T := by gcongr
      have h2 : T * S ^ 2 ≤ T * T ^ 2 := by gcongr
      have h3 : S ^ 3 ≤ T ^ 3 := by gcongr
      nlinarith
    have h0 : 0 ≤ T - S := by linarith
    have : A * (T ^ 3 + T ^ 2 * S + T * S ^ 2 + S ^ 3) + C ≤ 4 * A * (T * T * T) + C := by nlinarith
    nlinarith
  rw [neg_div]; linarith

theorem nstep_delta (hA : 0 < A) (hC : 0 < C) (hS : 0 < S) (hroot : A * S ^ 4 + C * S = Y) {T : ℝ} (hT : S ≤ T) :
    -resid A C Y T / dresid A C T ≤ -((T - S) / 4) := by
  have hTp : 0 < T := by linarith
  have hd := dresid_pos hA hC hTp
  have : (T - S) / 4 ≤ resid A C Y T / dresid A C T := by
    rw [le_div_iff₀ hd, resid_eq hroot]
    unfold dresid
    have h0 : 0 ≤ T - S := by linarith
    have h1 : (4 * A * (T * T * T) + C) / 4 ≤ A * (T ^ 3 + T ^ 2 * S + T * S ^ 2 + S ^ 3) + C := by
      have : 0 ≤ A * (T ^ 2 * S + T * S ^ 2 + S ^ 3) := by positivity
      nlinarith
    nlinarith
  rw [neg_div]; linarith

/-- Error contraction: at least a factor 3/4 per step. -/
theorem nstep_contract (hA : 0 < A) (hC : 0 < C) (hS : 0 < S) (hroot : A * S ^ 4 + C * S = Y) {T : ℝ} (hT : S ≤ T) :
    nstep (resid A C Y) (dresid A C) T - S ≤ 3 / 4 * (T - S) := by
  have := nstep_delta hA hC hS hroot hT
  unfold nstep; linarith

/-- Quadratic convergence. -/
theorem nstep_quadratic (hA : 0 < A) (hC : 0 < C) (hS : 0 < S) (hroot : A * S ^ 4 + C * S = Y) {T : ℝ} (hT : S ≤ T) :
    nstep (resid A C Y) (dresid A C) T - S ≤ 3 / 2 * (T - S) ^ 2 / S := by
  have hTp : 0 < T := by linarith
  have hd := dresid_pos hA hC hTp
  have e : nstep (resid A C Y) (dresid A C) T - S =
      A * (T - S) ^ 2 * (3 * T ^ 2 + 2 * T * S + S ^ 2) / dresid A C T := by
    unfold nstep
    rw [resid_eq hroot]
    field_simp
    unfold dresid
    ring
  rw [e, div_le_div_iff₀ hd hS]
  unfold dresid
  have h1 : (3 * T ^ 2 + 2 * T * S + S ^ 2) * S ≤ 6 * T ^ 3 := by
    have h1 : 2 * T * S ≤ 2 * T * T := by gcongr
    have h2 : S ^ 2 ≤ T ^ 2 := by gcongr
    have h3 : (3 * T ^ 2 + 2 * T * S + S ^ 2) * S ≤ (6 * T ^ 2) * T := by
      apply mul_le_mul <;> nlinarith
    nlinarith
  have h2 : 0 ≤ (T - S) ^ 2 := sq_nonneg _
  have h3 : A * (T - S) ^ 2 * ((3 * T ^ 2 + 2 * T * S + S ^ 2) * S) ≤ A * (T - S) ^ 2 * (6 * T ^ 3) := by gcongr
  have h4 : 0 ≤ (T - S) ^ 2 * C := by positivity
  nlinarith

theorem iter_ge (hA : 0 < A) (hC : 0 < C) (hS : 0 < S) (hroot : A * S ^ 4 + C * S = Y) {T : ℝ} (hT : S ≤ T) (n : ℕ) :
    S ≤ (nstep (resid A C Y) (dresid A C))^[n] T := by
  induction n with
  | zero => simpa using hT
  | succ n ih => rw [Function.iterate_succ_apply']; exact nstep_ge hA hC hS hroot ih

theorem iter_linear (hA : 0 < A) (hC : 0 < C) (hS : 0 < S) (hroot : A * S ^ 4 + C * S = Y) {T : ℝ} (hT : S ≤ T) (n : ℕ) :
    (nstep (resid A C Y) (dresid A C))^[n] T - S ≤ (3 / 4) ^ n * (T - S) := by
  induction n with
  | zero => simp
  | succ n ih =>
    rw [Function.iterate_succ_apply']
    have := nstep_contract hA hC hS hroot (iter_ge hA hC hS hroot hT n)
    rw [pow_succ]; linarith

theorem iter_quadratic (hA : 0 < A) (hC : 0 < C) (hS : 0 < S) (hroot : A * S ^ 4 + C * S = Y) {T : ℝ} (hT : S ≤ T)
    (h0 : 3 / 2 * ((T - S) / S) ≤ 1 / 2) (n : ℕ) :
    3 / 2 * (((nstep (resid A C Y) (dresid A C))^[n] T - S) / S) ≤ (1 / 2) ^ (2 ^ n) := by
  induction n with
  | zero => simpa using h0
  | succ n ih =>
    rw [Function.iterate_succ_apply']
    set U := (nstep (resid A C Y) (dresid A C))^[n] T with hU
    have hUS := iter_ge hA hC hS hroot hT n
    have hq := nstep_quadratic hA hC hS hroot hUS
    have hr0 : 0 ≤ 3 / 2 * ((U - S) / S) := by
      have : 0 ≤ U - S := by linarith
      positivity
    calc 3 / 2 * ((nstep (resid A C Y) (dresid A C) U - S) / S)
        ≤ 3 / 2 * ((3 / 2 * (U - S) ^ 2 / S) / S) := by gcongr
      _ = (3 / 2 * ((U - S) / S)) ^ 2 := by field_simp
      _ ≤ ((1 / 2) ^ (2 ^ n)) ^ 2 := by gcongr
      _ = (1 / 2) ^ (2 ^ (n + 1)) := by rw [← pow_mul, pow_succ]

/-- Both starting guesses are above the root. -/
theorem root_le_gas (hA : 0 < A) (hC : 0 < C) (hS : 0 < S) (hroot : A * S ^ 4 + C * S = Y) : S ≤ Y / C := by
  rw [le_div_iff₀ hC]
  have : 0 ≤ A * S ^ 4 := by positivity
  linarith

theorem quarter_pow {x : ℝ} (hx : 0 ≤ x) : (x ^ (1 / 4 : ℝ)) ^ 4 = x := by
  rw [← Real.rpow_natCast, ← Real.rpow_mul hx]
  norm_num

theorem root_le_rad (hA : 0 < A) (hC : 0 < C) (hS : 0 < S) (hY : 0 < Y) (hroot : A * S ^ 4 + C * S = Y) :
    S ≤ (Y / A) ^ (1 / 4 : ℝ) := by
  have h1 : S ^ 4 ≤ ((Y / A) ^ (1 / 4 : ℝ)) ^ 4 := by
    rw [quarter_pow (by positivity), le_div_iff₀ hA]
    have : 0 ≤ C * S := by positivity
    linarith
  exact le_of_pow_le_pow_left₀ (by norm_num) (by positivity) h1

/-- The root is at least half the smaller guess. -/
theorem root_ge_half (hA : 0 < A) (hC : 0 < C) (hS : 0 < S) (hY : 0 < Y) (hroot : A * S ^ 4 + C * S = Y) {m : ℝ}
    (hm : 0 < m) (hmg : m ≤ Y / C) (hmr : m ≤ (Y / A) ^ (1 / 4 : ℝ)) : m / 2 ≤ S := by
  by_contra h
  have h := not_lt.1 (fun hh => h hh.le) |> fun _ => lt_of_not_ge h
  have h1 : C * m ≤ Y := by rw [mul_comm]; exact (le_div_iff₀ hC).1 hmg
  have h2 : A * m ^ 4 ≤ Y := by
    have : m ^ 4 ≤ ((Y / A) ^ (1 / 4 : ℝ)) ^ 4 := by gcongr
    rw [quarter_pow (by positivity), le_div_iff₀ hA] at this
    linarith
  have h3 : S ^ 4 < (m / 2) ^ 4 := pow_lt_pow_left₀ h hS.le (by norm_num)
  have h4 : A * S ^ 4 < A * (m / 2) ^ 4 := by gcongr
  have h5 : C * S < C * (m / 2) := by gcongr
  have h6 : A * (m / 2) ^ 4 = A * m ^ 4 / 16 := by ring
  nlinarith

end Newton

end Heracles

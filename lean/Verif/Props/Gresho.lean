import Verif.Model.Problems
import Verif.Spec.Problems
import Mathlib.Analysis.SpecialFunctions.ExpDeriv
import Mathlib.Analysis.SpecialFunctions.Log.Deriv
import Mathlib.Analysis.Calculus.Deriv.Add
import Mathlib.Analysis.Calculus.Deriv.Pow
import Mathlib.Analysis.Calculus.Deriv.Mul
import Mathlib.Tactic.FieldSimp
import Mathlib.Tactic.Positivity

/-!
# C65 The Gresho vortex is a stationary flow of the requested Mach number
-/

namespace Heracles

variable {n : ℕ}

/-- Azimuthal speed written by the setup at the distance `r` of the axis. -/
noncomputable def greshoSpeed (r : ℝ) : ℝ := if r ≤ 0.2 then 5 * r else if r ≤ 0.4 then 2 - 5 * r else 0

/-- Pressure written by the setup at the distance `r` of the axis. -/
noncomputable def greshoPressure (P0 r : ℝ) : ℝ :=
  if r ≤ 0.2 then P0 + 12.5 * r * r
  else if r ≤ 0.4 then P0 + 12.5 * r * r + 4 - 20 * r + 4 * Real.log (5 * r) else P0 - 2 + 4 * Real.log 2

theorem gresho_inner (P0 r : ℝ) : HasDerivAt (fun r => P0 + 12.5 * r * r) (25 * r) r := by
  have := (((hasDerivAt_id r).const_mul 12.5).mul (hasDerivAt_id r)).const_add P0
  exact this.congr_deriv (by simp only [id]; ring)

theorem gresho_middle (P0 : ℝ) {r : ℝ} (hr : 0 < r) :
    HasDerivAt (fun r => P0 + 12.5 * r * r + 4 - 20 * r + 4 * Real.log (5 * r)) (25 * r - 20 + 4 / r) r := by
  have h1 := ((gresho_inner P0 r).add_const 4).sub ((hasDerivAt_id r).const_mul 20)
  have h2 := (((hasDerivAt_id r).const_mul 5).log (by simp only [id]; positivity)).const_mul 4
  refine (h1.add h2).congr_deriv ?_
  simp only [id]
  field_simp

theorem hasDerivAt_glue {f g h : ℝ → ℝ} {a m : ℝ} (hf : HasDerivAt f m a) (hg : HasDerivAt g m a) (hl : ∀ᶠ x in nhdsWithin a (Set.Iic a), h x = f x)
    (hr : ∀ᶠ x in nhdsWithin a (Set.Ici a), h x = g x) : HasDerivAt h m a := by
  have h1 : HasDerivWithinAt h m (Set.Iic a) a :=
    hf.hasDerivWithinAt.congr_of_eventuallyEq hl (hl.self_of_nhdsWithin Set.self_mem_Iic)
  have h2 : HasDerivWithinAt h m (Set.Ici a) a :=
    hg.hasDerivWithinAt.congr_of_eventuallyEq hr (hr.self_of_nhdsWithin Set.self_mem_Ici)
  have := h1.union h2
  rwa [Set.Iic_union_Ici, hasDerivWithinAt_univ] at this

theorem log_two_at : Real.log (5 * 0.4) = Real.log 2 := by norm_num

theorem gresho_balance (P0 : ℝ) {r : ℝ} (hr : 0 < r) : Centrifugal (fun _ => 1) (greshoPressure P0) greshoSpeed r := by
  unfold Centrifugal
  rcases lt_trichotomy r 0.2 with h | h | h
  · refine ((gresho_inner P0 r).congr_of_eventuallyEq ?_).congr_deriv ?_
    · filter_upwards [gt_mem_nhds h] with x hx
      simp only [greshoPressure, if_pos hx.le]
    · simp only [greshoSpeed, if_pos h.le]
      field_simp
      ring
  · subst h
    have e : (1 : ℝ) * greshoSpeed 0.2 ^ 2 / 0.2 = 25 * 0.2 := by simp only [greshoSpeed, le_refl, if_true]; norm_num
    rw [e]
    refine hasDerivAt_glue (gresho_inner P0 0.2) ((gresho_middle P0 (by norm_num)).congr_deriv (by norm_num)) ?_ ?_
    · filter_upwards [self_mem_nhdsWithin] with x hx
      simp only [greshoPressure, if_pos (Set.mem_Iic.mp hx)]
    · have h4 : ∀ᶠ x : ℝ in nhdsWithin 0.2 (Set.Ici 0.2), x < 0.4 := nhdsWithin_le_nhds (gt_mem_nhds (by norm_num))
      filter_upwards [self_mem_nhdsWithin, h4] with x hx h4
      rcases eq_or_lt_of_le (Set.mem_Ici.mp hx) with h | h
      · subst h
        simp only [greshoPressure, le_refl, if_true]
        have : Real.log (5 * 0.2) = 0 := by norm_num
        rw [this]
        norm_num
      · simp only [greshoPressure, if_neg (not_le.mpr h), if_pos h4.le]
  · rcases lt_trichotomy r 0.4 with h' | h' | h'
    · refine ((gresho_middle P0 hr).congr_of_eventuallyEq ?_).congr_deriv ?_
      · filter_upwards [lt_mem_nhds h, gt_mem_nhds h'] with x hx hx'
        simp only [greshoPressure, if_neg (not_le.mpr hx), if_pos hx'.le]
      · simp only [greshoSpeed, if_neg (not_le.mpr h), if_pos h'.le]
        field_simp
        ring
    · subst h'
      have e : (1 : ℝ) * greshoSpeed 0.4 ^ 2 / 0.4 = 0 := by
        simp only [greshoSpeed, if_neg (not_le.mpr h), le_refl, if_true]; norm_num
      rw [e]
      refine hasDerivAt_glue ((gresho_middle P0 (by norm_num)).congr_deriv (by norm_num)) (hasDerivAt_const _ (P0 - 2 + 4 * Real.log 2)) ?_ ?_
      · have h2 : ∀ᶠ x : ℝ in nhdsWithin 0.4 (Set.Iic 0.4), 0.2 < x := nhdsWithin_le_nhds (lt_mem_nhds (by norm_num))
        filter_upwards [self_mem_nhdsWithin, h2] with x hx h2
        simp only [greshoPressure, if_neg (not_le.mpr h2), if_pos (Set.mem_Iic.mp hx)]
      · filter_upwards [self_mem_nhdsWithin] with x hx
        have h2 : (0.2 : ℝ) < x := lt_of_lt_of_le (by norm_num) (Set.mem_Ici.mp hx)
        rcases eq_or_lt_of_le (Set.mem_Ici.mp hx) with h | h
        · subst h
          simp only [greshoPressure, if_neg (not_le.mpr h2), le_refl, if_true, log_two_at]
          norm_num
          ring
        · simp only [greshoPressure, if_neg (not_le.mpr h2), if_neg (not_le.mpr h)]
    · refine ((hasDerivAt_const r (P0 - 2 + 4 * Real.log 2)).congr_of_eventuallyEq ?_).congr_deriv ?_
      · filter_upwards [lt_mem_nhds h'] with x hx
        simp only [greshoPressure, if_neg (not_le.mpr (lt_trans (by norm_num : (0.2 : ℝ) < 0.4) hx)), if_neg (not_le.mpr hx)]
      · simp only [greshoSpeed, if_neg (not_le.mpr h), if_neg (not_le.mpr h')]
        simp

/-- The angle of a point: its sine and cosine are the ratios of its coordinates to its distance. -/
theorem atan2_angle (x y : ℝ) : Real.sqrt (x * x + y * y) * Real.sin (atan2 y x) = y ∧ Real.sqrt (x * x + y * y) * Real.cos (atan2 y x) = x := by
  set r := Real.sqrt (x * x + y * y) with hr
  have hn : ‖(⟨x, y⟩ : ℂ)‖ = r := by rw [Complex.norm_def, Complex.normSq_mk]
  have hsin : r * Real.sin (atan2 y x) = y := by
    by_cases h0 : (⟨x, y⟩ : ℂ) = 0
    · have hy0 : y = 0 := congrArg Complex.im h0
      have hx0 : x = 0 := congrArg Complex.re h0
      rw [hr, hx0, hy0]
      simp
    · have : r ≠ 0 := by rw [← hn]; exact norm_ne_zero_iff.mpr h0
      rw [atan2, Complex.sin_arg, hn, mul_div_cancel₀ _ this]
  have hcos : r * Real.cos (atan2 y x) = x := by
    by_cases h0 : (⟨x, y⟩ : ℂ) = 0
    · have hy0 : y = 0 := congrArg Complex.im h0
      have hx0 : x = 0 := congrArg Complex.re h0
      rw [hr, hx0, hy0]
      simp
    · have : r ≠ 0 := by rw [← hn]; exact norm_ne_zero_iff.mpr h0
      rw [atan2, Complex.cos_arg h0, hn, mul_div_cancel₀ _ this]
  exact ⟨hsin, hcos⟩

/-- The values that the setup writes, with `u0 = 0`. -/
theorem gresho_values (eos : SetupEos) (rho0 Ma : ℝ) (g : GridData ℝ) (c : Cell) (x y : ℝ) (s : InitCell 2 n)
    (hx : (g.xc 0).rd (c 0) = some x) (hy : (g.xc 1).rd (c 1) = some y) :
    greshoInit (n := n) eos rho0 0 Ma g c s = some { s with
      rho := rho0
      u := ![-greshoSpeed (Real.sqrt (x * x + y * y)) * Real.sin (atan2 y x), greshoSpeed (Real.sqrt (x * x + y * y)) * Real.cos (atan2 y x)]
      P := greshoPressure (1 / (eos.gamma * Ma * Ma)) (Real.sqrt (x * x + y * y)) } := by
  set r := Real.sqrt (x * x + y * y) with hr
  have hr0 : 0 ≤ r := Real.sqrt_nonneg _
  simp only [greshoInit, hx, hy, Option.bind_eq_bind, Option.bind_some, Option.pure_def, ← hr]
  by_cases h2 : r < 0.2
  · simp only [if_pos h2, greshoSpeed, greshoPressure, if_pos h2.le]
  · rw [if_neg h2]
    have h2' : 0.2 ≤ r := not_lt.mp h2
    by_cases h4 : r < 0.4
    · rw [if_pos h4]
      rcases eq_or_lt_of_le h2' with h | h
      · rw [← h]
        have h1 : Real.log (5 * 0.2) = 0 := by norm_num
        simp only [greshoSpeed, greshoPressure, le_refl, if_true, h1, Option.some.injEq, InitCell.mk.injEq, true_and, and_true]
        norm_num
      · simp only [greshoSpeed, greshoPressure, if_neg (not_le.mpr h), if_pos h4.le]
    · rw [if_neg h4]
      have h4' : 0.4 ≤ r := not_lt.mp h4
      have h : 0.2 < r := lt_of_lt_of_le (by norm_num) h4'
      rcases eq_or_lt_of_le h4' with h' | h'
      · rw [← h'] at h ⊢
        simp only [greshoSpeed, greshoPressure, if_neg (not_le.mpr h), le_refl, if_true, log_two_at, Option.some.injEq,
          InitCell.mk.injEq, true_and, and_true]
        constructor
        · funext i
          fin_cases i <;> norm_num
        · norm_num
          ring
      · simp only [greshoSpeed, greshoPressure, if_neg (not_le.mpr h), if_neg (not_le.mpr h'), Option.some.injEq, InitCell.mk.injEq,
          true_and, and_true]
        funext i
        fin_cases i <;> simp

/-- The setup writes the speed, in the azimuthal direction, and the pressure. -/
theorem gresho_writes (eos : SetupEos) (rho0 Ma : ℝ) (g : GridData ℝ) (c : Cell) (x y : ℝ) (s : InitCell 2 n)
    (hx : (g.xc 0).rd (c 0) = some x) (hy : (g.xc 1).rd (c 1) = some y) :
    ∃ u, greshoInit eos rho0 0 Ma g c s =
      some { s with rho := rho0, u := u, P := greshoPressure (1 / (eos.gamma * Ma * Ma)) (Real.sqrt (x * x + y * y)) } ∧
      Real.sqrt (x * x + y * y) * u 0 = -y * greshoSpeed (Real.sqrt (x * x + y * y)) ∧
      Real.sqrt (x * x + y * y) * u 1 = x * greshoSpeed (Real.sqrt (x * x + y * y)) := by
  set r := Real.sqrt (x * x + y * y) with hr
  obtain ⟨hsin, hcos⟩ := atan2_angle x y
  rw [← hr] at hsin hcos
  refine ⟨_, gresho_values eos rho0 Ma g c x y s hx hy, ?_, ?_⟩
  · show r * (-greshoSpeed r * Real.sin (atan2 y x)) = _
    linear_combination (-greshoSpeed r) * hsin
  · show r * (greshoSpeed r * Real.cos (atan2 y x)) = _
    linear_combination greshoSpeed r * hcos

/-- **C65.** With `rho0 = 1` and `u0 = 0` there are a continuous speed profile, with maximum 1 and zero from the radius 0.4 on, and a
pressure profile that balances the centrifugal force at every radius, such that every cell receives at its centre density 1,
that pressure and a velocity of that speed perpendicular to the radius, in the positive sense. The sound speed of a perfect gas at the
centre of the vortex is `1 / Ma`: the largest speed is `Ma` times that sound speed. The full statement is the same for every `rho0`,
with `Centrifugal (fun _ => rho0)`; it is false, see `C65_density_ignored`. -/
theorem C65_gresho_partial {eos : SetupEos} (hγ : 0 < eos.gamma) {Ma : ℝ} (hM : 0 < Ma) : ∃ v P : ℝ → ℝ,
    Continuous v ∧ (∀ r, 0 ≤ r → 0 ≤ v r ∧ v r ≤ 1) ∧ v 0.2 = 1 ∧ (∀ r, 0.4 ≤ r → v r = 0) ∧
    (∀ r, 0 < r → Centrifugal (fun _ => 1) P v r) ∧ Real.sqrt (eos.gamma * P 0 / 1) = 1 / Ma ∧
    ∀ (g : GridData ℝ) (c : Cell) (x y r : ℝ) (s : InitCell 2 n), (g.xc 0).rd (c 0) = some x → (g.xc 1).rd (c 1) = some y →
      0 ≤ r → r ^ 2 = x ^ 2 + y ^ 2 → ∃ u : Fin 2 → ℝ, greshoInit eos 1 0 Ma g c s = some { s with rho := 1, u := u, P := P r } ∧
        (0 < r → x * u 0 + y * u 1 = 0 ∧ x * u 1 - y * u 0 = r * v r) := by
  refine ⟨greshoSpeed, greshoPressure (1 / (eos.gamma * Ma * Ma)), ?_, ?_, ?_, ?_, fun r hr => gresho_balance _ hr, ?_, ?_⟩
  · have : greshoSpeed = fun r => min (5 * r) (max (2 - 5 * r) 0) := by
      funext r
      unfold greshoSpeed
      split_ifs with h1 h2
      · have : (5 : ℝ) * r ≤ 2 - 5 * r := by norm_num at h1 ⊢; linarith
        rw [min_eq_left (this.trans (le_max_left _ _))]
      · rw [max_eq_left (by norm_num at h2 ⊢; linarith), min_eq_right (by norm_num at h1 ⊢; linarith)]
      · rw [max_eq_right (by norm_num at h2 ⊢; linarith), min_eq_right (by norm_num at h1 ⊢; linarith)]
    rw [this]
    fun_prop
  · intro r hr
    unfold greshoSpeed
    split_ifs with h1 h2
    · norm_num at h1 ⊢; constructor <;> linarith
    · norm_num at h1 h2 ⊢; constructor <;> linarith
    · norm_num
  · simp only [greshoSpeed, le_refl, if_true]; norm_num
  · intro r hr
    rcases eq_or_lt_of_le hr with h | h
    · rw [← h]
      simp only [greshoSpeed, le_refl, if_true]
      norm_num
    · simp only [greshoSpeed, if_neg (not_le.mpr h), if_neg (not_le.mpr (lt_trans (by norm_num : (0.2 : ℝ) < 0.4) h))]
  · have : eos.gamma * greshoPressure (1 / (eos.gamma * Ma * Ma)) 0 / 1 = (1 / Ma) ^ 2 := by
      simp only [greshoPressure, if_pos (by norm_num : (0 : ℝ) ≤ 0.2)]
      field_simp
      ring
    rw [this, Real.sqrt_sq (by positivity)]
  · intro g c x y r s hx hy hr hr2
    have e : Real.sqrt (x * x + y * y) = r := by
      rw [show x * x + y * y = r ^ 2 by rw [hr2]; ring, Real.sqrt_sq hr]
    obtain ⟨u, h1, h2, h3⟩ := gresho_writes (n := n) eos 1 Ma g c x y s hx hy
    rw [e] at h1 h2 h3
    refine ⟨u, h1, fun h0 => ⟨?_, ?_⟩⟩
    · refine mul_left_cancel₀ h0.ne' ?_
      linear_combination x * h2 + y * h3
    · refine mul_left_cancel₀ h0.ne' ?_
      linear_combination x * h3 - y * h2 - greshoSpeed r * hr2

/-- **C65, violated.** The pressure does not depend on the parameter `rho0`: with any other density the vortex is nowhere balanced. -/
theorem C65_density_ignored {eos : SetupEos} {rho0 Ma : ℝ} (h1 : rho0 ≠ 1) {v P : ℝ → ℝ}
    (h : ∀ (g : GridData ℝ) (c : Cell) (x y : ℝ) (s : InitCell 2 n), (g.xc 0).rd (c 0) = some x → (g.xc 1).rd (c 1) = some y →
      ∃ u : Fin 2 → ℝ, greshoInit eos rho0 0 Ma g c s = some { s with rho := rho0, u := u, P := P (Real.sqrt (x * x + y * y)) } ∧
        x * u 1 - y * u 0 = Real.sqrt (x * x + y * y) * v (Real.sqrt (x * x + y * y)))
    {r : ℝ} (h0 : 0 < r) (h4 : r < 0.4) : ¬ Centrifugal (fun _ => rho0) P v r := by
  intro hc
  have key : ∀ r, 0 < r → P r = greshoPressure (1 / (eos.gamma * Ma * Ma)) r ∧ v r = greshoSpeed r := by
    intro r hr
    have hs : Real.sqrt (r * r + 0 * 0) = r := by
      rw [mul_zero, add_zero, Real.sqrt_mul_self hr.le]
    let g : GridData ℝ := ⟨fun _ => ⟨fun _ => true, fun _ => 0⟩, ![⟨fun _ => true, fun _ => r⟩, ⟨fun _ => true, fun _ => 0⟩,
      ⟨fun _ => true, fun _ => 0⟩], fun _ => ⟨fun _ => true, fun _ => 0⟩, ⟨fun _ => true, fun _ _ => 0⟩, ⟨fun _ => true, fun _ => 0⟩⟩
    obtain ⟨u, hu, hv⟩ := h g 0 r 0 ⟨0, 0, 0, 0⟩ rfl rfl
    obtain ⟨u', hu', -, hv'⟩ := gresho_writes (n := n) eos rho0 Ma g 0 r 0 ⟨0, 0, 0, 0⟩ rfl rfl
    rw [hu, Option.some.injEq, InitCell.mk.injEq, hs] at hu'
    rw [hs] at hv hv'
    refine ⟨hu'.2.2.1, mul_left_cancel₀ hr.ne' ?_⟩
    rw [← hv', ← hv, hu'.2.1]
    ring
  have hd : HasDerivAt P (1 * greshoSpeed r ^ 2 / r) r := by
    refine (gresho_balance (1 / (eos.gamma * Ma * Ma)) h0).congr_of_eventuallyEq ?_
    filter_upwards [lt_mem_nhds h0] with x hx
    exact (key x hx).1
  have := hc.unique hd
  rw [(key r h0).2] at this
  have hsp : greshoSpeed r ≠ 0 := by
    unfold greshoSpeed
    norm_num at h4
    split_ifs with h2 h3
    · positivity
    · linarith
    · norm_num at h3; linarith
  rw [div_left_inj' h0.ne'] at this
  exact h1 (mul_right_cancel₀ (pow_ne_zero 2 hsp) this)

/-- The hypothesis of the last theorem is met with twice the density. -/
example (eos : SetupEos) (g : GridData ℝ) (c : Cell) (x y : ℝ) (s : InitCell 2 n) (hx : (g.xc 0).rd (c 0) = some x)
    (hy : (g.xc 1).rd (c 1) = some y) : ∃ u : Fin 2 → ℝ,
      greshoInit eos 2 0 0.1 g c s = some { s with
        rho := 2, u := u, P := greshoPressure (1 / (eos.gamma * 0.1 * 0.1)) (Real.sqrt (x * x + y * y)) } ∧
      x * u 1 - y * u 0 = Real.sqrt (x * x + y * y) * greshoSpeed (Real.sqrt (x * x + y * y)) := by
  obtain ⟨u, h1, h2, h3⟩ := gresho_writes (n := n) eos 2 0.1 g c x y s hx hy
  refine ⟨u, h1, ?_⟩
  have hq : Real.sqrt (x * x + y * y) ^ 2 = x * x + y * y := Real.sq_sqrt (by nlinarith [mul_self_nonneg x, mul_self_nonneg y])
  rcases eq_or_lt_of_le (Real.sqrt_nonneg (x * x + y * y)) with h | h
  · rw [← h] at hq ⊢
    have h0 : x * x + y * y = 0 := by rw [← hq]; norm_num
    have hx0 : x = 0 := by nlinarith [mul_self_nonneg x, mul_self_nonneg y]
    have hy0 : y = 0 := by nlinarith [mul_self_nonneg x, mul_self_nonneg y]
    rw [hx0, hy0]
    ring
  · refine mul_left_cancel₀ h.ne' ?_
    linear_combination x * h3 - y * h2 - greshoSpeed (Real.sqrt (x * x + y * y)) * hq

/-- A cell at the distance 0.25 of the axis of the vortex of Mach number 0.1 in a gas of adiabatic index 1.4. -/
example : ∃ (g : GridData ℝ) (c : Cell), (g.xc 0).rd (c 0) = some 0.15 ∧ (g.xc 1).rd (c 1) = some 0.2 ∧
    (0 : ℝ) < (PerfectGas.setupEos ⟨1.4, 0.4, 1⟩).gamma ∧ (0.25 : ℝ) ^ 2 = 0.15 ^ 2 + 0.2 ^ 2 ∧
    ∃ s, greshoInit (n := 0) (PerfectGas.setupEos ⟨1.4, 0.4, 1⟩) 1 0 0.1 g c ⟨0, 0, 0, 0⟩ = some s ∧ s.u 0 = -0.6 ∧ s.u 1 = 0.45 := by
  let g : GridData ℝ := ⟨fun _ => ⟨fun _ => true, fun _ => 0⟩, ![⟨fun _ => true, fun _ => 0.15⟩, ⟨fun _ => true, fun _ => 0.2⟩,
    ⟨fun _ => true, fun _ => 0⟩], fun _ => ⟨fun _ => true, fun _ => 0⟩, ⟨fun _ => true, fun _ _ => 0⟩, ⟨fun _ => true, fun _ => 0⟩⟩
  have hs : Real.sqrt (0.15 * 0.15 + 0.2 * 0.2) = 0.25 := by
    rw [show (0.15 * 0.15 + 0.2 * 0.2 : ℝ) = 0.25 ^ 2 by norm_num, Real.sqrt_sq (by norm_num)]
  obtain ⟨u, h1, h2, h3⟩ := gresho_writes (n := 0) (PerfectGas.setupEos ⟨1.4, 0.4, 1⟩) 1 0.1 g 0 0.15 0.2 ⟨0, 0, 0, 0⟩ rfl rfl
  have hv : greshoSpeed 0.25 = 0.75 := by unfold greshoSpeed; norm_num
  rw [hs, hv] at h2 h3
  refine ⟨g, 0, rfl, rfl, by norm_num [PerfectGas.setupEos], by norm_num, _, h1, ?_, ?_⟩
  · show u 0 = _
    linarith
  · show u 1 = _
    linarith

end Heracles

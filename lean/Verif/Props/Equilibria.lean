import Verif.Model.Problems
import Verif.Spec.Problems
import Mathlib.Analysis.SpecialFunctions.ExpDeriv
import Mathlib.Analysis.SpecialFunctions.Pow.Deriv
import Mathlib.Analysis.SpecialFunctions.Log.Deriv
import Mathlib.Analysis.SpecialFunctions.Trigonometric.DerivHyp
import Mathlib.Tactic.FieldSimp
import Mathlib.Tactic.Positivity

/-!
# C64 Stratified setups start in hydrostatic equilibrium
-/

namespace Heracles

variable {d n : ℕ}

/-- The equation of state is that of a gas, with or without radiation: at fixed temperature the pressure is that of the gas plus a
constant. -/
def IsothermalGas (eos : SetupEos) : Prop := ∀ T, ∃ p0, ∀ rho, eos.presFromTemp rho T = rho * (kB * T / (eos.mmw * mP)) + p0

theorem kB_pos' : 0 < kB := by unfold kB; norm_num
theorem mP_pos' : 0 < mP := by unfold mP; norm_num
theorem gravG_pos : 0 < gravG := by unfold gravG; norm_num

theorem perfect_isothermal (g : Gas) : IsothermalGas (PerfectGas.setupEos g) := fun T =>
  ⟨0, fun rho => by simp only [PerfectGas.setupEos, PerfectGas.presFromTemp]; ring⟩

theorem rad_isothermal (g : Gas) : IsothermalGas (RadGas.setupEos g) := fun T =>
  ⟨aR * (T * T * T * T) / 3, fun rho => by simp only [RadGas.setupEos, RadGas.presFromTemp]; ring⟩

/-- Profile of an isothermal atmosphere in the uniform gravity `g < 0`. -/
theorem exp_profile {eos : SetupEos} (he : IsothermalGas eos) (hm : 0 < eos.mmw) {T0 : ℝ} (hT : 0 < T0) (rho0 : ℝ) {g : ℝ} (hg : g < 0)
    (x : ℝ) : HasDerivAt (fun x => eos.presFromTemp (rho0 * Real.exp (-x / (kB * T0 / (eos.mmw * mP * |g|)))) T0)
      (rho0 * Real.exp (-x / (kB * T0 / (eos.mmw * mP * |g|))) * g) x := by
  obtain ⟨p0, hp⟩ := he T0
  have h1 := kB_pos'
  have h2 := mP_pos'
  simp only [hp, abs_of_neg hg]
  set s := kB * T0 / (eos.mmw * mP * -g) with hs
  have h : HasDerivAt (fun x : ℝ => -x / s) (-1 / s) x := ((hasDerivAt_id x).neg).div_const s
  have h' := (((h.exp).const_mul rho0).mul_const (kB * T0 / (eos.mmw * mP))).add_const p0
  refine h'.congr_deriv ?_
  have hg' : (-g) ≠ 0 := by linarith
  have : (-1 : ℝ) / s * (kB * T0 / (eos.mmw * mP)) = g := by
    rw [hs]
    field_simp
  linear_combination (rho0 * Real.exp (-x / s)) * this

/-- **C64.** Stratified atmosphere with a gravity directed towards decreasing `x0`: there are a density and a pressure profile, in
hydrostatic equilibrium with that gravity everywhere, with the density `rho0` at `x0 = 0`, such that every cell receives the values
of the profiles at its centre, whatever the grid and the previous contents of the arrays. The full statement is the same for a gravity
of any sign; it is false, see `C64_stratified_upward`. -/
theorem C64_stratified_partial {eos : SetupEos} (he : IsothermalGas eos) (hm : 0 < eos.mmw) {rho0 T0 gx : ℝ} (hT : 0 < T0) (hg : gx < 0)
    (u0 : ℝ) : ∃ rho P : ℝ → ℝ, (∀ x, Hydrostatic rho P (fun _ => gx) x) ∧ rho 0 = rho0 ∧
      ∀ (g : GridData ℝ) (grav : GravField (d + 1) ℝ) (c : Cell) (x : ℝ) (s : InitCell (d + 1) n),
        (g.xc 0).rd (c 0) = some x → grav c 0 = some gx →
        stratifiedInit eos rho0 u0 T0 g grav c s = some { s with rho := rho x, u := fun _ => u0, P := P x } := by
  refine ⟨fun x => rho0 * Real.exp (-x / (kB * T0 / (eos.mmw * mP * |gx|))),
    fun x => eos.presFromTemp (rho0 * Real.exp (-x / (kB * T0 / (eos.mmw * mP * |gx|)))) T0, ?_, ?_, ?_⟩
  · exact fun x => exp_profile he hm hT rho0 hg x
  · simp
  · intro g grav c x s hx hgr
    simp only [stratifiedInit, hgr, hx, Option.bind_eq_bind, Option.bind_some, Option.pure_def]

/-- What the setup writes is determined by the position: whatever profile describes it. -/
theorem stratified_profile {eos : SetupEos} {rho0 T0 gx u0 : ℝ} {rho P : ℝ → ℝ}
    (h : ∀ (g : GridData ℝ) (grav : GravField (d + 1) ℝ) (c : Cell) (x : ℝ) (s : InitCell (d + 1) n),
        (g.xc 0).rd (c 0) = some x → grav c 0 = some gx →
        stratifiedInit eos rho0 u0 T0 g grav c s = some { s with rho := rho x, u := fun _ => u0, P := P x }) (x : ℝ) :
    rho x = rho0 * Real.exp (-x / (kB * T0 / (eos.mmw * mP * |gx|))) ∧
    P x = eos.presFromTemp (rho0 * Real.exp (-x / (kB * T0 / (eos.mmw * mP * |gx|)))) T0 := by
  have := h ⟨fun _ => ⟨fun _ => true, fun _ => x⟩, fun _ => ⟨fun _ => true, fun _ => x⟩, fun _ => ⟨fun _ => true, fun _ => x⟩,
    ⟨fun _ => true, fun _ _ => x⟩, ⟨fun _ => true, fun _ => x⟩⟩ (fun _ _ => some gx) 0 x ⟨0, 0, 0, 0⟩ rfl rfl
  simp only [stratifiedInit, View.rd, if_true, Option.bind_eq_bind, Option.bind_some, Option.pure_def, Option.some.injEq,
    InitCell.mk.injEq] at this
  exact ⟨this.1.symm, this.2.2.1.symm⟩

/-- **C64, violated.** The scale height is computed with the absolute value of the gravity: when the gravity is directed towards
increasing `x0`, no profile that describes the initial state is in equilibrium, at any point. -/
theorem C64_stratified_upward {eos : SetupEos} (he : IsothermalGas eos) (hm : 0 < eos.mmw) {rho0 T0 gx : ℝ} (hr : 0 < rho0) (hT : 0 < T0)
    (hg : 0 < gx) (u0 : ℝ) {rho P : ℝ → ℝ}
    (h : ∀ (g : GridData ℝ) (grav : GravField (d + 1) ℝ) (c : Cell) (x : ℝ) (s : InitCell (d + 1) n),
        (g.xc 0).rd (c 0) = some x → grav c 0 = some gx →
        stratifiedInit eos rho0 u0 T0 g grav c s = some { s with rho := rho x, u := fun _ => u0, P := P x }) (x : ℝ) :
    ¬ Hydrostatic rho P (fun _ => gx) x := by
  intro hh
  have e := stratified_profile h
  have hP : P = fun x => eos.presFromTemp (rho0 * Real.exp (-x / (kB * T0 / (eos.mmw * mP * |gx|)))) T0 := funext fun x => (e x).2
  unfold Hydrostatic at hh
  rw [hP, (e x).1] at hh
  have h' := exp_profile he hm hT rho0 (g := -gx) (by linarith) x
  rw [abs_neg] at h'
  have := hh.unique h'
  have hpos : 0 < rho0 * Real.exp (-x / (kB * T0 / (eos.mmw * mP * |gx|))) := by positivity
  nlinarith

/-- **C64.** Isothermal sphere around a point mass: the profiles are in equilibrium with the acceleration `-G M / r²` at every radius. -/
theorem C64_sphere {eos : SetupEos} (he : IsothermalGas eos) (hm : 0 < eos.mmw) {rho0 T0 M : ℝ} (hT : 0 < T0) (hM : 0 < M) (u0 : ℝ) :
    ∃ rho P : ℝ → ℝ, (∀ r, 0 < r → Hydrostatic rho P (fun r => -gravG * M / (r * r)) r) ∧
      ∀ (g : GridData ℝ) (c : Cell) (r : ℝ) (s : InitCell d n), (g.xc 0).rd (c 0) = some r →
        eqHydroInit eos rho0 u0 T0 M g c s = some { s with rho := rho r, u := fun _ => u0, P := P r } := by
  refine ⟨fun x => rho0 * Real.exp (1 / (x * (kB * T0 / (eos.mmw * mP * gravG * M)))),
    fun x => eos.presFromTemp (rho0 * Real.exp (1 / (x * (kB * T0 / (eos.mmw * mP * gravG * M))))) T0, ?_, ?_⟩
  · intro r hr
    obtain ⟨p0, hp⟩ := he T0
    have h1 := kB_pos'
    have h2 := mP_pos'
    have h3 := gravG_pos
    unfold Hydrostatic
    simp only [hp]
    set s := kB * T0 / (eos.mmw * mP * gravG * M) with hs
    have hs0 : 0 < s := by rw [hs]; positivity
    have h : HasDerivAt (fun x : ℝ => 1 / (x * s)) (-(1 / (r * r * s))) r := by
      have := ((hasDerivAt_id r).mul_const s).inv (by simp only [id]; positivity)
      refine (this.congr_deriv ?_).congr_of_eventuallyEq (Filter.Eventually.of_forall fun x => ?_)
      · simp only [id]; field_simp
      · simp [one_div]
    have h' := (((h.exp).const_mul rho0).mul_const (kB * T0 / (eos.mmw * mP))).add_const p0
    refine h'.congr_deriv ?_
    have : -(1 / (r * r * s)) * (kB * T0 / (eos.mmw * mP)) = -gravG * M / (r * r) := by
      rw [hs]
      field_simp
    linear_combination (rho0 * Real.exp (1 / (r * s))) * this
  · intro g c x s hx
    simp only [eqHydroInit, hx, Option.bind_eq_bind, Option.bind_some, Option.pure_def]

/-- Profile of the polytropic layer of density `r` at height 0. -/
theorem polytrope {r g P0 : ℝ} (hr : 0 < r) (hP : 0 < P0) {z : ℝ} (hz : 0 < 1 - ((5 / 3 - 1) / (5 / 3) * (r * |g| * z) / P0)) (hg : g ≤ 0) :
    HasDerivAt (fun z => P0 * (r * (1 - (5 / 3 - 1) / (5 / 3) * (r * |g| * z) / P0) ^ ((1 : ℝ) / (5 / 3 - 1)) / r) ^ ((5 : ℝ) / 3))
      (r * (1 - (5 / 3 - 1) / (5 / 3) * (r * |g| * z) / P0) ^ ((1 : ℝ) / (5 / 3 - 1)) * g) z := by
  rw [abs_of_nonpos hg] at hz ⊢
  have hb : HasDerivAt (fun z : ℝ => 1 - (5 / 3 - 1) / (5 / 3) * (r * -g * z) / P0) (-((5 / 3 - 1) / (5 / 3) * (r * -g) / P0)) z := by
    have := ((((hasDerivAt_id z).const_mul (r * -g)).const_mul ((5 / 3 - 1) / (5 / 3) : ℝ)).div_const P0).const_sub 1
    exact this.congr_deriv (by simp)
  have hev : (fun z => P0 * (r * (1 - (5 / 3 - 1) / (5 / 3) * (r * -g * z) / P0) ^ ((1 : ℝ) / (5 / 3 - 1)) / r) ^ ((5 : ℝ) / 3)) =ᶠ[nhds z]
      fun z => P0 * (1 - (5 / 3 - 1) / (5 / 3) * (r * -g * z) / P0) ^ ((5 : ℝ) / 2) := by
    have : ∀ᶠ w in nhds z, 0 < 1 - (5 / 3 - 1) / (5 / 3) * (r * -g * w) / P0 :=
      hb.continuousAt.eventually (lt_mem_nhds hz)
    filter_upwards [this] with w hw
    rw [mul_div_assoc, mul_comm r, div_mul_cancel₀ _ hr.ne', ← Real.rpow_mul hw.le]
    norm_num
  refine HasDerivAt.congr_of_eventuallyEq ?_ hev
  have h := (hb.rpow_const (p := (5 : ℝ) / 2) (Or.inl hz.ne')).const_mul P0
  refine h.congr_deriv ?_
  have e1 : (5 : ℝ) / 2 - 1 = 1 / (5 / 3 - 1) := by norm_num
  rw [e1]
  field_simp
  ring

/-- Height of the perturbed interface: superposition of the modes of wave numbers `kx`, `ky` up to 4 with `8 ≤ kx² + ky² ≤ 16` on
a square of side 10. -/
noncomputable def modeSum (rnd : Fin 4 → ℝ) (x y : ℝ) : ℝ :=
  ∑ kx ∈ Finset.range 5, ∑ ky ∈ Finset.range 5, if 8 ≤ kx ^ 2 + ky ^ 2 ∧ kx ^ 2 + ky ^ 2 ≤ 16 then
    (rnd 0 * Real.cos (ky * (2 * Real.pi * y / 10)) + rnd 1 * Real.sin (ky * (2 * Real.pi * y / 10))) * Real.cos (kx * (2 * Real.pi * x / 10)) +
    (rnd 2 * Real.cos (ky * (2 * Real.pi * y / 10)) + rnd 3 * Real.sin (ky * (2 * Real.pi * y / 10))) * Real.sin (kx * (2 * Real.pi * x / 10))
    else 0

theorem rt3dHeight_eq (rnd : Fin 4 → ℝ) (x y : ℝ) : rt3dHeight rnd x y = modeSum rnd x y := by
  have h5 : List.range 5 = [0, 1, 2, 3, 4] := by decide
  simp only [rt3dHeight, modeSum, h5, List.foldl_cons, List.foldl_nil, Finset.sum_range_succ, Finset.sum_range_zero]
  norm_num
  ring

/-- **C64.** Three-dimensional Rayleigh-Taylor problem, gravity downwards: above and below the interface the cells receive, at their
lower nodes, the values of two profiles of density `rho0` and `rho1` at height 0, each in hydrostatic equilibrium wherever the
polytropic atmosphere has not ended; both layers have the same pressure at height 0. -/
theorem C64_rt3d {rho0 rho1 gz : ℝ} (h0 : 0 < rho0) (h1 : 0 < rho1) (hg : gz < 0) (u0 : ℝ) (rnd : Fin 4 → ℝ) :
    ∃ rhoT PT rhoB PB : ℝ → ℝ, rhoT 0 = rho0 ∧ rhoB 0 = rho1 ∧ PT 0 = PB 0 ∧
      (∀ z, z < 50 * Real.pi * (rho0 + rho1) / rho0 → Hydrostatic rhoT PT (fun _ => gz) z) ∧
      (∀ z, z < 50 * Real.pi * (rho0 + rho1) / rho1 → Hydrostatic rhoB PB (fun _ => gz) z) ∧
      ∀ (g : GridData ℝ) (grav : GravField 3 ℝ) (c : Cell) (x y z : ℝ) (s : InitCell 3 1),
        (g.x 0).rd (c 0) = some x → (g.x 1).rd (c 1) = some y → (g.x 2).rd (c 2) = some z → grav c 2 = some gz →
        (modeSum rnd x y ≤ z → rt3dInit rho0 rho1 u0 rnd g grav c s = some ⟨rhoT z, fun _ => u0, PT z, fun _ => 1⟩) ∧
          (z < modeSum rnd x y → rt3dInit rho0 rho1 u0 rnd g grav c s = some ⟨rhoB z, fun _ => u0, PB z, fun _ => 0⟩) := by
  have hpi := Real.pi_pos
  have hP : 0 < 2 * Real.pi * (rho0 + rho1) * |gz| * 10 := by
    have : 0 < |gz| := abs_pos.mpr hg.ne
    positivity
  have base : ∀ r, 0 < r → ∀ z, z < 50 * Real.pi * (rho0 + rho1) / r →
      0 < 1 - ((5 / 3 - 1) / (5 / 3) * (r * |gz| * z) / (2 * Real.pi * (rho0 + rho1) * |gz| * 10)) := by
    intro r hr z hz
    rw [sub_pos, div_lt_one hP]
    rw [lt_div_iff₀ hr] at hz
    have : 0 < |gz| := abs_pos.mpr hg.ne
    nlinarith
  refine ⟨fun z => rho0 * (1 - (5 / 3 - 1) / (5 / 3) * (rho0 * |gz| * z) / (2 * Real.pi * (rho0 + rho1) * |gz| * 10)) ^ ((1 : ℝ) / (5 / 3 - 1)),
    fun z => (2 * Real.pi * (rho0 + rho1) * |gz| * 10) * (rho0 * (1 - (5 / 3 - 1) / (5 / 3) * (rho0 * |gz| * z) /
      (2 * Real.pi * (rho0 + rho1) * |gz| * 10)) ^ ((1 : ℝ) / (5 / 3 - 1)) / rho0) ^ ((5 : ℝ) / 3),
    fun z => rho1 * (1 - (5 / 3 - 1) / (5 / 3) * (rho1 * |gz| * z) / (2 * Real.pi * (rho0 + rho1) * |gz| * 10)) ^ ((1 : ℝ) / (5 / 3 - 1)),
    fun z => (2 * Real.pi * (rho0 + rho1) * |gz| * 10) * (rho1 * (1 - (5 / 3 - 1) / (5 / 3) * (rho1 * |gz| * z) /
      (2 * Real.pi * (rho0 + rho1) * |gz| * 10)) ^ ((1 : ℝ) / (5 / 3 - 1)) / rho1) ^ ((5 : ℝ) / 3), ?_, ?_, ?_, ?_, ?_, ?_⟩
  · simp
  · simp
  · simp [h0.ne', h1.ne']
  · exact fun z hz => polytrope h0 hP (base rho0 h0 z hz) hg.le
  · exact fun z hz => polytrope h1 hP (base rho1 h1 z hz) hg.le
  · intro g grav c x y z s hx hy hz hgr
    rw [← rt3dHeight_eq]
    refine ⟨fun h => ?_, fun h => ?_⟩
    · simp only [rt3dInit, hgr, hx, hy, hz, Option.bind_eq_bind, Option.bind_some, Option.pure_def, if_pos (ge_iff_le.mpr h)]
    · simp only [rt3dInit, hgr, hx, hy, hz, Option.bind_eq_bind, Option.bind_some, Option.pure_def, if_neg (not_le.mpr h)]

/-- **C64, violated.** Two-dimensional Rayleigh-Taylor problem: below the interface the pressure gradient is that of the upper fluid. On
any vertical line, no pair of profiles that describes the initial state is in equilibrium at any height, and below the interface the
missing weight is at least half the difference of the densities times the gravity. -/
theorem C64_rt2d_unbalanced {rho0 rho1 gy : ℝ} (hg : gy < 0) (h01 : rho1 < rho0) (u fx0 fx1 x : ℝ) {rho P : ℝ → ℝ}
    (h : ∀ (g : GridData ℝ) (grav : GravField 2 ℝ) (c : Cell) (y : ℝ) (s : InitCell 2 1), (g.xc 0).rd (c 0) = some x →
      (g.xc 1).rd (c 1) = some y → grav c 1 = some gy →
      ∃ r, rayleighTaylorInit rho0 rho1 u fx0 fx1 g grav c s = some r ∧ r.rho = rho y ∧ r.P = P y) (y : ℝ) :
    ¬ Hydrostatic rho P (fun _ => gy) y ∧
    (y ≤ 0.01 * Real.cos (4 * Real.pi * x) → ∃ p', HasDerivAt P p' y ∧ p' ≤ rho y * gy - (rho0 - rho1) / 2 * |gy|) := by
  have e : ∀ y, rho y = rho1 + (rho0 - rho1) / 2 * (1 + Real.tanh ((y - 0.01 * Real.cos (4 * Real.pi * x)) / 0.005)) ∧
      P y = 10 / 7 + 1 / 4 - rho0 * |gy| * y := by
    intro y
    obtain ⟨r, h1, h2, h3⟩ := h ⟨fun _ => ⟨fun _ => true, fun _ => x⟩, ![⟨fun _ => true, fun _ => x⟩, ⟨fun _ => true, fun _ => y⟩,
      ⟨fun _ => true, fun _ => y⟩], fun _ => ⟨fun _ => true, fun _ => x⟩, ⟨fun _ => true, fun _ _ => x⟩, ⟨fun _ => true, fun _ => x⟩⟩
      (fun _ _ => some gy) 0 y ⟨0, 0, 0, 0⟩ rfl rfl rfl
    simp only [rayleighTaylorInit, View.rd, Matrix.cons_val_zero, Matrix.cons_val_one, if_true, Option.bind_eq_bind, Option.bind_some,
      Option.pure_def, Option.some.injEq] at h1
    subst h1
    exact ⟨h2.symm, h3.symm⟩
  have hP : P = fun y => 10 / 7 + 1 / 4 - rho0 * |gy| * y := funext fun y => (e y).2
  have hd : HasDerivAt P (-(rho0 * |gy|)) y := by
    rw [hP]
    exact ((hasDerivAt_id y).const_mul (rho0 * |gy|)).const_sub (10 / 7 + 1 / 4) |>.congr_deriv (by simp)
  have ht := Real.tanh_lt_one ((y - 0.01 * Real.cos (4 * Real.pi * x)) / 0.005)
  constructor
  · intro hh
    have := hh.unique hd
    rw [(e y).1, abs_of_neg hg] at this
    nlinarith [mul_pos (sub_pos.mpr h01) (neg_pos.mpr hg), mul_pos (mul_pos (sub_pos.mpr h01) (neg_pos.mpr hg)) (sub_pos.mpr ht)]
  · intro hy
    refine ⟨_, hd, ?_⟩
    have ht0 : Real.tanh ((y - 0.01 * Real.cos (4 * Real.pi * x)) / 0.005) ≤ 0 := by
      rw [Real.tanh_eq_sinh_div_cosh]
      refine div_nonpos_of_nonpos_of_nonneg (Real.sinh_nonpos_iff.mpr ?_) (Real.cosh_pos _).le
      exact div_nonpos_of_nonpos_of_nonneg (by linarith) (by norm_num)
    rw [(e y).1, abs_of_neg hg]
    nlinarith [mul_nonneg (mul_pos (sub_pos.mpr h01) (neg_pos.mpr hg)).le (neg_nonneg.mpr ht0)]

/-- **C64, the part that holds in two dimensions.** When the two fluids have the same density and the gravity is downwards the initial
state of the two-dimensional Rayleigh-Taylor problem is in hydrostatic equilibrium along every vertical line. The full statement is the
same with `rho0 ≠ rho1` in each layer; it is false, see `C64_rt2d_unbalanced`. -/
theorem C64_rt2d_partial {rho0 gy : ℝ} (hg : gy ≤ 0) (u fx0 fx1 : ℝ) : ∃ rho P : ℝ → ℝ, (∀ y, Hydrostatic rho P (fun _ => gy) y) ∧
    ∀ (g : GridData ℝ) (grav : GravField 2 ℝ) (c : Cell) (x y : ℝ) (s : InitCell 2 1), (g.xc 0).rd (c 0) = some x →
      (g.xc 1).rd (c 1) = some y → grav c 1 = some gy →
      ∃ r, rayleighTaylorInit rho0 rho0 u fx0 fx1 g grav c s = some r ∧ r.rho = rho y ∧ r.P = P y := by
  refine ⟨fun _ => rho0, fun y => 10 / 7 + 1 / 4 - rho0 * |gy| * y, fun y => ?_, ?_⟩
  · refine (((hasDerivAt_id y).const_mul (rho0 * |gy|)).const_sub (10 / 7 + 1 / 4)).congr_deriv ?_
    rw [abs_of_nonpos hg]
    ring
  · intro g grav c x y s hx hy hgr
    refine ⟨_, by simp only [rayleighTaylorInit, hx, hy, hgr, Option.bind_eq_bind, Option.bind_some, Option.pure_def]; rfl, ?_, rfl⟩
    simp

/-! ## Concrete cases -/

/-- A grid all of whose nodes and centres are at the given coordinates; used to evaluate the kernels at a point. -/
def pointGrid (x : Fin 3 → ℝ) : GridData ℝ :=
  ⟨fun a => ⟨fun _ => true, fun _ => x a⟩, fun a => ⟨fun _ => true, fun _ => x a⟩, fun _ => ⟨fun _ => true, fun _ => 1⟩,
    ⟨fun _ => true, fun _ _ => 1⟩, ⟨fun _ => true, fun _ => 1⟩⟩

/-- The atmosphere of inputs/stratified_atm.ini: the hypotheses hold, and the density at height 500 is below that at height 0. -/
example : ∃ rho P : ℝ → ℝ, (∀ x, Hydrostatic rho P (fun _ => -10) x) ∧ rho 0 = 10 ∧ rho 500 < rho 0 ∧
    stratifiedInit (d := 0) (n := 0) (PerfectGas.setupEos ⟨5 / 3, 2 / 3, 1⟩) 10 0 100 (pointGrid ![500, 0, 0]) (fun _ _ => some (-10)) 0
      ⟨0, 0, 0, 0⟩ = some ⟨rho 500, fun _ => 0, P 500, 0⟩ := by
  obtain ⟨rho, P, h1, h2, h3⟩ := C64_stratified_partial (d := 0) (n := 0) (perfect_isothermal ⟨5 / 3, 2 / 3, 1⟩) (by norm_num [PerfectGas.setupEos])
    (rho0 := 10) (T0 := 100) (gx := -10) (by norm_num) (by norm_num) 0
  refine ⟨rho, P, h1, h2, ?_, h3 (pointGrid ![500, 0, 0]) (fun _ _ => some (-10)) 0 500 ⟨0, 0, 0, 0⟩ rfl rfl⟩
  have e := stratified_profile h3
  rw [(e 500).1, (e 0).1, neg_zero, zero_div, Real.exp_zero, mul_one]
  have hs : 0 < kB * 100 / ((PerfectGas.setupEos ⟨5 / 3, 2 / 3, 1⟩).mmw * mP * |(-10 : ℝ)|) := by
    have := kB_pos'
    have := mP_pos'
    simp only [PerfectGas.setupEos]
    positivity
  have : Real.exp (-500 / (kB * 100 / ((PerfectGas.setupEos ⟨5 / 3, 2 / 3, 1⟩).mmw * mP * |(-10 : ℝ)|))) < 1 :=
    Real.exp_lt_one_iff.mpr (div_neg_of_neg_of_pos (by norm_num) hs)
  linarith

/-- The same setup with the gravity reversed: profiles that describe the initial state exist, and are nowhere in equilibrium. -/
example : ∃ rho P : ℝ → ℝ, (∀ (g : GridData ℝ) (grav : GravField 1 ℝ) (c : Cell) (x : ℝ) (s : InitCell 1 0),
      (g.xc 0).rd (c 0) = some x → grav c 0 = some 10 → stratifiedInit (PerfectGas.setupEos ⟨5 / 3, 2 / 3, 1⟩) 10 0 100 g grav c s =
        some { s with rho := rho x, u := fun _ => 0, P := P x }) ∧ ∀ x, ¬ Hydrostatic rho P (fun _ => 10) x := by
  have h : ∀ (g : GridData ℝ) (grav : GravField 1 ℝ) (c : Cell) (x : ℝ) (s : InitCell 1 0),
      (g.xc 0).rd (c 0) = some x → grav c 0 = some 10 → stratifiedInit (d := 0) (PerfectGas.setupEos ⟨5 / 3, 2 / 3, 1⟩) 10 0 100 g grav c s =
        some { s with rho := 10 * Real.exp (-x / (kB * 100 / (1 * mP * |10|))), u := fun _ => 0,
                      P := PerfectGas.presFromTemp ⟨5 / 3, 2 / 3, 1⟩ (10 * Real.exp (-x / (kB * 100 / (1 * mP * |10|)))) 100 } := by
    intro g grav c x s hx hg
    simp only [stratifiedInit, hg, hx, PerfectGas.setupEos, Option.bind_eq_bind, Option.bind_some, Option.pure_def]
  exact ⟨fun x => 10 * Real.exp (-x / (kB * 100 / (1 * mP * |10|))),
    fun x => PerfectGas.presFromTemp ⟨5 / 3, 2 / 3, 1⟩ (10 * Real.exp (-x / (kB * 100 / (1 * mP * |10|)))) 100, h,
    C64_stratified_upward (perfect_isothermal ⟨5 / 3, 2 / 3, 1⟩) (by norm_num [PerfectGas.setupEos]) (by norm_num) (by norm_num)
      (by norm_num) 0 h⟩

/-- The sphere of inputs/eq_hydro_sphe.ini, with radiation. -/
example : ∃ rho P : ℝ → ℝ, (∀ r, 0 < r → Hydrostatic rho P (fun r => -gravG * 2e19 / (r * r)) r) ∧
    eqHydroInit (d := 1) (n := 0) (RadGas.setupEos ⟨5 / 3, 2 / 3, 1⟩) 10 0 100 2e19 (pointGrid ![2000, 0, 0]) 0 ⟨0, 0, 0, 0⟩ =
      some ⟨rho 2000, fun _ => 0, P 2000, 0⟩ := by
  obtain ⟨rho, P, h1, h2⟩ := C64_sphere (d := 1) (n := 0) (rad_isothermal ⟨5 / 3, 2 / 3, 1⟩) (by norm_num [RadGas.setupEos])
    (rho0 := 10) (T0 := 100) (M := 2e19) (by norm_num) (by norm_num) 0
  exact ⟨rho, P, h1, h2 (pointGrid ![2000, 0, 0]) 0 2000 ⟨0, 0, 0, 0⟩ rfl⟩

/-- The fluids of inputs/rayleigh_taylor3d.ini, without perturbation, one metre above and below the interface. -/
example : ∃ rhoT PT rhoB PB : ℝ → ℝ, Hydrostatic rhoT PT (fun _ => -2) 1 ∧ Hydrostatic rhoB PB (fun _ => -2) (-1) ∧
    rt3dInit 3 1 0 0 (pointGrid ![0, 0, 1]) (fun _ _ => some (-2)) 0 ⟨0, 0, 0, 0⟩ = some ⟨rhoT 1, fun _ => 0, PT 1, fun _ => 1⟩ ∧
    rt3dInit 3 1 0 0 (pointGrid ![0, 0, -1]) (fun _ _ => some (-2)) 0 ⟨0, 0, 0, 0⟩ = some ⟨rhoB (-1), fun _ => 0, PB (-1), fun _ => 0⟩ := by
  obtain ⟨rhoT, PT, rhoB, PB, -, -, -, h1, h2, h3⟩ := C64_rt3d (rho0 := 3) (rho1 := 1) (gz := -2) (by norm_num) (by norm_num) (by norm_num) 0 0
  have hpi := Real.pi_gt_three
  have h0 : modeSum 0 0 0 = 0 := by simp [modeSum]
  refine ⟨rhoT, PT, rhoB, PB, h1 1 (by nlinarith), h2 (-1) (by nlinarith), ?_, ?_⟩
  · exact (h3 (pointGrid ![0, 0, 1]) (fun _ _ => some (-2)) 0 0 0 1 ⟨0, 0, 0, 0⟩ rfl rfl rfl rfl).1 (by rw [h0]; norm_num)
  · exact (h3 (pointGrid ![0, 0, -1]) (fun _ _ => some (-2)) 0 0 0 (-1) ⟨0, 0, 0, 0⟩ rfl rfl rfl rfl).2 (by rw [h0]; norm_num)

/-- The fluids of inputs/rayleigh_taylor.ini on the line `x0 = 0`: half a metre below the interface the pressure gradient is too steep by
at least a quarter of the weight of the lower fluid. -/
example : ∃ rho P : ℝ → ℝ, (∀ y, ∃ r, rayleighTaylorInit 2 1 0 1 0 (pointGrid ![0, y, 0]) (fun _ _ => some (-0.5)) 0 ⟨0, 0, 0, 0⟩ = some r ∧
      r.rho = rho y ∧ r.P = P y) ∧ ∃ p', HasDerivAt P p' (-0.5) ∧ p' ≤ rho (-0.5) * (-0.5) - 0.25 := by
  have h : ∀ (g : GridData ℝ) (grav : GravField 2 ℝ) (c : Cell) (y : ℝ) (s : InitCell 2 1), (g.xc 0).rd (c 0) = some 0 →
      (g.xc 1).rd (c 1) = some y → grav c 1 = some (-0.5) →
      ∃ r, rayleighTaylorInit 2 1 0 1 0 g grav c s = some r ∧
        r.rho = 1 + (2 - 1) / 2 * (1 + Real.tanh ((y - 0.01 * Real.cos (4 * Real.pi * 0)) / 0.005)) ∧
        r.P = 10 / 7 + 1 / 4 - 2 * |(-0.5)| * y := by
    intro g grav c y s hx hy hg
    exact ⟨_, by simp only [rayleighTaylorInit, hx, hy, hg, Option.bind_eq_bind, Option.bind_some, Option.pure_def]; rfl, rfl, rfl⟩
  refine ⟨_, _, fun y => h (pointGrid ![0, y, 0]) (fun _ _ => some (-0.5)) 0 y ⟨0, 0, 0, 0⟩ rfl rfl rfl, ?_⟩
  obtain ⟨-, h2⟩ := C64_rt2d_unbalanced (rho0 := 2) (rho1 := 1) (gy := -0.5) (by norm_num) (by norm_num) 0 1 0 0 h (-0.5)
  obtain ⟨p', h3, h4⟩ := h2 (by norm_num)
  refine ⟨p', h3, h4.trans ?_⟩
  norm_num [abs_of_neg]

end Heracles

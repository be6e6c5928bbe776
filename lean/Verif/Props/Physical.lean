import Verif.Spec.Physical
import Verif.Props.Explosion
import Mathlib.Analysis.SpecialFunctions.Pow.Real
import Mathlib.Analysis.SpecialFunctions.Log.Basic
import Mathlib.Analysis.SpecialFunctions.Trigonometric.DerivHyp

/-!
# C78: initial states are physical
-/

namespace Heracles

variable {d n : ℕ}

/-- What the body of the loop writes in a cell of the domain is what the initial state holds. -/
theorem InitialState.of_cell {D : Cell → Prop} {S : Setup d n} {geom : Geom} {nx : Cell} {ng : ℤ} {X : Fin 3 → ℤ → ℝ} {Gr : Cell → Fin d → ℝ}
    {W : Cell → InitCell d n} (hW : InitialState D S realTrig geom nx ng X Gr W) (h1 : D 1) (hN : ∀ a, 0 ≤ nx a) (hng : 0 ≤ ng) (hd : 1 ≤ d)
    (hd3 : d ≤ 3) (R : Cell → InitCell d n → Prop)
    (hk : ∀ q topo g grav c C, inBox 0 nx C → CellData g grav c (loNode X (nghostOf d ng) C) (midNode X (nghostOf d ng) C)
      (cellVolume geom d X (nghostOf d ng) C) (Gr C) → ∃ s, S q topo g grav c ⟨0, 0, 0, 0⟩ = some s ∧ R C s) :
    ∀ C, inBox 0 nx C → R C (W C) := by
  intro C hC
  have one : ∀ a, 0 < (1 : Cell) a := fun _ => one_pos
  have zero : inBox 0 (1 : Cell) 0 := fun a => ⟨le_rfl, one_pos⟩
  obtain ⟨topo, g, r, hg, hrg⟩ := exists_rankGrid realTrig geom hN one hng zero X Gr
  obtain ⟨v, h1, h2, h3⟩ := hW 1 0 topo g _ r _ h1 one zero hg hrg (boxList_isSchedule _ _)
  obtain ⟨e1, f1, f2⟩ := rank_noGhosts_box hN one zero hg.ok hrg
  rw [f1, f2] at h1 h3
  rw [e1] at h1
  have hs0 : ∀ a, localStart (nx a) ((1 : Cell) a) ((0 : Cell) a) = 0 := fun a => localStart_zero (hN a) one_pos
  have hs1 : ∀ a, localSize (nx a) ((1 : Cell) a) ((0 : Cell) a) = nx a := fun a => by
    show localSize (nx a) 1 0 = nx a
    rw [localSize_eq (hN a) one_pos]; simp
  have hgC : ∀ c, globalOf nx 1 (nghostOf d ng) 0 c = c - nghostOf d ng := fun c => by
    funext a
    simp only [globalOf, hs0, Pi.sub_apply]
    ring
  have hl := boxList_isSchedule (nghostOf d ng) (fun a => localExt nx 1 (nghostOf d ng) 0 a - nghostOf d ng a)
  have hbox : ∀ c, inBox (nghostOf d ng) (fun a => localExt nx 1 (nghostOf d ng) 0 a - nghostOf d ng a) c ↔ inBox 0 nx (c - nghostOf d ng) := by
    intro c
    refine forall_congr' fun a => ?_
    have := hs1 a
    simp only [localExt, Pi.sub_apply, Pi.zero_apply] at this ⊢
    omega
  have key : ∀ c, ∃ s, c ∈ boxList (nghostOf d ng) (fun a => localExt nx 1 (nghostOf d ng) 0 a - nghostOf d ng a) →
      S (cartRank 1 0) topo g (fun c a => some (Gr (globalOf nx 1 (nghostOf d ng) 0 c) a)) c ⟨0, 0, 0, 0⟩ = some s ∧ R (c - nghostOf d ng) s := by
    intro c
    by_cases hc : c ∈ boxList (nghostOf d ng) (fun a => localExt nx 1 (nghostOf d ng) 0 a - nghostOf d ng a)
    · have hb := (hl.2 c).1 hc
      have hcd := hg.cell hN one zero (rank_interior_inExt hng hb)
      rw [cellVolume_dv geom hd hd3, hgC] at hcd
      obtain ⟨s, hs⟩ := hk (cartRank 1 0) topo g _ c (c - nghostOf d ng) ((hbox c).1 hb) hcd
      exact ⟨s, fun _ => hs⟩
    · exact ⟨⟨0, 0, 0, 0⟩, fun h => absurd h hc⟩
  choose T hT using key
  rw [initLoop_eq hl.1 (fun c hc => rank_interior_inExt hng ((hl.2 c).1 hc)) (fun c hc => (hT c hc).1)] at h1
  cases h1
  have hc : inBox (nghostOf d ng) (fun a => localExt nx 1 (nghostOf d ng) 0 a - nghostOf d ng a) (C + nghostOf d ng) := by
    rw [hbox, add_sub_cancel_right]
    exact hC
  have hm := (hl.2 _).2 hc
  have := h3 _ hc
  simp only [if_pos hm, hgC, add_sub_cancel_right] at this
  rw [← this]
  have := (hT _ hm).2
  rwa [add_sub_cancel_right] at this

/-- Enough for all process grids: the state does not depend on them and the body of the loop writes physical values. -/
theorem startsPhysical_of {S : Setup d n} (hS : DecompositionFree S) {geom : Geom} {nx : Cell} {ng : ℤ} (hN : ∀ a, 0 ≤ nx a)
    (hng : 0 ≤ ng) (hd : 1 ≤ d) (hd3 : d ≤ 3) {X : Fin 3 → ℤ → ℝ} {Gr : Cell → Fin d → ℝ}
    (hk : ∀ q topo g grav c C, inBox 0 nx C → CellData g grav c (loNode X (nghostOf d ng) C) (midNode X (nghostOf d ng) C)
      (cellVolume geom d X (nghostOf d ng) C) (Gr C) → ∃ s, S q topo g grav c ⟨0, 0, 0, 0⟩ = some s ∧ PhysicalCell s) :
    StartsPhysical (fun _ => True) S geom nx ng X Gr :=
  ⟨hS realTrig geom nx ng X Gr hN hng, fun _ hW => hW.of_cell trivial hN hng hd hd3 (fun _ s => PhysicalCell s) hk⟩

theorem presFromTemp_pos {g : Gas} (hm : 0 < g.mmw) {rho T : ℝ} (hr : 0 < rho) (hT : 0 < T) : 0 < (PerfectGas.setupEos g).presFromTemp rho T :=
  div_pos (mul_pos (mul_pos hr kB_pos) hT) (mul_pos hm mP_pos)

/-- **C78, problems whose data depend on `x0`.** With positive densities, pressures, temperatures and a mass fraction between 0 and 1 in the
file, on every mesh, in both geometries, on every process grid: shock tube, shock wall, advections, stratified atmosphere, isothermal
sphere, nickel heating. -/
theorem C78_physical_1d {g : Gas} (hm : 0 < g.mmw) {rho0 rho1 P0 P1 T0 fx0 : ℝ} (hr0 : 0 < rho0) (hr1 : 0 < rho1) (hP0 : 0 < P0)
    (hP1 : 0 < P1) (hT : 0 < T0) (hf : 0 ≤ fx0) (hf1 : fx0 ≤ 1) (u0 u1 inter M : ℝ) (hd : d + 1 ≤ 3) (geom : Geom) {nx : Cell} {ng : ℤ}
    (hN : ∀ a, 0 ≤ nx a) (hng : 0 ≤ ng) (X : Fin 3 → ℤ → ℝ) (Gr : Cell → Fin (d + 1) → ℝ) :
    StartsPhysical (n := n) (fun _ => True) (fun _ _ G _ => shockTubeInit rho0 rho1 u0 u1 P0 P1 inter G) geom nx ng X Gr ∧
    StartsPhysical (n := n) (fun _ => True) (fun _ _ _ _ => shockWallInit rho0 u0 P0) geom nx ng X Gr ∧
    StartsPhysical (n := n) (fun _ => True) (fun _ _ G _ => advectionGapInit rho0 rho1 u0 P0 G) geom nx ng X Gr ∧
    StartsPhysical (n := n) (fun _ => True) (fun _ _ G _ => advectionSinusInit u0 P0 G) geom nx ng X Gr ∧
    StartsPhysical (n := n) (fun _ => True) (fun _ _ G grav => stratifiedInit (PerfectGas.setupEos g) rho0 u0 T0 G grav) geom nx ng X Gr ∧
    StartsPhysical (n := n) (fun _ => True) (fun _ _ G _ => eqHydroInit (PerfectGas.setupEos g) rho0 u0 T0 M G) geom nx ng X Gr ∧
    StartsPhysical (fun _ => True) (fun _ _ _ _ => heatNickelInit (PerfectGas.setupEos g) rho0 u0 T0 fx0) geom nx ng X Gr := by
  obtain ⟨i1, i2, i3, i4, -, i6, i7⟩ := C66_independent_1d (d := d + 1) (n := n) (PerfectGas.setupEos g) rho0 rho1 u0 u1 P0 P1 inter T0 M fx0
  obtain ⟨-, -, -, -, i5, -⟩ := C66_independent_1d (d := d) (n := n) (PerfectGas.setupEos g) rho0 rho1 u0 u1 P0 P1 inter T0 M fx0
  have hz : ∀ k : Fin n, 0 ≤ (0 : Fin n → ℝ) k ∧ (0 : Fin n → ℝ) k ≤ 1 := fun k => ⟨le_rfl, zero_le_one⟩
  refine ⟨startsPhysical_of i1 hN hng (by omega) hd ?_, startsPhysical_of i2 hN hng (by omega) hd ?_, startsPhysical_of i3 hN hng (by omega) hd ?_,
    startsPhysical_of i4 hN hng (by omega) hd ?_, startsPhysical_of i5 hN hng (by omega) hd ?_, startsPhysical_of i6 hN hng (by omega) hd ?_,
    startsPhysical_of i7 hN hng (by omega) hd ?_⟩ <;> intro q topo G grav c C _ h
  · simp only [shockTubeInit, h.xc, Option.bind_eq_bind, Option.bind_some]
    split
    · exact ⟨_, rfl, hr0, hP0, hz⟩
    · exact ⟨_, rfl, hr1, hP1, hz⟩
  · exact ⟨_, rfl, hr0, hP0, hz⟩
  · simp only [advectionGapInit, h.xc, Option.bind_eq_bind, Option.bind_some]
    refine ⟨_, rfl, ?_, hP0, hz⟩
    dsimp only
    split
    · exact hr0
    · exact hr1
  · simp only [advectionSinusInit, h.xc, Option.bind_eq_bind, Option.bind_some]
    refine ⟨_, rfl, ?_, hP0, hz⟩
    have := Real.neg_one_le_sin (2 * Real.pi * midNode X (nghostOf (d + 1) ng) C 0)
    dsimp only
    norm_num
    linarith
  · simp only [stratifiedInit, h.xc, h.grav, Option.bind_eq_bind, Option.bind_some]
    have := mul_pos hr0 (Real.exp_pos (-midNode X (nghostOf (d + 1) ng) C 0 / (kB * T0 / ((PerfectGas.setupEos g).mmw * mP * |Gr C 0|))))
    exact ⟨_, rfl, this, presFromTemp_pos hm this hT, hz⟩
  · simp only [eqHydroInit, h.xc, Option.bind_eq_bind, Option.bind_some]
    have := mul_pos hr0 (Real.exp_pos (1 / (midNode X (nghostOf (d + 1) ng) C 0 * (kB * T0 / ((PerfectGas.setupEos g).mmw * mP * gravG * M)))))
    exact ⟨_, rfl, this, presFromTemp_pos hm this hT, hz⟩
  · exact ⟨_, rfl, hr0, presFromTemp_pos hm hr0 hT, fun _ => ⟨hf, hf1⟩⟩

/-! ### Two and three dimensions -/

theorem tanh_le {x y : ℝ} (h : x ≤ y) : Real.tanh x ≤ Real.tanh y := by
  rw [Real.tanh_eq_sinh_div_cosh, Real.tanh_eq_sinh_div_cosh, div_le_div_iff₀ (Real.cosh_pos x) (Real.cosh_pos y)]
  have h1 : 0 ≤ Real.sinh (y - x) := Real.sinh_nonneg_iff.2 (by linarith)
  rw [Real.sinh_sub] at h1
  linarith

/-- The pressure of the middle ring of the Gresho vortex exceeds that of its centre. -/
theorem gresho_ring {r : ℝ} (h1 : 0.2 ≤ r) (h2 : r < 0.4) : 0 ≤ 12.5 * r * r + 4 - 20 * r + 4 * Real.log (5 * r) := by
  have hr : 0 < 5 * r := by norm_num at h1; linarith
  have hl := Real.one_sub_inv_le_log_of_pos hr
  have key : 0 ≤ 12.5 * r * r + 4 - 20 * r + 4 * (1 - (5 * r)⁻¹) := by
    have e : 12.5 * r * r + 4 - 20 * r + 4 * (1 - (5 * r)⁻¹) = (2 - 5 * r) * (6 * (5 * r) - 4 - (5 * r) ^ 2) / (2 * (5 * r)) := by
      have : r ≠ 0 := by intro e; rw [e] at hr; linarith
      norm_num
      field_simp
      ring
    rw [e]
    refine div_nonneg (mul_nonneg ?_ ?_) (by linarith)
    · norm_num at h2; linarith
    · norm_num at h1 h2
      nlinarith
  linarith

/-- **C78, two and three dimensions.** With positive densities, pressures, energies and a positive Mach number in the file, on every mesh of
increasing nodes and on every process grid: implosion, Gresho vortex, Kelvin-Helmholtz, two-dimensional Sedov explosion. -/
theorem C78_physical_2d {g : Gas} (hm : 0 < g.mmw) (hg : 0 < g.gammaM1) (hga : 0 < g.gamma) {rho0 rho1 P0 P1 Ma E0 E1 : ℝ} (hr0 : 0 < rho0)
    (hr1 : 0 < rho1) (hP0 : 0 < P0) (hP1 : 0 < P1) (hMa : 0 < Ma) (hE0 : 0 < E0) (hE1 : 0 < E1) (u0 : ℝ) {nx : Cell} {ng : ℤ}
    (hN : ∀ a, 0 ≤ nx a) (hng : 0 ≤ ng) {X : Fin 3 → ℤ → ℝ} (hX : ∀ a, StrictMono (X a)) (Gr : Cell → Fin 2 → ℝ) :
    StartsPhysical (n := n) (fun _ => True) (fun _ _ G _ => implosionInit rho0 rho1 u0 P0 P1 G) .cartesian nx ng X Gr ∧
    StartsPhysical (n := n) (fun _ => True) (fun _ _ G _ => greshoInit (PerfectGas.setupEos g) rho0 u0 Ma G) .cartesian nx ng X Gr ∧
    StartsPhysical (n := n) (fun _ => True) (fun _ _ G _ => kelvinHelmholtzInit P0 G) .cartesian nx ng X Gr ∧
    StartsPhysical (n := n) (fun _ => True) (fun _ _ G _ => sedov2dKernel (PerfectGas.setupEos g) rho0 u0 E0 E1 G) .cartesian nx ng X Gr := by
  obtain ⟨i1, i2, i3, -, -, i6⟩ := C66_independent_2d (d := 2) (n := n) (PerfectGas.setupEos g) rho0 rho1 u0 P0 P1 Ma 0 0 E0 E1 0
  have hz : ∀ k : Fin n, 0 ≤ (0 : Fin n → ℝ) k ∧ (0 : Fin n → ℝ) k ≤ 1 := fun k => ⟨le_rfl, zero_le_one⟩
  refine ⟨startsPhysical_of i1 hN hng (by norm_num) (by norm_num) ?_, startsPhysical_of i2 hN hng (by norm_num) (by norm_num) ?_,
    startsPhysical_of i3 hN hng (by norm_num) (by norm_num) ?_, startsPhysical_of i6 hN hng (by norm_num) (by norm_num) ?_⟩ <;>
    intro q topo G grav c C _ h
  · simp only [implosionInit, h.xc, Option.bind_eq_bind, Option.bind_some]
    split
    · exact ⟨_, rfl, hr0, hP0, hz⟩
    · exact ⟨_, rfl, hr1, hP1, hz⟩
  · simp only [greshoInit, h.xc, Option.bind_eq_bind, Option.bind_some]
    have hp : 0 < 1 / ((PerfectGas.setupEos g).gamma * Ma * Ma) := div_pos one_pos (mul_pos (mul_pos hga hMa) hMa)
    set r := Real.sqrt (midNode X (nghostOf 2 ng) C 0 * midNode X (nghostOf 2 ng) C 0 +
      midNode X (nghostOf 2 ng) C 1 * midNode X (nghostOf 2 ng) C 1) with hr
    have hr0' : 0 ≤ r := Real.sqrt_nonneg _
    split
    · refine ⟨_, rfl, hr0, ?_, hz⟩
      dsimp only
      have := mul_nonneg (mul_nonneg (by norm_num : (0 : ℝ) ≤ 12.5) hr0') hr0'
      linarith
    · rename_i h1
      split
      · rename_i h2
        refine ⟨_, rfl, hr0, ?_, hz⟩
        have := gresho_ring (not_lt.1 h1) h2
        dsimp only
        linarith
      · refine ⟨_, rfl, hr0, ?_, hz⟩
        have := Real.one_sub_inv_le_log_of_pos (x := 2) (by norm_num)
        dsimp only
        linarith
  · simp only [kelvinHelmholtzInit, h.xc, Option.bind_eq_bind, Option.bind_some]
    refine ⟨_, rfl, ?_, hP0, hz⟩
    have := tanh_le (x := (midNode X (nghostOf 2 ng) C 1 - 1.5) / 0.05) (y := (midNode X (nghostOf 2 ng) C 1 - 0.5) / 0.05)
      (div_le_div_of_nonneg_right (by linarith) (by norm_num))
    dsimp only
    linarith
  · simp only [sedov2dKernel, h.x, h.dv, Option.bind_eq_bind, Option.bind_some]
    have hV : 0 < cellVolume .cartesian 2 X (nghostOf 2 ng) C := by
      rw [cellVolume, boxVolume_cartesian]
      have : ∀ a, 0 < hiNode X (nghostOf 2 ng) C a - loNode X (nghostOf 2 ng) C a := fun a => sub_pos.2 (hX a (by omega))
      exact mul_pos (mul_pos (this 0) (this 1)) (this 2)
    refine ⟨_, rfl, hr0, ?_, hz⟩
    have hp : ∀ e, 0 < e → 0 < (PerfectGas.setupEos g).presFromEvol rho0 e := fun e he => by
      have : (PerfectGas.setupEos g).presFromEvol rho0 e = g.gammaM1 * e := perfect_evol_temp hm hr0.ne' e
      rw [this]
      exact mul_pos hg he
    dsimp only
    split
    · exact hp _ (div_pos hE1 hV)
    · exact hp _ (div_pos hE0 hV)

/-- **C78, Rayleigh-Taylor in two dimensions, the part that holds.** If the fraction of the lower fluid is 0, that of the upper one between 0 and 1
and the pressure at the reference height exceeds the weight of the column above (`rho0 |g| y < 10 / 7 + 1 / 4` in every cell), the initial
state is physical on every mesh and process grid. The full statement is the same for all fractions `fx0`, `fx1` between 0 and 1 and every
column; it is false, see `C78_rt_violated`. -/
theorem C78_rt_partial {rho0 rho1 fx0 : ℝ} (hr0 : 0 < rho0) (hr1 : 0 < rho1) (hf : 0 ≤ fx0) (hf1 : fx0 ≤ 1) (u : ℝ) {nx : Cell} {ng : ℤ}
    (hN : ∀ a, 0 ≤ nx a) (hng : 0 ≤ ng) (geom : Geom) (X : Fin 3 → ℤ → ℝ) {Gr : Cell → Fin 2 → ℝ}
    (hw : ∀ C, inBox 0 nx C → rho0 * |Gr C 1| * midNode X (nghostOf 2 ng) C 1 < 10 / 7 + 1 / 4) :
    StartsPhysical (fun _ => True) (fun _ _ G grav => rayleighTaylorInit rho0 rho1 u fx0 0 G grav) geom nx ng X Gr := by
  obtain ⟨-, -, -, i4, -⟩ := C66_independent_2d (d := 2) (n := 1) (PerfectGas.setupEos ⟨1, 1, 1⟩) rho0 rho1 u 0 0 0 fx0 0 0 0 0
  refine startsPhysical_of i4 hN hng (by norm_num) (by norm_num) ?_
  intro q topo G grav c C hC h
  simp only [rayleighTaylorInit, h.xc, h.grav, Option.bind_eq_bind, Option.bind_some]
  set t := Real.tanh ((midNode X (nghostOf 2 ng) C 1 - 0.01 * Real.cos (4 * Real.pi * midNode X (nghostOf 2 ng) C 0)) / 0.005) with ht
  have t1 : t < 1 := Real.tanh_lt_one _
  have t2 : -1 < t := Real.neg_one_lt_tanh _
  refine ⟨_, rfl, ?_, ?_, fun k => ⟨?_, ?_⟩⟩
  · show 0 < rho1 + (rho0 - rho1) / 2 * (1 + t)
    nlinarith
  · show 0 < 10 / 7 + 1 / 4 - rho0 * |Gr C 1| * midNode X (nghostOf 2 ng) C 1
    linarith [hw C hC]
  · show 0 ≤ (fx0 - 0) / 2 * (1 + t)
    nlinarith
  · show (fx0 - 0) / 2 * (1 + t) ≤ 1
    nlinarith

/-- **C78, Rayleigh-Taylor in two dimensions, violated.** The profile of the mass fraction lacks the fraction `fx1` of the lower fluid. On every
mesh, process grid and for every cell: if both fluids have the same fraction, the initial fraction is 0; if the lower fluid has the larger
fraction, the initial fraction is negative. The pressure is not positive where `rho0 |g| y ≥ 10 / 7 + 1 / 4`. -/
theorem C78_rt_violated (rho0 rho1 u fx0 fx1 : ℝ) {nx : Cell} {ng : ℤ} (hN : ∀ a, 0 ≤ nx a) (hng : 0 ≤ ng) (geom : Geom) (X : Fin 3 → ℤ → ℝ)
    (Gr : Cell → Fin 2 → ℝ) :
    (∃ W, InitialState (fun _ => True) (fun _ _ G grav => rayleighTaylorInit rho0 rho1 u fx0 fx1 G grav) realTrig geom nx ng X Gr W) ∧
    ∀ W, InitialState (fun _ => True) (fun _ _ G grav => rayleighTaylorInit rho0 rho1 u fx0 fx1 G grav) realTrig geom nx ng X Gr W →
      ∀ C, inBox 0 nx C → (fx0 = fx1 → (W C).fx 0 = 0) ∧ (fx0 < fx1 → (W C).fx 0 < 0) ∧
        (10 / 7 + 1 / 4 ≤ rho0 * |Gr C 1| * midNode X (nghostOf 2 ng) C 1 → (W C).P ≤ 0) := by
  obtain ⟨-, -, -, i4, -⟩ := C66_independent_2d (d := 2) (n := 1) (PerfectGas.setupEos ⟨1, 1, 1⟩) rho0 rho1 u 0 0 0 fx0 fx1 0 0 0
  refine ⟨i4 realTrig geom nx ng X Gr hN hng, fun W hW => ?_⟩
  refine hW.of_cell trivial hN hng (by norm_num) (by norm_num) (fun C s => (fx0 = fx1 → s.fx 0 = 0) ∧ (fx0 < fx1 → s.fx 0 < 0) ∧
        (10 / 7 + 1 / 4 ≤ rho0 * |Gr C 1| * midNode X (nghostOf 2 ng) C 1 → s.P ≤ 0)) ?_
  intro q topo G grav c C hC h
  simp only [rayleighTaylorInit, h.xc, h.grav, Option.bind_eq_bind, Option.bind_some]
  set t := Real.tanh ((midNode X (nghostOf 2 ng) C 1 - 0.01 * Real.cos (4 * Real.pi * midNode X (nghostOf 2 ng) C 0)) / 0.005) with ht
  have t2 : -1 < t := Real.neg_one_lt_tanh _
  refine ⟨_, rfl, fun e => ?_, fun e => ?_, fun e => ?_⟩
  · show (fx0 - fx1) / 2 * (1 + t) = 0
    rw [e, sub_self, zero_div, zero_mul]
  · show (fx0 - fx1) / 2 * (1 + t) < 0
    nlinarith
  · show 10 / 7 + 1 / 4 - rho0 * |Gr C 1| * midNode X (nghostOf 2 ng) C 1 ≤ 0
    linarith

/-- **C78, Rayleigh-Taylor in three dimensions.** With positive densities, on a mesh whose nodes of the third direction lie below 150, with gravity that does not
vanish, whatever the random numbers, the initial state is physical on every process grid. -/
theorem C78_rt3d {rho0 rho1 : ℝ} (hr0 : 0 < rho0) (hr1 : 0 < rho1) (u : ℝ) (rnd : Fin 4 → ℝ) {nx : Cell} {ng : ℤ}
    (hN : ∀ a, 0 ≤ nx a) (hng : 0 ≤ ng) (geom : Geom) {X : Fin 3 → ℤ → ℝ} {Gr : Cell → Fin 3 → ℝ} (hG : ∀ C, inBox 0 nx C → Gr C 2 ≠ 0)
    (hz : ∀ C, inBox 0 nx C → loNode X (nghostOf 3 ng) C 2 ≤ 150) :
    StartsPhysical (fun _ => True) (fun _ _ G grav => rt3dInit rho0 rho1 u rnd G grav) geom nx ng X Gr := by
  obtain ⟨-, -, -, -, i5, -⟩ := C66_independent_2d (d := 2) (n := 1) (PerfectGas.setupEos ⟨1, 1, 1⟩) rho0 rho1 u 0 0 0 0 0 0 0 rnd
  refine startsPhysical_of i5 hN hng (by norm_num) (by norm_num) ?_
  intro q topo G grav c C hC h
  simp only [rt3dInit, h.x, h.grav, Option.bind_eq_bind, Option.bind_some]
  have hg : 0 < |Gr C 2| := abs_pos.2 (hG C hC)
  have hzC := hz C hC
  set z := loNode X (nghostOf 3 ng) C 2 with hzd
  have hpi := Real.pi_gt_three
  have hP : 0 < 2 * Real.pi * (rho0 + rho1) * |Gr C 2| * 10 := by positivity
  have base : ∀ rho, 0 < rho → rho ≤ rho0 + rho1 →
      0 < 1 - (5 / 3 - 1) / (5 / 3) * (rho * |Gr C 2| * z) / (2 * Real.pi * (rho0 + rho1) * |Gr C 2| * 10) := by
    intro rho h1 h2
    rw [sub_pos, div_lt_one hP]
    have h3 : rho * |Gr C 2| * z ≤ (rho0 + rho1) * |Gr C 2| * 150 := by
      by_cases hz0 : z ≤ 0
      · have h4 : rho * |Gr C 2| * z ≤ 0 := mul_nonpos_of_nonneg_of_nonpos (mul_pos h1 hg).le hz0
        have h5 : 0 ≤ (rho0 + rho1) * |Gr C 2| * 150 := by positivity
        linarith
      · have h4 : rho * |Gr C 2| ≤ (rho0 + rho1) * |Gr C 2| := mul_le_mul_of_nonneg_right h2 hg.le
        exact mul_le_mul h4 hzC (not_le.1 hz0).le (by positivity)
    have h6 : 0 < (rho0 + rho1) * |Gr C 2| := by positivity
    have h7 : (rho0 + rho1) * |Gr C 2| * 60 ≤ 2 * Real.pi * (rho0 + rho1) * |Gr C 2| * 10 := by nlinarith
    norm_num
    nlinarith
  split
  · have hp := mul_pos hr0 (Real.rpow_pos_of_pos (base rho0 hr0 (by linarith)) (1 / (5 / 3 - 1)))
    exact ⟨_, rfl, hp, mul_pos hP (Real.rpow_pos_of_pos (div_pos hp hr0) _), fun _ => ⟨zero_le_one, le_rfl⟩⟩
  · have hp := mul_pos hr1 (Real.rpow_pos_of_pos (base rho1 hr1 (by linarith)) (1 / (5 / 3 - 1)))
    exact ⟨_, rfl, hp, mul_pos hP (Real.rpow_pos_of_pos (div_pos hp hr1) _), fun _ => ⟨le_rfl, zero_le_one⟩⟩

/-- **C78, Sedov explosions.** With positive density, pressure and energies: in one dimension on a regular Cartesian mesh with two ghosts on every
process grid; in three dimensions on every spherical mesh and every process grid. -/
theorem C78_sedov {g : Gas} (hm : 0 < g.mmw) (hg : 0 < g.gammaM1) {rho0 P0 E0 E1 : ℝ} (hr : 0 < rho0) (hP : 0 < P0) (hE0 : 0 < E0)
    (hE1 : 0 < E1) (u0 : ℝ) {N : ℤ} (hN0 : 0 ≤ N) (o : Fin 3 → ℝ) {h : Fin 3 → ℝ} (hh : ∀ a, 0 < h a) (Gr1 : Cell → Fin 1 → ℝ) {nx dims : Cell}
    {ng : ℤ} (hN : ∀ a, 0 ≤ nx a) (hdm : ∀ a, 0 < dims a) (hng : 0 ≤ ng) {X : Fin 3 → ℤ → ℝ} (hX : Mesh .spherical 3 nx (nghostOf 3 ng) X)
    (Gr3 : Cell → Fin 3 → ℝ) :
    StartsPhysical (n := n) (fun _ => True) (fun q _ G _ => sedov1dInit (PerfectGas.setupEos g) .cartesian q rho0 u0 E0 E1 G) .cartesian
      ![N, 1, 1] 2 (fun a i => o a + i * h a) Gr1 ∧
    StartsPhysical (n := n) (fun dm => dm = dims) (fun _ topo G _ => sedov3dKernel (PerfectGas.setupEos g) topo.nxGlob rho0 P0 E1 G) .spherical
      nx ng X Gr3 := by
  classical
  have hz : ∀ k : Fin n, 0 ≤ (0 : Fin n → ℝ) k ∧ (0 : Fin n → ℝ) k ≤ 1 := fun k => ⟨le_rfl, zero_le_one⟩
  have hNx : ∀ a, 0 ≤ (![N, 1, 1] : Cell) a := by intro a; fin_cases a <;> simp; exact hN0
  have hV : 0 < h 0 * h 1 * h 2 := mul_pos (mul_pos (hh 0) (hh 1)) (hh 2)
  constructor
  · have hst := sedov1d_writes (n := n) (PerfectGas.setupEos g) rho0 u0 E0 E1 realTrig (nx := ![N, 1, 1]) (hNx 0) rfl rfl o h Gr1
    refine ⟨⟨_, hst⟩, fun W hW C hC => ?_⟩
    rw [hW.unique hst hNx (by norm_num) (dims := 1) trivial (fun _ => one_pos) hC]
    refine ⟨hr, ?_, hz⟩
    simp only [perfect_evol_temp hm hr.ne']
    split
    · exact mul_pos hg (div_pos (by norm_num; exact hE1) hV)
    · exact mul_pos hg (div_pos hE0 hV)
  · have hst := sedov3d_initial (n := n) hm hr.ne' P0 E1 hN hdm hng X Gr3
    refine ⟨⟨_, hst⟩, fun W hW C hC => ?_⟩
    rw [hW.unique hst hN hng (dims := dims) rfl hdm hC]
    refine ⟨hr, ?_, hz⟩
    dsimp only
    split
    · exact mul_pos hg (div_pos hE1 (C37_positive (by norm_num) (by norm_num) hX hC).1)
    · exact hP

/-! ### The hypotheses can be met -/

/-- The Rayleigh-Taylor problem of inputs/rayleigh_taylor.ini: gravity -0.5, heights up to 1, upper density 2. -/
example : StartsPhysical (fun _ => True) (fun _ _ G grav => rayleighTaylorInit 2 1 0 1 0 G grav) .cartesian ![16, 32, 1] 2
    ![evenNodes (-1 / 2) (1 / 2) 16 2, evenNodes (-1) 1 32 2, evenNodes 0 1 1 0] (fun _ a => ![0, -1 / 2] a) := by
  refine C78_rt_partial (by norm_num) (by norm_num) zero_le_one le_rfl 0 (by decide) (by norm_num) _ _ fun C hC => ?_
  have h : C 1 ≤ 31 := Int.lt_add_one_iff.1 (hC 1).2
  have h' : (C 1 : ℝ) ≤ 31 := by exact_mod_cast h
  simp only [midNode, loNode, hiNode, nghostOf, evenNodes, Matrix.cons_val_one, Matrix.cons_val_zero, Fin.val_one]
  norm_num
  linarith

/-- The shock tube of inputs/shock_tube.ini on any mesh. -/
example (X : Fin 3 → ℤ → ℝ) : StartsPhysical (d := 1) (n := 2) (fun _ => True)
    (fun _ _ G _ => shockTubeInit 1 (1 / 8) 0 0 1 (1 / 10) (1 / 2) G) .spherical ![100, 1, 1] 2 X (fun _ _ => 0) :=
  (C78_physical_1d (d := 0) (n := 2) (g := ⟨1.4, 0.4, 1⟩) one_pos one_pos (by norm_num) one_pos (by norm_num) one_pos zero_le_one le_rfl 0 0 _ 1
    (by norm_num) .spherical (by decide) (by norm_num) X _).1

/-- The vortex at Mach 0.1 and the explosion of inputs/sedov2d.ini. -/
example : StartsPhysical (n := 0) (fun _ => True) (fun _ _ G _ => greshoInit (PerfectGas.setupEos ⟨1.4, 0.4, 1⟩) 1 0 0.1 G) .cartesian
      ![400, 400, 1] 2 (squareMesh 400 2) (fun _ _ => 0) ∧
    StartsPhysical (d := 2) (n := 0) (fun _ => True) (fun _ _ G _ => sedov2dKernel (PerfectGas.setupEos ⟨1.4, 0.4, 1⟩) 1 0 1e-12 1e5 G) .cartesian
      ![400, 400, 1] 2 (squareMesh 400 2) (fun _ _ => 0) := by
  obtain ⟨-, h2, -, h4⟩ := C78_physical_2d (n := 0) (g := ⟨1.4, 0.4, 1⟩) (rho0 := 1) (rho1 := 1) (P0 := 1) (P1 := 1) (Ma := 0.1) (E0 := 1e-12)
    (E1 := 1e5) (by norm_num) (by norm_num) (by norm_num) one_pos one_pos one_pos one_pos (by norm_num) (by norm_num) (by norm_num) 0
    (nx := ![400, 400, 1]) (ng := 2) (by decide) (by norm_num) (squareMesh_mono (N := 400) (by norm_num) 2) (fun _ _ => 0)
  exact ⟨h2, h4⟩

/-- The three-dimensional Rayleigh-Taylor problem of inputs/rayleigh_taylor3d.ini: gravity -2. -/
example (rnd : Fin 4 → ℝ) : StartsPhysical (fun _ => True) (fun _ _ G grav => rt3dInit 3 1 0 rnd G grav) .cartesian ![8, 8, 16] 2
    ![evenNodes (-5) 5 8 2, evenNodes (-5) 5 8 2, evenNodes (-5) 5 16 2] (fun _ a => ![0, 0, -2] a) := by
  refine C78_rt3d (by norm_num) (by norm_num) 0 rnd (by decide) (by norm_num) _ (fun _ _ => by simp) fun C hC => ?_
  have h : C 2 ≤ 15 := Int.lt_add_one_iff.1 (hC 2).2
  have h' : (C 2 : ℝ) ≤ 15 := by exact_mod_cast h
  simp only [loNode, nghostOf, evenNodes, Matrix.cons_val, Fin.val_two]
  norm_num
  linarith

end Heracles

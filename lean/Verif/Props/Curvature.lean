import Verif.Props.Geometry

/-!
# C62 Curvature terms of spherical coordinates

In spherical coordinates the momentum equations contain, besides the divergence of the fluxes, the terms
* along `r`: `(2 P + rho u_θ² + rho u_φ²) / r`,
* along `θ`: `(P + rho u_φ²) cot θ / r - rho u_r u_θ / r`,
* along `φ`: `- rho u_r u_φ / r - rho u_θ u_φ cot θ / r`.
-/

namespace Heracles

/-- The curvature terms of a state: `ir` stands for `1 / r`, `ic` for `cot θ / r`. -/
noncomputable def curvature {d : ℕ} (s : Prim d ℝ) (ir ic : ℝ) : Fin 3 → ℝ :=
  let ur := s.uAt 0
  let uθ := s.uAt 1
  let uφ := s.uAt 2
  ![(2 * s.P + s.rho * uθ ^ 2 + s.rho * uφ ^ 2) * ir,
    (s.P + s.rho * uφ ^ 2) * ic - s.rho * ur * uθ * ir,
    - s.rho * ur * uφ * ir - s.rho * uθ * uφ * ic]

theorem boxIntegral_inv_r (lo hi : Fin 3 → ℝ) : boxIntegral .spherical lo hi (fun r _ => 1 / r) =
    (hi 0 ^ 2 - lo 0 ^ 2) / 2 * (Real.cos (lo 1) - Real.cos (hi 1)) * (hi 2 - lo 2) := by
  have e2 : ∀ q0 q1 : ℝ, ∫ q2 in lo 2..hi 2, 1 / q0 * (scaleFactor .spherical ![q0, q1, q2] 0 *
      scaleFactor .spherical ![q0, q1, q2] 1 * scaleFactor .spherical ![q0, q1, q2] 2) = ((hi 2 - lo 2) * q0) * Real.sin q1 := by
    intro q0 q1
    simp only [scaleFactor, Matrix.cons_val_zero, Matrix.cons_val_one, Matrix.cons_val, intervalIntegral.integral_const, smul_eq_mul]
    by_cases h : q0 = 0
    · simp [h]
    · field_simp
  have e1 : ∀ q0 : ℝ, ∫ q1 in lo 1..hi 1, ((hi 2 - lo 2) * q0) * Real.sin q1 =
      ((hi 2 - lo 2) * (Real.cos (lo 1) - Real.cos (hi 1))) * q0 := by
    intro q0
    rw [integral_mul_sin]
    ring
  simp only [boxIntegral, e2, e1, integral_mul_id]
  ring

/-- The poles are a null set: cells that touch them are included. -/
theorem boxIntegral_cot_r (lo hi : Fin 3 → ℝ) (h0 : 0 ≤ lo 1) (h1 : hi 1 ≤ Real.pi) (h : lo 1 ≤ hi 1) :
    boxIntegral .spherical lo hi (fun r θ => Real.cos θ / Real.sin θ / r) =
      (hi 0 ^ 2 - lo 0 ^ 2) / 2 * (Real.sin (hi 1) - Real.sin (lo 1)) * (hi 2 - lo 2) := by
  have e2 : ∀ q0 q1 : ℝ, ∫ q2 in lo 2..hi 2, Real.cos q1 / Real.sin q1 / q0 * (scaleFactor .spherical ![q0, q1, q2] 0 *
      scaleFactor .spherical ![q0, q1, q2] 1 * scaleFactor .spherical ![q0, q1, q2] 2) =
      ((hi 2 - lo 2) * q0) * (Real.cos q1 / Real.sin q1 * Real.sin q1) := by
    intro q0 q1
    simp only [scaleFactor, Matrix.cons_val_zero, Matrix.cons_val_one, Matrix.cons_val, intervalIntegral.integral_const, smul_eq_mul]
    by_cases h : q0 = 0
    · simp [h]
    · field_simp
  have e1 : ∀ q0 : ℝ, ∫ q1 in lo 1..hi 1, ((hi 2 - lo 2) * q0) * (Real.cos q1 / Real.sin q1 * Real.sin q1) =
      ((hi 2 - lo 2) * (Real.sin (hi 1) - Real.sin (lo 1))) * q0 := by
    intro q0
    have : ∫ q1 in lo 1..hi 1, Real.cos q1 / Real.sin q1 * Real.sin q1 = ∫ q1 in lo 1..hi 1, Real.cos q1 := by
      refine intervalIntegral.integral_congr_ae ?_
      have hae : ∀ᵐ x : ℝ, x ≠ Real.pi := MeasureTheory.Measure.ae_ne MeasureTheory.volume Real.pi
      filter_upwards [hae] with x hx hI
      rw [Set.uIoc_of_le h] at hI
      have hs : Real.sin x ≠ 0 := (Real.sin_pos_of_pos_of_lt_pi (lt_of_le_of_lt h0 hI.1)
        (lt_of_le_of_ne (hI.2.trans h1) hx)).ne'
      field_simp
    rw [intervalIntegral.integral_const_mul, this, integral_cos]
    ring
  simp only [boxIntegral, e2, e1, integral_mul_id]
  ring

/-- The box of coordinates standing for the cell `c` of a grid. -/
noncomputable def PGrid.lo {d : ℕ} (p : PGrid d ℝ) (c : Cell) : Fin 3 → ℝ := lowerLimit .spherical d fun a => p.x a (c a)

noncomputable def PGrid.hi {d : ℕ} (p : PGrid d ℝ) (c : Cell) : Fin 3 → ℝ := upperLimit .spherical d fun a => p.x a (c a + 1)

/-- Means of `1 / r` and of `cot θ / r` over the cell. -/
noncomputable def PGrid.invR {d : ℕ} (p : PGrid d ℝ) (c : Cell) : ℝ := boxMean .spherical (p.lo c) (p.hi c) fun r _ => 1 / r

noncomputable def PGrid.cotR {d : ℕ} (p : PGrid d ℝ) (c : Cell) : ℝ :=
  boxMean .spherical (p.lo c) (p.hi c) fun r θ => Real.cos θ / Real.sin θ / r

/-- Both the cell and its upper neighbours are in the arrays, and the cell is a piece of space: radii and colatitudes increase,
radii are not negative, colatitudes are in `[0, π]`. -/
structure SphCell {d : ℕ} (ext : Cell) (p : PGrid d ℝ) (c : Cell) : Prop where
  here : inExt ext c = true
  next : ∀ a : Fin d, inExt ext (nb c (ax a) 1) = true
  radius : 0 ≤ p.x 0 (c 0) ∧ p.x 0 (c 0) < p.x 0 (c 0 + 1)
  colat : 2 ≤ d → 0 ≤ p.x 1 (c 1) ∧ p.x 1 (c 1) < p.x 1 (c 1 + 1) ∧ p.x 1 (c 1 + 1) ≤ Real.pi
  azimuth : 3 ≤ d → p.x 2 (c 2) < p.x 2 (c 2 + 1)

section
variable {d : ℕ} {ext : Cell} {p : PGrid d ℝ} {c : Cell}

theorem SphCell.box (h : SphCell ext p c) : 0 ≤ p.lo c 0 ∧ p.lo c 0 < p.hi c 0 ∧ 0 ≤ p.lo c 1 ∧ p.lo c 1 < p.hi c 1 ∧ p.hi c 1 ≤ Real.pi ∧
    p.lo c 2 < p.hi c 2 := by
  refine ⟨h.radius.1, h.radius.2, ?_, ?_, ?_, ?_⟩ <;>
    simp only [PGrid.lo, PGrid.hi, lowerLimit, upperLimit, Matrix.cons_val_one, Matrix.cons_val_zero, Matrix.cons_val]
  · split
    · exact le_rfl
    · exact (h.colat (by omega)).1
  · split
    · exact Real.pi_pos
    · exact (h.colat (by omega)).2.1
  · split
    · exact le_rfl
    · exact (h.colat (by omega)).2.2
  · split
    · exact mul_pos two_pos Real.pi_pos
    · exact h.azimuth (by omega)

theorem SphCell.cos_lt (h : SphCell ext p c) : 0 < Real.cos (p.lo c 1) - Real.cos (p.hi c 1) := by
  obtain ⟨-, -, h1, h2, h3, -⟩ := h.box
  have := Real.strictAntiOn_cos ⟨h1, (h2.trans_le h3).le⟩ ⟨(h1.trans_lt h2).le, h3⟩ h2
  linarith

theorem SphCell.volume (h : SphCell ext p c) (hG : GeoOf realTrig .spherical ext p) (hd : 1 ≤ d) (hd3 : d ≤ 3) :
    p.dv c = (p.hi c 0 ^ 3 - p.lo c 0 ^ 3) / 3 * (Real.cos (p.lo c 1) - Real.cos (p.hi c 1)) * (p.hi c 2 - p.lo c 2) ∧ 0 < p.dv c := by
  have e : p.dv c = (p.hi c 0 ^ 3 - p.lo c 0 ^ 3) / 3 * (Real.cos (p.lo c 1) - Real.cos (p.hi c 1)) * (p.hi c 2 - p.lo c 2) := by
    have hx : ∀ a, p.dx a (c a) = p.x a (c a + 1) - p.x a (c a) := fun a => hG.dx a _ (inExt_iff.1 h.here a).1 (inExt_iff.1 h.here a).2
    rw [hG.dv c h.here]
    have := dvFun_exact .spherical hd hd3 p.x c
    rw [boxVolume_spherical] at this
    rw [PGrid.lo, PGrid.hi, ← this]
    simp only [dvFun, hx]
  refine ⟨e, ?_⟩
  obtain ⟨h0, h1, -, -, -, h5⟩ := h.box
  rw [e]
  have := pow_lt_pow_left₀ h1 h0 (n := 3) (by norm_num)
  exact mul_pos (mul_pos (by linarith) h.cos_lt) (sub_pos.2 h5)

theorem SphCell.invR_eq (h : SphCell ext p c) (hG : GeoOf realTrig .spherical ext p) (hd : 1 ≤ d) (hd3 : d ≤ 3) :
    p.invR c = (p.hi c 0 ^ 2 - p.lo c 0 ^ 2) / 2 * (Real.cos (p.lo c 1) - Real.cos (p.hi c 1)) * (p.hi c 2 - p.lo c 2) / p.dv c := by
  rw [PGrid.invR, boxMean, boxIntegral_inv_r, boxVolume_spherical, (h.volume hG hd hd3).1]

theorem SphCell.cotR_eq (h : SphCell ext p c) (hG : GeoOf realTrig .spherical ext p) (hd : 1 ≤ d) (hd3 : d ≤ 3) :
    p.cotR c = (p.hi c 0 ^ 2 - p.lo c 0 ^ 2) / 2 * (Real.sin (p.hi c 1) - Real.sin (p.lo c 1)) * (p.hi c 2 - p.lo c 2) / p.dv c := by
  obtain ⟨-, -, h2, h3, h4, -⟩ := h.box
  rw [PGrid.cotR, boxMean, boxIntegral_cot_r _ _ h2 h4 h3.le, boxVolume_spherical, (h.volume hG hd hd3).1]

/-- Faces normal to `r`. -/
theorem SphCell.ds_r (h : SphCell ext p c) (hG : GeoOf realTrig .spherical ext p) (hd3 : d ≤ 3) {a : Fin d} (ha : a.val = 0) :
    (p.dirGeo .spherical a c).dsL = p.lo c 0 ^ 2 * (Real.cos (p.lo c 1) - Real.cos (p.hi c 1)) * (p.hi c 2 - p.lo c 2) ∧
    (p.dirGeo .spherical a c).dsR = p.hi c 0 ^ 2 * (Real.cos (p.lo c 1) - Real.cos (p.hi c 1)) * (p.hi c 2 - p.lo c 2) := by
  have hx : ∀ a, p.dx a (c a) = p.x a (c a + 1) - p.x a (c a) := fun a => hG.dx a _ (inExt_iff.1 h.here a).1 (inExt_iff.1 h.here a).2
  have ha0 : ax a = 0 := Fin.ext ((ax_val hd3).trans ha)
  have hlt := a.isLt
  have hn := h.next a
  rw [ha0] at hn
  simp only [PGrid.dirGeo, ha0, hG.ds c h.here, hG.ds _ hn]
  have hnb0 : nb c 0 1 0 = c 0 + 1 := by simp [nb]
  have hnb1 : nb c 0 1 1 = c 1 := by simp [nb]
  have hnb2 : nb c 0 1 2 = c 2 := by simp [nb]
  have : d = 1 ∨ d = 2 ∨ d = 3 := by omega
  rcases this with rfl | rfl | rfl <;>
    simp only [dsFun, PGrid.lo, PGrid.hi, lowerLimit, upperLimit, realTrig, Matrix.cons_val_zero, Matrix.cons_val_one, Matrix.cons_val, hnb0, hnb1, hnb2, hx] <;>
    norm_num [-mul_eq_mul_right_iff, -mul_eq_mul_left_iff] <;> constructor <;> ring

/-- Faces normal to `θ`. -/
theorem SphCell.ds_θ (h : SphCell ext p c) (hG : GeoOf realTrig .spherical ext p) (hd3 : d ≤ 3) {a : Fin d} (ha : a.val = 1) :
    (p.dirGeo .spherical a c).dsL = (p.hi c 0 ^ 2 - p.lo c 0 ^ 2) / 2 * Real.sin (p.lo c 1) * (p.hi c 2 - p.lo c 2) ∧
    (p.dirGeo .spherical a c).dsR = (p.hi c 0 ^ 2 - p.lo c 0 ^ 2) / 2 * Real.sin (p.hi c 1) * (p.hi c 2 - p.lo c 2) := by
  have hx : ∀ a, p.dx a (c a) = p.x a (c a + 1) - p.x a (c a) := fun a => hG.dx a _ (inExt_iff.1 h.here a).1 (inExt_iff.1 h.here a).2
  have ha0 : ax a = 1 := Fin.ext ((ax_val hd3).trans ha)
  have hlt := a.isLt
  have hn := h.next a
  rw [ha0] at hn
  simp only [PGrid.dirGeo, ha0, hG.ds c h.here, hG.ds _ hn]
  have hnb0 : nb c 1 1 0 = c 0 := by simp [nb]
  have hnb1 : nb c 1 1 1 = c 1 + 1 := by simp [nb]
  have hnb2 : nb c 1 1 2 = c 2 := by simp [nb]
  have : d = 2 ∨ d = 3 := by omega
  rcases this with rfl | rfl <;>
    simp only [dsFun, PGrid.lo, PGrid.hi, lowerLimit, upperLimit, realTrig, Matrix.cons_val_zero, Matrix.cons_val_one, Matrix.cons_val, hnb0, hnb1, hnb2, hx] <;>
    norm_num [-mul_eq_mul_right_iff, -mul_eq_mul_left_iff] <;> constructor <;> ring

/-- What the code adds to the exact curvature terms of a state, per unit of time: `δ` is `(r₊ - r₋) / (r₊ + r₋)`, `cm` is the cotangent of the
mid colatitude. -/
noncomputable def curvatureDefect (s : Prim d ℝ) (ir ic δ cm : ℝ) : Fin 3 → ℝ :=
  ![0, s.rho * s.uAt 2 ^ 2 * ic * (cm / 2 - 1) - s.rho * s.uAt 0 * s.uAt 1 * ir * δ ^ 2, - s.rho * s.uAt 0 * s.uAt 2 * ir * δ ^ 2]

/-- The relative half width of the cell along `r`. -/
noncomputable def PGrid.halfWidth (p : PGrid d ℝ) (c : Cell) : ℝ := (p.hi c 0 - p.lo c 0) / (p.hi c 0 + p.lo c 0)

/-- The cotangent of the mid colatitude. -/
noncomputable def PGrid.midCot (p : PGrid d ℝ) (c : Cell) : ℝ :=
  Real.cos ((p.lo c 1 + p.hi c 1) / 2) / Real.sin ((p.lo c 1 + p.hi c 1) / 2)

/-- **C62, source terms.** On the mesh computed by the code, for a state that is the same on all faces of a cell, the sum over the directions of the
source terms added to momentum component `i` is `dt` times the mean over the cell of the exact curvature terms, up to the defect
`curvatureDefect`: none for the radial component, of second order in the relative width for the terms in `u_r u_θ` and `u_r u_φ`, and of order
zero for the term in `u_φ²` of the `θ` component (3D). The full statement is the same without the terms of order zero: `C62_violated`. -/
theorem C62_sources_partial (h : SphCell ext p c) (hG : GeoOf realTrig .spherical ext p) (hd3 : d ≤ 3)
    (hs : d = 3 → Real.sin (p.lo c 1) + Real.sin (p.hi c 1) ≠ 0) (s : Prim d ℝ) (dt : ℝ) (i : Fin d) :
    ∑ a, sphSource realTrig (p.dirGeo .spherical a c) (dt / p.dv c) s s a i =
      dt * (curvature s (p.invR c) (p.cotR c) (ax i) + curvatureDefect s (p.invR c) (p.cotR c) (p.halfWidth c) (p.midCot c) (ax i)) := by
  have hlt := i.isLt
  have hd : 1 ≤ d := by omega
  have hV := (h.volume hG hd hd3).2.ne'
  obtain ⟨b0, b1, -, -, -, -⟩ := h.box
  have hr : p.hi c 0 + p.lo c 0 ≠ 0 := by linarith
  rw [h.invR_eq hG hd hd3, h.cotR_eq hG hd hd3]
  generalize hVe : p.dv c = V at hV ⊢
  clear hVe
  have hcase : d = 1 ∨ d = 2 ∨ d = 3 := by omega
  have hax0 : ∀ {n : ℕ} {e : 0 < n}, ax (⟨0, e⟩ : Fin n) = 0 := rfl
  have hax1 : ∀ {n : ℕ} {e : 1 < n}, ax (⟨1, e⟩ : Fin n) = 1 := rfl
  have hax2 : ∀ {n : ℕ} {e : 2 < n}, ax (⟨2, e⟩ : Fin n) = 2 := rfl
  rcases hcase with rfl | rfl | rfl
  · obtain ⟨r1, r2⟩ := h.ds_r hG hd3 (a := 0) rfl
    fin_cases i
    simp only [hax0, Fin.sum_univ_one, sphSource, r1, r2]
    simp [sourceGradPres, curvature, curvatureDefect, Prim.uAt]
    field_simp
    ring
  · obtain ⟨r1, r2⟩ := h.ds_r hG hd3 (a := 0) rfl
    obtain ⟨t1, t2⟩ := h.ds_θ hG hd3 (a := 1) rfl
    have x0 : (p.dirGeo .spherical (0 : Fin 2) c).x0 = p.lo c 0 := rfl
    have x0p : (p.dirGeo .spherical (0 : Fin 2) c).x0p = p.hi c 0 := rfl
    fin_cases i
    · simp only [hax0, hax1, hax2, Fin.sum_univ_two, sphSource, r1, r2]
      simp [sourceGradPres, sourceGradUr, curvature, curvatureDefect, Prim.uAt]
      field_simp
      ring
    · simp only [hax0, hax1, hax2, Fin.sum_univ_two, sphSource, r1, r2, t1, t2, x0, x0p]
      simp [sourceGradPres, sourceGradUidirR, curvature, curvatureDefect, Prim.uAt, PGrid.halfWidth]
      field_simp
      ring
  · obtain ⟨r1, r2⟩ := h.ds_r hG hd3 (a := 0) rfl
    obtain ⟨t1, t2⟩ := h.ds_θ hG hd3 (a := 1) rfl
    have x0 : (p.dirGeo .spherical (0 : Fin 3) c).x0 = p.lo c 0 := rfl
    have x0p : (p.dirGeo .spherical (0 : Fin 3) c).x0p = p.hi c 0 := rfl
    have x1 : (p.dirGeo .spherical (1 : Fin 3) c).x1 = p.lo c 1 := rfl
    have x1p : (p.dirGeo .spherical (1 : Fin 3) c).x1p = p.hi c 1 := rfl
    have hs' : Real.sin (p.hi c 1) + Real.sin (p.lo c 1) ≠ 0 := by rw [add_comm]; exact hs rfl
    fin_cases i
    · simp only [hax0, hax1, hax2, Fin.sum_univ_three, sphSource, r1, r2]
      simp [sourceGradPres, sourceGradUr, curvature, curvatureDefect, Prim.uAt]
      field_simp
      ring
    · simp only [hax0, hax1, hax2, Fin.sum_univ_three, sphSource, r1, r2, t1, t2, x0, x0p, x1, x1p]
      simp [sourceGradPres, sourceGradUidirR, sourceGradUth, curvature, curvatureDefect, Prim.uAt, PGrid.halfWidth, PGrid.midCot, realTrig]
      generalize Real.cos ((p.lo c 1 + p.hi c 1) / 2) / Real.sin ((p.lo c 1 + p.hi c 1) / 2) = cm
      field_simp
      ring
    · simp only [hax0, hax1, hax2, Fin.sum_univ_three, sphSource, r1, r2, t1, t2, x0, x0p, x1, x1p]
      simp [sourceGradUidirR, sourceGradUphi, curvature, curvatureDefect, Prim.uAt, PGrid.halfWidth, realTrig]
      field_simp
      ring

/-- **C62, torque.** With the physical fluxes of its face states (as in the half step), direction `r` changes the momentum along `θ` or `φ`
by the angular momentum that crosses the two faces divided by the mean radius: `r u_θ` and `r u_φ` are what is transported. -/
theorem C62_angular_momentum (hd3 : d ≤ 3) {a i : Fin d} (ha : a.val = 0) (hi : i.val ≠ 0) (eos : EoS ℝ) (g : DirGeo ℝ)
    (hr : g.x0 + g.x0p ≠ 0) (k : ℝ) (sL sR : Prim d ℝ) :
    (g.x0 + g.x0p) / 2 * momDiff realTrig .spherical g k sL sR (fluxPrim eos sL a) (fluxPrim eos sR a) a i =
      k * (g.x0 * (sL.rho * sL.u a * sL.u i) * g.dsL - g.x0p * (sR.rho * sR.u a * sR.u i) * g.dsR) := by
  have hlt := i.isLt
  have hr' : g.x0p + g.x0 ≠ 0 := by rw [add_comm]; exact hr
  have ha' : a = ⟨0, by omega⟩ := Fin.ext ha
  have hne : i ≠ a := fun e => hi (by rw [e]; exact ha)
  have hflux : ∀ s : Prim d ℝ, (fluxPrim eos s a).rhou i = s.rho * s.u a * s.u i := fun s => by
    simp [fluxPrim, Function.update_of_ne hne]
  have hu0 : ∀ s : Prim d ℝ, s.uAt 0 = s.u a := fun s => by rw [Prim.uAt, dif_pos (by omega)]; exact congrArg s.u ha'.symm
  have hcase : i.val = 1 ∨ i.val = 2 := by omega
  unfold momDiff fluxDiff sphSource
  rw [hflux, hflux, if_pos rfl, if_pos ha, if_neg hi, hu0, hu0]
  rcases hcase with h | h
  · have hu : ∀ s : Prim d ℝ, s.uAt 1 = s.u i := fun s => by rw [Prim.uAt, dif_pos (by omega)]; congr 1; exact Fin.ext h.symm
    rw [if_pos h, if_pos (by omega), hu, hu, sourceGradUidirR]
    field_simp
    ring
  · have hu : ∀ s : Prim d ℝ, s.uAt 2 = s.u i := fun s => by rw [Prim.uAt, dif_pos (by omega)]; congr 1; exact Fin.ext h.symm
    rw [if_neg (by omega), if_pos (by omega), hu, hu, sourceGradUidirR]
    field_simp
    ring

/-- **C62, torque about the axis.** Likewise direction `θ` transports `sin θ u_φ`: the momentum along `φ` changes by the angular momentum about
the axis that crosses the two faces, divided by the mean of the sines. -/
theorem C62_axial_momentum {a i : Fin 3} (ha : a = 1) (hi : i = 2) (eos : EoS ℝ) (g : DirGeo ℝ)
    (hr : Real.sin g.x1 + Real.sin g.x1p ≠ 0) (k : ℝ) (sL sR : Prim 3 ℝ) :
    (Real.sin g.x1 + Real.sin g.x1p) / 2 * momDiff realTrig .spherical g k sL sR (fluxPrim eos sL a) (fluxPrim eos sR a) a i =
      k * (Real.sin g.x1 * (sL.rho * sL.u a * sL.u i) * g.dsL - Real.sin g.x1p * (sR.rho * sR.u a * sR.u i) * g.dsR) := by
  subst ha hi
  have hr' : Real.sin g.x1p + Real.sin g.x1 ≠ 0 := by rw [add_comm]; exact hr
  simp [momDiff, fluxDiff, sphSource, fluxPrim, sourceGradUphi, Prim.uAt, realTrig]
  field_simp
  ring

end

/-! ### A cell where the source is wrong -/

/-- Nodes of a 3D spherical mesh: `r = 1, 2, ..`, `θ = π/6, π/3, ..`, `φ = 0, 1, ..`. -/
noncomputable def wedgeNodes : Fin 3 → ℤ → ℝ := fun a i => if a = 0 then i + 1 else if a = 1 then (i + 1) * (Real.pi / 6) else i

noncomputable def wedgeGrid : PGrid 3 ℝ :=
  ⟨wedgeNodes, fun a i => wedgeNodes a (i + 1) - wedgeNodes a i,
    dsFun realTrig .spherical 3 wedgeNodes (fun a i => wedgeNodes a (i + 1) - wedgeNodes a i) 0,
    dvFun realTrig .spherical 3 wedgeNodes (fun a i => wedgeNodes a (i + 1) - wedgeNodes a i) 0, fun _ _ => 0⟩

theorem wedgeGrid_geo : GeoOf realTrig .spherical ![2, 2, 2] wedgeGrid := ⟨fun _ _ _ _ => rfl, fun _ _ => rfl, fun _ _ => rfl⟩

theorem wedgeGrid_cell : SphCell ![2, 2, 2] wedgeGrid 0 := by
  have hp := Real.pi_pos
  refine ⟨inExt_iff.2 (by decide), fun a => inExt_iff.2 ?_, ?_, fun _ => ?_, fun _ => ?_⟩
  · revert a; decide
  · simp [wedgeGrid, wedgeNodes]
  · simp [wedgeGrid, wedgeNodes]
    refine ⟨by positivity, by linarith, by linarith⟩
  · simp [wedgeGrid, wedgeNodes]

theorem wedgeGrid_lo : wedgeGrid.lo 0 1 = Real.pi / 6 := by simp [PGrid.lo, lowerLimit, wedgeGrid, wedgeNodes]

theorem wedgeGrid_hi : wedgeGrid.hi 0 1 = Real.pi / 3 := by
  simp [PGrid.hi, upperLimit, wedgeGrid, wedgeNodes]
  ring

theorem wedgeGrid_sin : Real.sin (wedgeGrid.lo 0 1) + Real.sin (wedgeGrid.hi 0 1) ≠ 0 := by
  rw [wedgeGrid_lo, wedgeGrid_hi, Real.sin_pi_div_six, Real.sin_pi_div_three]
  positivity

theorem wedgeGrid_cot : 0 < wedgeGrid.cotR 0 ∧ wedgeGrid.midCot 0 = 1 := by
  constructor
  · have h := wedgeGrid_cell
    obtain ⟨b0, b1, -, -, -, b5⟩ := h.box
    rw [h.cotR_eq wedgeGrid_geo (by norm_num) (by norm_num)]
    refine div_pos (mul_pos (mul_pos (by nlinarith) ?_) (sub_pos.2 b5)) (h.volume wedgeGrid_geo (by norm_num) (by norm_num)).2
    rw [wedgeGrid_lo, wedgeGrid_hi, Real.sin_pi_div_six, Real.sin_pi_div_three]
    have : (1 : ℝ) < Real.sqrt 3 := by
      rw [Real.lt_sqrt] <;> norm_num
    linarith
  · rw [PGrid.midCot, wedgeGrid_lo, wedgeGrid_hi, show (Real.pi / 6 + Real.pi / 3) / 2 = Real.pi / 4 by ring, Real.cos_pi_div_four,
      Real.sin_pi_div_four]
    exact div_self (by positivity)

/-- A fluid turning about the axis: `u_φ = 1`, without pressure. -/
noncomputable def turning : Prim 3 ℝ := ⟨1, ![0, 0, 1], 0⟩

/-- **C62 is violated.** For a fluid that turns about the axis, in the cell `1 ≤ r ≤ 2`, `π/6 ≤ θ ≤ π/3`, the centrifugal source along `θ` is half
of the exact one, `ρ u_φ² cot θ / r` averaged over the cell: the areas of the `θ` faces already contain the cotangent, and the code multiplies once
more by `cot θ_m / 2` (src/hydro/source_terms.hpp 52-57). -/
theorem C62_violated (dt : ℝ) (hdt : 0 < dt) :
    ∑ a, sphSource realTrig (wedgeGrid.dirGeo .spherical a 0) (dt / wedgeGrid.dv 0) turning turning a 1 =
      dt * curvature turning (wedgeGrid.invR 0) (wedgeGrid.cotR 0) 1 / 2 ∧
    ∑ a, sphSource realTrig (wedgeGrid.dirGeo .spherical a 0) (dt / wedgeGrid.dv 0) turning turning a 1 ≠
      dt * curvature turning (wedgeGrid.invR 0) (wedgeGrid.cotR 0) 1 := by
  obtain ⟨hc, hm⟩ := wedgeGrid_cot
  have h := C62_sources_partial wedgeGrid_cell wedgeGrid_geo le_rfl (fun _ => wedgeGrid_sin) turning dt 1
  rw [hm, show ax (1 : Fin 3) = 1 from rfl] at h
  have e : curvature turning (wedgeGrid.invR 0) (wedgeGrid.cotR 0) 1 = wedgeGrid.cotR 0 := by
    simp [curvature, turning, Prim.uAt]
  have e' : curvatureDefect turning (wedgeGrid.invR 0) (wedgeGrid.cotR 0) (wedgeGrid.halfWidth 0) 1 1 = - (wedgeGrid.cotR 0 / 2) := by
    simp [curvatureDefect, turning, Prim.uAt]
    ring
  rw [h, e, e']
  have : 0 < dt * wedgeGrid.cotR 0 := mul_pos hdt hc
  constructor
  · ring
  · intro e2
    linarith [mul_add dt (wedgeGrid.cotR 0) (-(wedgeGrid.cotR 0 / 2)), mul_neg dt (wedgeGrid.cotR 0 / 2), mul_div_assoc dt (wedgeGrid.cotR 0) 2]

/-- The hypotheses of `C62_sources_partial` hold on that cell, for a fluid that also moves along `r` and `θ`. -/
example (dt : ℝ) : ∑ a, sphSource realTrig (wedgeGrid.dirGeo .spherical a 0) (dt / wedgeGrid.dv 0) ⟨2, ![1, 3, -1], 5⟩ ⟨2, ![1, 3, -1], 5⟩ a 0 =
    dt * ((2 * 5 + 2 * 3 ^ 2 + 2 * (-1) ^ 2) * wedgeGrid.invR 0) := by
  rw [C62_sources_partial wedgeGrid_cell wedgeGrid_geo le_rfl (fun _ => wedgeGrid_sin) ⟨2, ![1, 3, -1], 5⟩ dt 0, show ax (0 : Fin 3) = 0 from rfl]
  simp [curvature, curvatureDefect, Prim.uAt]

/-- `C62_angular_momentum` and `C62_axial_momentum` on numbers: a shell between `r = 1` and `r = 2`. -/
example (eos : EoS ℝ) : (1 + 2) / 2 * momDiff realTrig .spherical ⟨7, 4, 16, 1, 2, 1, 2⟩ (1 / 2) (⟨1, ![1, 3], 1⟩ : Prim 2 ℝ) ⟨2, ![1, 5], 1⟩
      (fluxPrim eos ⟨1, ![1, 3], 1⟩ 0) (fluxPrim eos ⟨2, ![1, 5], 1⟩ 0) 0 1 = 1 / 2 * (1 * 3 * 4 - 2 * 10 * 16) := by
  have := C62_angular_momentum (d := 2) (a := 0) (i := 1) (by norm_num) rfl (by decide) eos ⟨7, 4, 16, 1, 2, 1, 2⟩ (by norm_num) (1 / 2)
    ⟨1, ![1, 3], 1⟩ ⟨2, ![1, 5], 1⟩
  rw [this]
  norm_num

end Heracles

import Verif.Lemmas.Fractions
import Verif.Lemmas.Positivity
import Verif.Lemmas.Ramp
import Verif.Lemmas.Riemann

/-!
# Mass fractions stay between their extremes
-/

namespace Heracles

variable {d n : ℕ} {K : Type} [Field K] [LinearOrder K] [IsStrictOrderedRing K]

theorem neg_iff_of_scale {k : K} (hk : 0 < k) (f : K) : k * f < 0 ↔ f < 0 :=
  ⟨fun h => not_le.1 fun h' => absurd (mul_nonneg hk.le h') (not_le.2 h), fun h => mul_neg_of_pos_of_neg hk h⟩

/-- What a cell of mass `r` and fraction `x` keeps and receives does not fall below `m`, if it gives away no more mass than it has. -/
theorem mix_lower {r x m : K} {A B xL xR : Fin d → K} (hx : m ≤ x) (hL : ∀ a, m ≤ xL a) (hR : ∀ a, m ≤ xR a)
    (hout : ∑ a, (max (-A a) 0 + max (B a) 0) ≤ r) :
    m * (r + ∑ a, (A a - B a)) ≤ x * r + ∑ a, ((if A a < 0 then x else xL a) * A a - (if B a < 0 then xR a else x) * B a) := by
  have h1 : ∀ a, (x - m) * -(max (-A a) 0 + max (B a) 0) ≤ ((if A a < 0 then x else xL a) * A a - (if B a < 0 then xR a else x) * B a) - m * (A a - B a) := by
    intro a
    have hA : (x - m) * -(max (-A a) 0) ≤ ((if A a < 0 then x else xL a) - m) * A a := by
      split
      · rename_i h
        rw [max_eq_left (by linarith), neg_neg]
      · rename_i h
        rw [max_eq_right (by linarith)]
        have := mul_nonneg (sub_nonneg.2 (hL a)) (not_lt.1 h)
        linarith
    have hB : (x - m) * -(max (B a) 0) ≤ -(((if B a < 0 then xR a else x) - m) * B a) := by
      split
      · rename_i h
        rw [max_eq_right h.le]
        have := mul_nonneg (sub_nonneg.2 (hR a)) (neg_nonneg.2 h.le)
        linarith
      · rename_i h
        rw [max_eq_left (not_lt.1 h)]
        linarith
    linarith
  have h2 := Finset.sum_le_sum fun a (_ : a ∈ Finset.univ) => h1 a
  rw [← Finset.mul_sum, Finset.sum_neg_distrib, Finset.sum_sub_distrib, ← Finset.mul_sum] at h2
  have h3 := mul_le_mul_of_nonneg_left hout (sub_nonneg.2 hx)
  linarith

theorem mix_upper {r x M : K} {A B xL xR : Fin d → K} (hx : x ≤ M) (hL : ∀ a, xL a ≤ M) (hR : ∀ a, xR a ≤ M)
    (hout : ∑ a, (max (-A a) 0 + max (B a) 0) ≤ r) :
    x * r + ∑ a, ((if A a < 0 then x else xL a) * A a - (if B a < 0 then xR a else x) * B a) ≤ M * (r + ∑ a, (A a - B a)) := by
  have h := mix_lower (m := -M) (x := -x) (xL := fun a => -xL a) (xR := fun a => -xR a) (neg_le_neg hx) (fun a => neg_le_neg (hL a)) (fun a => neg_le_neg (hR a)) hout
  have e : ∀ a, ((if A a < 0 then -x else -xL a) * A a - (if B a < 0 then -xR a else -x) * B a) = -((if A a < 0 then x else xL a) * A a - (if B a < 0 then xR a else x) * B a) := fun a => by
    split <;> split <;> ring
  simp only [e, Finset.sum_neg_distrib] at h
  linarith

/-- Nor is any mass negative then. -/
theorem mix_mass {r : K} {A B : Fin d → K} (hout : ∑ a, (max (-A a) 0 + max (B a) 0) ≤ r) : 0 ≤ r + ∑ a, (A a - B a) := by
  have h := Finset.sum_le_sum fun a (_ : a ∈ Finset.univ) => (show -(max (-A a) 0 + max (B a) 0) ≤ A a - B a by
    have := le_max_left (-A a) 0
    have := le_max_left (B a) 0
    linarith)
  rw [Finset.sum_neg_distrib] at h
  linarith

section Step
variable {sol : Solver} {eos : EoS K} {tr : Trig K} {geom : Geom} {fix : Option K}

/-- Without slopes the predictor leaves the mass fractions alone. -/
theorem recVal_fx (p : PGrid d K) (dt : K) (W : Cell → Fields d n K) (UP : Cell → VelPres d K) (c : Cell) (side : Fin 2) (a : Fin d)
    (hne : (kRecVal (exactKernels .constant sol eos tr geom fix) geom p dt W UP c side a).rho ≠ 0) (i : Fin n) :
    (kRecVal (exactKernels .constant sol eos tr geom fix) geom p dt W UP c side a).fx i = (W c).fx i := by
  have hf : ∀ s b, (kFaceFields (exactKernels .constant sol eos tr geom fix) p W UP c s b).fx i = (W c).fx i := fun s b => by
    show reconFace .constant _ _ _ _ _ _ s = _
    unfold reconFace
    simp [Limiter.slope]
  have hr : (hancockPure eos tr geom dt (fun a => p.kDirGeo geom a c) (p.grav c) (kFaceUP (exactKernels (n := n) .constant sol eos tr geom fix) p UP c)
      (kFaceFields (exactKernels .constant sol eos tr geom fix) p W UP c) side a).rho ≠ 0 := hne
  show (hancockPure eos tr geom dt (fun a => p.kDirGeo geom a c) (p.grav c) (kFaceUP (exactKernels (n := n) .constant sol eos tr geom fix) p UP c)
      (kFaceFields (exactKernels .constant sol eos tr geom fix) p W UP c) side a).fx i / (hancockPure eos tr geom dt (fun a => p.kDirGeo geom a c) (p.grav c)
      (kFaceUP (exactKernels (n := n) .constant sol eos tr geom fix) p UP c) (kFaceFields (exactKernels .constant sol eos tr geom fix) p W UP c) side a).rho = _
  rw [div_eq_iff hr]
  unfold hancockPure
  dsimp only
  simp only [hf]
  rw [mul_add, Finset.mul_sum]
  congr 1
  refine Finset.sum_congr rfl fun b _ => ?_
  unfold fluxDiff
  ring

/-- The mass a cell sends through its faces in a step `dt`, over its volume. -/
def massGiven (sol : Solver) (eos : EoS K) (dt : K) (dg : Fin d → DirGeo K) (rm : Fin d → Fin 2 → Fin d → Fields d n K) (r0 : Fin 2 → Fin d → Fields d n K)
    (rp : Fin d → Fin 2 → Fin d → Fields d n K) : K :=
  ∑ a, dt / (dg a).dv * ((dg a).dsL * max (-(sol.flux eos (rm a 1 a).cons (r0 0 a).cons a).rho) 0 + (dg a).dsR * max (sol.flux eos (r0 1 a).cons (rp a 0 a).cons a).rho 0)

theorem update_fx {dt : K} {dg : Fin d → DirGeo K} {gr : Fin d → K} {s : Fields d n K} {rm rp : Fin d → Fin 2 → Fin d → Fields d n K} {r0 : Fin 2 → Fin d → Fields d n K}
    (hk : ∀ a, 0 ≤ dt / (dg a).dv) (hL : ∀ a, 0 ≤ (dg a).dsL ∧ 0 ≤ (dg a).dsR) (hout : massGiven sol eos dt dg rm r0 rp ≤ s.rho) {i : Fin n} {m M : K}
    (h0 : m ≤ s.fx i ∧ s.fx i ≤ M) (hr0 : ∀ t a, (r0 t a).fx i = s.fx i) (hm : ∀ a, m ≤ (rm a 1 a).fx i ∧ (rm a 1 a).fx i ≤ M)
    (hp : ∀ a, m ≤ (rp a 0 a).fx i ∧ (rp a 0 a).fx i ≤ M) :
    0 ≤ (godunovPure sol eos tr geom dt dg gr s rm r0 rp).rho ∧
    m * (godunovPure sol eos tr geom dt dg gr s rm r0 rp).rho ≤ (godunovPure sol eos tr geom dt dg gr s rm r0 rp).fx i ∧
    (godunovPure sol eos tr geom dt dg gr s rm r0 rp).fx i ≤ M * (godunovPure sol eos tr geom dt dg gr s rm r0 rp).rho := by
  set A : Fin d → K := fun a => dt / (dg a).dv * (dg a).dsL * (sol.flux eos (rm a 1 a).cons (r0 0 a).cons a).rho with hA
  set B : Fin d → K := fun a => dt / (dg a).dv * (dg a).dsR * (sol.flux eos (r0 1 a).cons (rp a 0 a).cons a).rho with hB
  have hpos : ∀ {k s : K}, 0 ≤ k → 0 ≤ s → ∀ f, max (k * s * f) 0 = k * (s * max f 0) := fun {k s} h1 h2 f => by
    rw [← mul_assoc, mul_max_of_nonneg _ _ (mul_nonneg h1 h2), mul_zero]
  have ho : ∑ a, (max (-A a) 0 + max (B a) 0) ≤ s.rho := by
    refine le_trans (le_of_eq (Finset.sum_congr rfl fun a _ => ?_)) hout
    rw [hA, hB]
    dsimp only
    rw [← mul_neg, hpos (hk a) (hL a).1, hpos (hk a) (hL a).2]
    ring
  have hrho : (godunovPure sol eos tr geom dt dg gr s rm r0 rp).rho = s.rho + ∑ a, (A a - B a) := by
    unfold godunovPure
    dsimp only
    congr 1
    refine Finset.sum_congr rfl fun a _ => ?_
    unfold fluxDiff
    rw [hA, hB]
    ring
  have hfx : (godunovPure sol eos tr geom dt dg gr s rm r0 rp).fx i =
      s.fx i * s.rho + ∑ a, ((if A a < 0 then s.fx i else (rm a 1 a).fx i) * A a - (if B a < 0 then (rp a 0 a).fx i else s.fx i) * B a) := by
    unfold godunovPure
    dsimp only
    congr 1
    refine Finset.sum_congr rfl fun a _ => ?_
    have piece : ∀ {l f x y : K}, 0 ≤ l → (if dt / (dg a).dv * l * f < 0 then x else y) * (dt / (dg a).dv * l * f) = dt / (dg a).dv * ((if f < 0 then x else y) * f * l) := by
      intro l f x y hl
      rcases (mul_nonneg (hk a) hl).eq_or_lt with h | h
      · rw [← h, zero_mul, mul_zero, show dt / (dg a).dv * ((if f < 0 then x else y) * f * l) = dt / (dg a).dv * l * ((if f < 0 then x else y) * f) by ring, ← h, zero_mul]
      · simp only [neg_iff_of_scale h]
        ring
    rw [hA, hB]
    dsimp only
    rw [piece (hL a).1, piece (hL a).2]
    unfold fluxDiff
    simp only [hr0]
    ring
  rw [hrho, hfx]
  exact ⟨mix_mass ho, mix_lower h0.1 (fun a => (hm a).1) (fun a => (hp a).1) ho, mix_upper h0.2 (fun a => (hm a).2) (fun a => (hp a).2) ho⟩

theorem clamp_within {x m M : K} (h0 : 0 ≤ m) (h1 : M ≤ 1) (hx : m ≤ x ∧ x ≤ M) : clamp x 0 1 = x := by
  unfold clamp
  rw [if_neg (by linarith [hx.1]), if_neg (by linarith [hx.2])]

/-- One step without slopes: a fraction between `m` and `M` in the cell and its neighbours is so afterwards, before and after the clamp. -/
theorem stepVal_within (p : PGrid d K) {dt : K} {W : Cell → Fields d n K} {UP : Cell → VelPres d K} {c : Cell}
    (hk : 0 ≤ dt / p.dv c) (hds : ∀ a : Fin d, 0 ≤ p.ds c (ax a) ∧ 0 ≤ p.ds (nb c (ax a) 1) (ax a))
    (hr : ∀ (a : Fin d) (t : ℤ), -1 ≤ t → t ≤ 1 → ∀ side b, (kRecVal (exactKernels .constant sol eos tr geom fix) geom p (dt / 2) W UP (nb c (ax a) t) side b).rho ≠ 0)
    (hne : (kStepVal (exactKernels .constant sol eos tr geom fix) geom p dt W UP c).rho ≠ 0)
    (hout : massGiven sol eos dt (fun a => p.kDirGeo geom a c) (fun a => kRecVal (exactKernels .constant sol eos tr geom fix) geom p (dt / 2) W UP (nb c (ax a) (-1)))
      (kRecVal (exactKernels .constant sol eos tr geom fix) geom p (dt / 2) W UP c) (fun a => kRecVal (exactKernels .constant sol eos tr geom fix) geom p (dt / 2) W UP (nb c (ax a) 1)) ≤ (W c).rho)
    {i : Fin n} {m M : K} (h0 : m ≤ (W c).fx i ∧ (W c).fx i ≤ M) (hW : ∀ (a : Fin d) (t : ℤ), -1 ≤ t → t ≤ 1 → m ≤ (W (nb c (ax a) t)).fx i ∧ (W (nb c (ax a) t)).fx i ≤ M) :
    (m ≤ rawFraction (exactKernels .constant sol eos tr geom fix) geom p dt W UP c i ∧ rawFraction (exactKernels .constant sol eos tr geom fix) geom p dt W UP c i ≤ M) ∧
    (kStepVal (exactKernels .constant sol eos tr geom fix) geom p dt W UP c).fx i = clamp (rawFraction (exactKernels .constant sol eos tr geom fix) geom p dt W UP c i) 0 1 := by
  set R := kRecVal (exactKernels .constant sol eos tr geom fix) geom p (dt / 2) W UP with hR
  have hfx : (kStepVal (exactKernels .constant sol eos tr geom fix) geom p dt W UP c).fx = (kGodVal (exactKernels .constant sol eos tr geom fix) geom p dt W R c).fx := by
    unfold kStepVal kFixVal; split <;> rfl
  have hrho : (kStepVal (exactKernels .constant sol eos tr geom fix) geom p dt W UP c).rho = (kGodVal (exactKernels .constant sol eos tr geom fix) geom p dt W R c).rho := by
    unfold kStepVal kFixVal; split <;> rfl
  rw [hrho] at hne
  have hne' : (godunovPure sol eos tr geom dt (fun a => p.kDirGeo geom a c) (p.grav c) (W c) (fun a => R (nb c (ax a) (-1))) (R c) (fun a => R (nb c (ax a) 1))).rho ≠ 0 := hne
  have e0 : ∀ a : Fin d, nb c (ax a) 0 = c := fun a => by unfold nb; simp
  have hrec : ∀ (a : Fin d) (t : ℤ), -1 ≤ t → t ≤ 1 → ∀ side b, (R (nb c (ax a) t) side b).fx i = (W (nb c (ax a) t)).fx i := fun a t h1 h2 side b =>
    recVal_fx p (dt / 2) W UP _ side b (hr a t h1 h2 side b) i
  have g1 : ∀ a : Fin d, (p.kDirGeo geom a c).dv = p.dv c := fun a => by cases geom <;> rfl
  have g2 : ∀ a : Fin d, (p.kDirGeo geom a c).dsL = p.ds c (ax a) := fun a => by cases geom <;> rfl
  have g3 : ∀ a : Fin d, (p.kDirGeo geom a c).dsR = p.ds (nb c (ax a) 1) (ax a) := fun a => by cases geom <;> rfl
  obtain ⟨q1, q2, q3⟩ := update_fx (tr := tr) (geom := geom) (gr := p.grav c) (i := i) (m := m) (M := M) (fun a => by rw [g1]; exact hk) (fun a => by rw [g2, g3]; exact hds a) hout h0
    (fun t a => by have := hrec a 0 (by norm_num) (by norm_num) t a; rwa [e0] at this)
    (fun a => by rw [hrec a (-1) (by norm_num) (by norm_num)]; exact hW a (-1) (by norm_num) (by norm_num))
    (fun a => by rw [hrec a 1 (by norm_num) (by norm_num)]; exact hW a 1 (by norm_num) (by norm_num))
  refine ⟨?_, by rw [hfx]; rfl⟩
  show m ≤ (godunovPure sol eos tr geom dt _ _ _ _ _ _).fx i / (godunovPure sol eos tr geom dt _ _ _ _ _ _).rho ∧
    (godunovPure sol eos tr geom dt _ _ _ _ _ _).fx i / (godunovPure sol eos tr geom dt _ _ _ _ _ _).rho ≤ M
  have hq := lt_of_le_of_ne q1 hne'.symm
  exact ⟨(le_div_iff₀ hq).2 q2, (div_le_iff₀ hq).2 q3⟩

end Step

/-! ### The mass fluxes of HLL and HLLC -/

/-- The mass that leaves the left state is at most what its fastest wave sweeps, and that which leaves the right one too. -/
theorem massFlux_bounds {eos : EoS K} (he : eos.Lawful) {sol : Solver} (hs : sol = .hll ∨ sol = .hllc) {cL cR : Cons d K}
    (hL : cL.Adm eos) (hR : cR.Adm eos) (a : Fin d) :
    max (sol.flux eos cL cR a).rho 0 ≤ cL.rho * max (max (cL.vel a + cL.cs eos) (cR.vel a + cR.cs eos)) 0 ∧
    max (-(sol.flux eos cL cR a).rho) 0 ≤ cR.rho * max (-(min (cL.vel a - cL.cs eos) (cR.vel a - cR.cs eos))) 0 := by
  obtain ⟨wL, hwL⟩ : ∃ w, w = min (cL.vel a - cL.cs eos) (cR.vel a - cR.cs eos) := ⟨_, rfl⟩
  obtain ⟨wR, hwR⟩ : ∃ w, w = max (cL.vel a + cL.cs eos) (cR.vel a + cR.cs eos) := ⟨_, rfl⟩
  have sL := (hL.sound he).1
  have sR := (hR.sound he).1
  have rL := hL.1
  have rR := hR.1
  have b1 : wL ≤ cL.vel a - cL.cs eos := hwL ▸ min_le_left _ _
  have b2 : wL ≤ cR.vel a - cR.cs eos := hwL ▸ min_le_right _ _
  have b3 : cL.vel a + cL.cs eos ≤ wR := hwR ▸ le_max_left _ _
  have b4 : cR.vel a + cR.cs eos ≤ wR := hwR ▸ le_max_right _ _
  rw [← hwL, ← hwR]
  have main : (sol.flux eos cL cR a).rho ≤ cL.rho * max wR 0 ∧ -(sol.flux eos cL cR a).rho ≤ cR.rho * max (-wL) 0 := by
    rcases hs with rfl | rfl
    · have hf : (Solver.flux .hll eos cL cR a).rho = fluxHll cL.rho cR.rho (cL.rho * cL.vel a) (cR.rho * cR.vel a) (min wL 0) (max wR 0) := by
        show (hllFlux eos cL cR a).rho = _
        unfold hllFlux
        simp only [(wave_eq eos cL cR a).1, (wave_eq eos cL cR a).2, ← hwL, ← hwR]
        rfl
      rw [hf]
      have e : max (-wL) 0 = -(min wL 0) := by rw [← neg_zero, max_neg_neg, neg_zero]
      rw [e]
      have c1 : min wL 0 ≤ 0 := min_le_right _ _
      have c2 : 0 ≤ max wR 0 := le_max_right _ _
      have c3 : min wL 0 ≤ wL := min_le_left _ _
      have c4 : wR ≤ max wR 0 := le_max_left _ _
      generalize min wL 0 = x at *
      generalize max wR 0 = y at *
      have hxy : 0 < y - x := by linarith
      have k1 : 0 ≤ y * (cL.rho * (y - cL.vel a)) := mul_nonneg c2 (mul_nonneg rL.le (by linarith))
      have k2 : 0 ≤ -x * (cR.rho * (y - cR.vel a)) := mul_nonneg (by linarith) (mul_nonneg rR.le (by linarith))
      have k3 : 0 ≤ y * (cL.rho * (cL.vel a - x)) := mul_nonneg c2 (mul_nonneg rL.le (by linarith))
      have k4 : 0 ≤ -x * (cR.rho * (cR.vel a - x)) := mul_nonneg (by linarith) (mul_nonneg rR.le (by linarith))
      unfold fluxHll
      constructor
      · rw [div_le_iff₀ hxy]
        linarith
      · rw [← neg_div, div_le_iff₀ hxy]
        linarith
    · obtain ⟨-, q1, q3, us, ps, h1, h2, -, -, -, pL, pR, vL, vR, hF⟩ := hllc_full he hL hR a hwL hwR
      obtain ⟨j1, j2, j3, f1, f2, f3, f4⟩ := hF _ _ rfl rfl
      have vL' := vL a
      have vR' := vR a
      rw [if_pos rfl] at vL' vR'
      generalize starState eos cL a wL us = UL at *
      generalize starState eos cR a wR us = UR at *
      have mL : UL.rhou a = UL.rho * us := by rw [← vL', Cons.vel]; field_simp
      have mR : UR.rhou a = UR.rho * us := by rw [← vR', Cons.vel]; field_simp
      have nL : cL.rhou a = cL.rho * cL.vel a := by rw [Cons.vel]; field_simp
      have nR : cR.rhou a = cR.rho * cR.vel a := by rw [Cons.vel]; field_simp
      have g1 : UL.rhou a - cL.rhou a = wL * (UL.rho - cL.rho) := j1.1
      have g3 : cR.rhou a - UR.rhou a = wR * (cR.rho - UR.rho) := j3.1
      have eL : UL.rho * (us - wL) = cL.rho * (cL.vel a - wL) := by rw [mL, nL] at g1; linear_combination g1
      have eR : UR.rho * (wR - us) = cR.rho * (wR - cR.vel a) := by rw [mR, nR] at g3; linear_combination g3
      have c1 : wR ≤ max wR 0 := le_max_left _ _
      have c2 : -wL ≤ max (-wL) 0 := le_max_left _ _
      have c3 : 0 ≤ max wR 0 := le_max_right _ _
      have c4 : 0 ≤ max (-wL) 0 := le_max_right _ _
      have z1 : 0 ≤ cL.rho * max wR 0 := mul_nonneg rL.le c3
      have z2 : 0 ≤ cR.rho * max (-wL) 0 := mul_nonneg rR.le c4
      show (hllcFlux eos cL cR a).rho ≤ _ ∧ -(hllcFlux eos cL cR a).rho ≤ _
      rcases le_total 0 wL with h | h
      · have e : (hllcFlux eos cL cR a).rho = cL.rho * cL.vel a := by rw [f1 h, ← nL]; rfl
        rw [e]
        have := mul_nonneg rL.le (show 0 ≤ cL.vel a by linarith)
        exact ⟨mul_le_mul_of_nonneg_left (by linarith) rL.le, by linarith⟩
      rcases le_total wR 0 with h' | h'
      · have e : (hllcFlux eos cL cR a).rho = cR.rho * cR.vel a := by rw [f4 h', ← nR]; rfl
        rw [e, ← mul_neg]
        have := mul_nonneg rR.le (show 0 ≤ -cR.vel a by linarith)
        exact ⟨by linarith, mul_le_mul_of_nonneg_left (by linarith) rR.le⟩
      rcases le_total 0 us with hu | hu
      · have e : (hllcFlux eos cL cR a).rho = UL.rho * us := by rw [f2 h hu, ← mL]; rfl
        rw [e]
        have := mul_nonneg pL.le hu
        refine ⟨le_trans ?_ (mul_le_mul_of_nonneg_left c1 rL.le), by linarith⟩
        refine le_of_mul_le_mul_right ?_ (show 0 < us - wL by linarith)
        have k1 := mul_nonneg (mul_nonneg rL.le hu) (show 0 ≤ wR - cL.vel a by linarith)
        have k2 := mul_nonneg (mul_nonneg rL.le (neg_nonneg.2 h)) (show 0 ≤ wR - us by linarith)
        have e2 : UL.rho * us * (us - wL) = us * (cL.rho * (cL.vel a - wL)) := by rw [← eL]; ring
        rw [e2]
        linarith
      · have e : (hllcFlux eos cL cR a).rho = UR.rho * us := by rw [f3 hu h', ← mR]; rfl
        rw [e]
        have := mul_nonneg pR.le (neg_nonneg.2 hu)
        refine ⟨by linarith, le_trans ?_ (mul_le_mul_of_nonneg_left c2 rR.le)⟩
        refine le_of_mul_le_mul_right ?_ (show 0 < wR - us by linarith)
        have k1 := mul_nonneg (mul_nonneg rR.le (neg_nonneg.2 hu)) (show 0 ≤ cR.vel a - wL by linarith)
        have k2 := mul_nonneg (mul_nonneg rR.le h') (show 0 ≤ us - wL by linarith)
        have e2 : -(UR.rho * us) * (wR - us) = -us * (cR.rho * (wR - cR.vel a)) := by rw [← eR]; ring
        rw [e2]
        linarith
  exact ⟨max_le main.1 (mul_nonneg rL.le (le_max_right _ _)), max_le main.2 (mul_nonneg rR.le (le_max_right _ _))⟩

/-- One step of the first-order scheme on a Cartesian grid without gravity, when the waves of the cell and of its neighbours cross at most `1 / (2 d)` of the cell:
a mass fraction between `m` and `M` in the cell and its neighbours is so afterwards. -/
theorem stepVal_fx_cfl {eos : EoS K} (he : eos.Lawful) (hf : eos.Fast) {sol : Solver} (hs : sol = .hll ∨ sol = .hllc) (tr : Trig K) (p : PGrid d K)
    {dt : K} {U : Cell → Fields d n K} {up : Cell → VelPres d K} {c : Cell} (hd : 0 < d) (hd3 : d ≤ 3)
    (hU : ∀ a : Fin d, ∀ t : ℤ, -1 ≤ t → t ≤ 1 → (U (nb c (ax a) t)).cons.Adm eos)
    (hup : ∀ a : Fin d, ∀ t : ℤ, -1 ≤ t → t ≤ 1 → up (nb c (ax a) t) = ⟨(toPrim eos (U (nb c (ax a) t)).cons).u, (toPrim eos (U (nb c (ax a) t)).cons).P⟩)
    (hg : ∀ a : Fin d, ∀ t : ℤ, -1 ≤ t → t ≤ 1 → ∀ b, p.grav (nb c (ax a) t) b = 0)
    (hds : ∀ a : Fin d, ∀ t : ℤ, -1 ≤ t → t ≤ 1 → ∀ b : Fin d, p.ds (nb (nb c (ax a) t) (ax b) 1) (ax b) = p.ds (nb c (ax a) t) (ax b))
    {l : Fin d → K} (hl : ∀ a, dt / p.dv c * p.ds c (ax a) = l a) (hk : 0 ≤ dt / p.dv c) (hds0 : ∀ a : Fin d, 0 ≤ p.ds c (ax a))
    (hcfl : ∀ a : Fin d, ∀ t : ℤ, -1 ≤ t → t ≤ 1 → 2 * d * l a * (|(U (nb c (ax a) t)).cons.vel a| + (U (nb c (ax a) t)).cons.cs eos) ≤ 1)
    {i : Fin n} {m M : K} (h0 : 0 ≤ m) (h1 : M ≤ 1) (hW : ∀ (a : Fin d) (t : ℤ), -1 ≤ t → t ≤ 1 → m ≤ (U (nb c (ax a) t)).fx i ∧ (U (nb c (ax a) t)).fx i ≤ M) :
    m ≤ (stepVal .constant sol eos tr .cartesian p dt U up c).fx i ∧ (stepVal .constant sol eos tr .cartesian p dt U up c).fx i ≤ M := by
  have hl0 : ∀ a, 0 ≤ l a := fun a => by rw [← hl a]; exact mul_nonneg hk (hds0 a)
  have hphys := stepVal_phys he hf hs tr p hd hU hup hg hds hl hl0 hcfl
  have hrec : ∀ a : Fin d, ∀ t : ℤ, -1 ≤ t → t ≤ 1 →
      kRecVal (exactKernels .constant sol eos tr .cartesian none) .cartesian p (dt / 2) U up (nb c (ax a) t) = fun _ _ => U (nb c (ax a) t) := fun a t h1 h2 => by
    rw [← recVal_constant he tr p (dt / 2) (hU a t h1 h2).1 (hup a t h1 h2) (hg a t h1 h2) (hds a t h1 h2)]
    funext side b
    exact kRecVal_exact hd3 p _ U up _ side b
  have n0 : ∀ a : Fin d, nb c (ax a) 0 = c := fun a => by unfold nb; simp
  have a0 : Fin d := ⟨0, hd⟩
  have hrec0 := hrec a0 0 (by norm_num) (by norm_num)
  have hU0 := hU a0 0 (by norm_num) (by norm_num)
  have hW0 := hW a0 0 (by norm_num) (by norm_num)
  have hdc := hds a0 0 (by norm_num) (by norm_num)
  rw [n0] at hrec0 hU0 hW0 hdc
  have hdK : (0 : K) < d := by exact_mod_cast hd
  rw [← kStepVal_exact hd3 (sol := sol) (tr := tr)] at hphys ⊢
  obtain ⟨q1, q2⟩ := stepVal_within (sol := sol) (eos := eos) (tr := tr) (geom := .cartesian) (fix := none) p (dt := dt) (W := U) (UP := up) (c := c) hk
    (fun a => ⟨hds0 a, by rw [hdc]; exact hds0 a⟩) (fun a t h1 h2 side b => by rw [hrec a t h1 h2]; exact (hU a t h1 h2).1.ne') hphys.1.ne' (by
      unfold massGiven
      rw [hrec0]
      have hterm : ∀ a : Fin d, dt / (p.kDirGeo .cartesian a c).dv * ((p.kDirGeo .cartesian a c).dsL *
          max (-(sol.flux eos (kRecVal (exactKernels .constant sol eos tr .cartesian none) .cartesian p (dt / 2) U up (nb c (ax a) (-1)) 1 a).cons (U c).cons a).rho) 0 +
          (p.kDirGeo .cartesian a c).dsR * max (sol.flux eos (U c).cons (kRecVal (exactKernels .constant sol eos tr .cartesian none) .cartesian p (dt / 2) U up (nb c (ax a) 1) 0 a).cons a).rho 0) ≤
          (U c).rho * (1 / d) := by
        intro a
        rw [hrec a (-1) (by norm_num) (by norm_num), hrec a 1 (by norm_num) (by norm_num)]
        have hAm := hU a (-1) (by norm_num) (by norm_num)
        have hAp := hU a 1 (by norm_num) (by norm_num)
        have b0 := hcfl a 0 (by norm_num) (by norm_num)
        have bm := hcfl a (-1) (by norm_num) (by norm_num)
        have bp := hcfl a 1 (by norm_num) (by norm_num)
        rw [n0] at b0
        have f1 := (massFlux_bounds he hs hAm hU0 a).2
        have f2 := (massFlux_bounds he hs hU0 hAp a).1
        have hm : 0 ≤ 2 * d * l a := mul_nonneg (by positivity) (hl0 a)
        have w1 : 2 * d * l a * max (-(min ((U (nb c (ax a) (-1))).cons.vel a - (U (nb c (ax a) (-1))).cons.cs eos) ((U c).cons.vel a - (U c).cons.cs eos))) 0 ≤ 1 := by
          rw [mul_max_of_nonneg _ _ hm, mul_zero]
          refine max_le ?_ zero_le_one
          rcases min_choice ((U (nb c (ax a) (-1))).cons.vel a - (U (nb c (ax a) (-1))).cons.cs eos) ((U c).cons.vel a - (U c).cons.cs eos) with h | h <;> rw [h]
          · exact (mul_le_mul_of_nonneg_left (by have := neg_le_abs ((U (nb c (ax a) (-1))).cons.vel a); linarith) hm).trans bm
          · exact (mul_le_mul_of_nonneg_left (by have := neg_le_abs ((U c).cons.vel a); linarith) hm).trans b0
        have w2 : 2 * d * l a * max (max ((U c).cons.vel a + (U c).cons.cs eos) ((U (nb c (ax a) 1)).cons.vel a + (U (nb c (ax a) 1)).cons.cs eos)) 0 ≤ 1 := by
          rw [mul_max_of_nonneg _ _ hm, mul_zero]
          refine max_le ?_ zero_le_one
          rcases max_choice ((U c).cons.vel a + (U c).cons.cs eos) ((U (nb c (ax a) 1)).cons.vel a + (U (nb c (ax a) 1)).cons.cs eos) with h | h <;> rw [h]
          · exact (mul_le_mul_of_nonneg_left (by have := le_abs_self ((U c).cons.vel a); linarith) hm).trans b0
          · exact (mul_le_mul_of_nonneg_left (by have := le_abs_self ((U (nb c (ax a) 1)).cons.vel a); linarith) hm).trans bp
        have g1 : (p.kDirGeo .cartesian a c).dv = p.dv c := rfl
        have g2 : (p.kDirGeo .cartesian a c).dsL = p.ds c (ax a) := rfl
        have g3 : (p.kDirGeo .cartesian a c).dsR = p.ds c (ax a) := hdc a
        rw [g1, g2, g3, ← mul_add, ← mul_assoc, hl a]
        have hρ : 0 < (U c).rho := hU0.1
        have r1 := mul_le_mul_of_nonneg_left f1 hm
        have r2 := mul_le_mul_of_nonneg_left f2 hm
        have s1 := mul_le_mul_of_nonneg_left w1 hρ.le
        have s2 := mul_le_mul_of_nonneg_left w2 hρ.le
        have hc : (U c).cons.rho = (U c).rho := rfl
        rw [hc] at r1 r2
        rw [mul_one_div, le_div_iff₀ hdK]
        dsimp only at r1 r2 s1 s2 ⊢
        generalize max (-(sol.flux eos (U (nb c (ax a) (-1))).cons (U c).cons a).rho) 0 = x at *
        generalize max (sol.flux eos (U c).cons (U (nb c (ax a) 1)).cons a).rho 0 = y at *
        linarith
      refine (Finset.sum_le_sum fun a _ => hterm a).trans ?_
      rw [Finset.sum_const, Finset.card_univ, Fintype.card_fin, nsmul_eq_mul, mul_one_div, mul_div_assoc', mul_div_cancel_left₀ _ hdK.ne'])
    hW0 hW
  rw [q2, clamp_within h0 h1 q1]
  exact q1

end Heracles

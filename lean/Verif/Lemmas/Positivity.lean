import Verif.Props.Riemann
import Verif.Props.Uniform
import Verif.Props.Runs

/-!
# Positivity of one step

The states of positive density and internal energy form a convex cone, cut out by linear functionals of density, momentum and energy.
-/

namespace Heracles

variable {d n : ℕ} {K : Type}

section Cone
variable [Field K]

/-- A linear functional of a conservative state. -/
def Cons.lin (k : K) (w : Fin d → K) (e : K) (c : Cons d K) : K := k * c.rho + ∑ i, w i * c.rhou i + e * c.E

/-- The same functional of a flux. -/
def Flux.lin (k : K) (w : Fin d → K) (e : K) (f : Flux d K) : K := k * f.rho + ∑ i, w i * f.rhou i + e * f.E

theorem Jump.lin {U U' : Cons d K} {F F' : Flux d K} {S : K} (h : Jump U U' F F' S) (k : K) (w : Fin d → K) (e : K) :
    F'.lin k w e - F.lin k w e = S * (U'.lin k w e - U.lin k w e) := by
  obtain ⟨h1, h2, h3⟩ := h
  have hs : ∑ i, w i * F'.rhou i - ∑ i, w i * F.rhou i = S * (∑ i, w i * U'.rhou i - ∑ i, w i * U.rhou i) := by
    rw [← Finset.sum_sub_distrib, ← Finset.sum_sub_distrib, Finset.mul_sum]
    exact Finset.sum_congr rfl fun i _ => by linear_combination w i * h2 i
  unfold Cons.lin Flux.lin
  linear_combination k * h1 + hs + e * h3

variable [LinearOrder K] [IsStrictOrderedRing K]

/-- Positive density and internal energy. -/
def Cons.Phys (c : Cons d K) : Prop := 0 < c.rho ∧ 0 < c.eint

/-- The functionals that are positive on the cone. -/
def PosFun (k : K) (w : Fin d → K) (e : K) : Prop :=
  (k = 1 ∧ w = 0 ∧ e = 0) ∨ ∃ v : Fin d → K, k = (∑ i, v i ^ 2) / 2 ∧ w = -v ∧ e = 1

omit [LinearOrder K] [IsStrictOrderedRing K] in
theorem lin_rho (c : Cons d K) : c.lin 1 0 0 = c.rho := by simp [Cons.lin]

theorem lin_energy {c : Cons d K} (h : 0 < c.rho) (v : Fin d → K) :
    c.lin ((∑ i, v i ^ 2) / 2) (-v) 1 = c.eint + c.rho * (∑ i, (c.vel i - v i) ^ 2) / 2 := by
  have hr := h.ne'
  have e : ∀ i, (c.vel i - v i) ^ 2 = c.rhou i ^ 2 * (1 / c.rho ^ 2) + v i * c.rhou i * (-2 / c.rho) + v i ^ 2 := fun i => by
    unfold Cons.vel; field_simp; ring
  simp only [e, Finset.sum_add_distrib, ← Finset.sum_mul]
  simp only [Cons.lin, Cons.eint, Pi.neg_apply, neg_mul, Finset.sum_neg_distrib]
  field_simp
  ring

/-- The cone is the set where these functionals are positive. -/
theorem phys_iff {c : Cons d K} : c.Phys ↔ ∀ k w e, PosFun k w e → 0 < c.lin k w e := by
  constructor
  · rintro ⟨h1, h2⟩ k w e (⟨rfl, rfl, rfl⟩ | ⟨v, rfl, rfl, rfl⟩)
    · rwa [lin_rho]
    · rw [lin_energy h1]
      have : 0 ≤ ∑ i, (c.vel i - v i) ^ 2 := Finset.sum_nonneg fun i _ => sq_nonneg _
      positivity
  · intro h
    have h1 : 0 < c.rho := by rw [← lin_rho]; exact h _ _ _ (Or.inl ⟨rfl, rfl, rfl⟩)
    have h2 := h _ _ _ (Or.inr ⟨c.vel, rfl, rfl, rfl⟩)
    rw [lin_energy h1] at h2
    exact ⟨h1, by simpa using h2⟩

/-- What a Riemann solver has to give: two intermediate states of the cone between the waves, the jump relations, and the flux of the state
at rest in the frame of the face. -/
structure Fan (cL cR : Cons d K) (fL fR F : Flux d K) (wL wR : K) : Prop where
  fan : ∃ (us : K) (UL UR : Cons d K) (FL FR : Flux d K), wL ≤ us ∧ us ≤ wR ∧ UL.Phys ∧ UR.Phys ∧
    Jump cL UL fL FL wL ∧ Jump UL UR FL FR us ∧ Jump UR cR FR fR wR ∧
    (0 ≤ wL → F = fL) ∧ (wL ≤ 0 → 0 ≤ us → F = FL) ∧ (us ≤ 0 → 0 ≤ wR → F = FR) ∧ (wR ≤ 0 → F = fR)

/-- Convex combination of four positive numbers. -/
theorem comb_pos {x a b c m0 m1 m2 m3 : K} (hx : 0 < x) (ha : 0 < a) (hb : 0 < b) (hc : 0 < c) (h0 : 0 ≤ m0) (h1 : 0 ≤ m1) (h2 : 0 ≤ m2)
    (h3 : 0 ≤ m3) (hs : m0 + m1 + m2 + m3 = 1) : 0 < m0 * x + m1 * a + m2 * b + m3 * c := by
  have k0 := mul_nonneg h0 hx.le
  have k1 := mul_nonneg h1 ha.le
  have k2 := mul_nonneg h2 hb.le
  have k3 := mul_nonneg h3 hc.le
  rcases h0.lt_or_eq with h | h
  · have := mul_pos h hx; linarith
  rcases h1.lt_or_eq with h' | h'
  · have := mul_pos h' ha; linarith
  rcases h2.lt_or_eq with h'' | h''
  · have := mul_pos h'' hb; linarith
  have := mul_pos (show 0 < m3 by linarith) hc
  linarith

/-- The part of a cell next to its right face, of width `1 / m` of the waves. -/
theorem Fan.left {cL cR : Cons d K} {fL fR F : Flux d K} {wL wR m : K} (h : Fan cL cR fL fR F wL wR) (hL : cL.Phys) (hR : cR.Phys)
    (hm : 0 ≤ m) (h1 : m * (-wL) ≤ 1) {k e : K} {w : Fin d → K} (hp : PosFun k w e) :
    0 < cL.lin k w e - m * (F.lin k w e - fL.lin k w e) := by
  obtain ⟨us, UL, UR, FL, FR, h2, h3, pL, pR, j1, j2, j3, e1, e2, e3, e4⟩ := h.fan
  have xL := phys_iff.1 hL _ _ _ hp
  have xR := phys_iff.1 hR _ _ _ hp
  have yL := phys_iff.1 pL _ _ _ hp
  have yR := phys_iff.1 pR _ _ _ hp
  have j1 := j1.lin k w e
  have j2 := j2.lin k w e
  have j3 := j3.lin k w e
  rcases le_total 0 wL with h0 | h0
  · rw [e1 h0]; simpa using xL
  rcases le_total 0 us with h4 | h4
  · rw [e2 h0 h4, j1]
    have := comb_pos xL yL yR xR (m0 := 1 - m * (-wL)) (m1 := m * (-wL)) (m2 := 0) (m3 := 0) (by linarith) (mul_nonneg hm (by linarith)) le_rfl le_rfl (by ring)
    linarith
  rcases le_total 0 wR with h5 | h5
  · rw [e3 h4 h5, show FR.lin k w e - fL.lin k w e = us * (UR.lin k w e - UL.lin k w e) + wL * (UL.lin k w e - cL.lin k w e) by rw [← j1, ← j2]; ring]
    have := comb_pos xL yL yR xR (m0 := 1 - m * (-wL)) (m1 := m * (us - wL)) (m2 := m * (-us)) (m3 := 0) (by linarith)
      (mul_nonneg hm (by linarith)) (mul_nonneg hm (by linarith)) le_rfl (by ring)
    linarith
  · rw [e4 h5, show fR.lin k w e - fL.lin k w e = wR * (cR.lin k w e - UR.lin k w e) + us * (UR.lin k w e - UL.lin k w e)
      + wL * (UL.lin k w e - cL.lin k w e) by rw [← j1, ← j2, ← j3]; ring]
    have := comb_pos xL yL yR xR (m0 := 1 - m * (-wL)) (m1 := m * (us - wL)) (m2 := m * (wR - us)) (m3 := m * (-wR)) (by linarith)
      (mul_nonneg hm (by linarith)) (mul_nonneg hm (by linarith)) (mul_nonneg hm (by linarith)) (by ring)
    linarith

/-- The part of a cell next to its left face. -/
theorem Fan.right {cL cR : Cons d K} {fL fR F : Flux d K} {wL wR m : K} (h : Fan cL cR fL fR F wL wR) (hL : cL.Phys) (hR : cR.Phys)
    (hm : 0 ≤ m) (h1 : m * wR ≤ 1) {k e : K} {w : Fin d → K} (hp : PosFun k w e) :
    0 < cR.lin k w e + m * (F.lin k w e - fR.lin k w e) := by
  obtain ⟨us, UL, UR, FL, FR, h2, h3, pL, pR, j1, j2, j3, e1, e2, e3, e4⟩ := h.fan
  have xL := phys_iff.1 hL _ _ _ hp
  have xR := phys_iff.1 hR _ _ _ hp
  have yL := phys_iff.1 pL _ _ _ hp
  have yR := phys_iff.1 pR _ _ _ hp
  have j1 := j1.lin k w e
  have j2 := j2.lin k w e
  have j3 := j3.lin k w e
  rcases le_total wR 0 with h0 | h0
  · rw [e4 h0]; simpa using xR
  rcases le_total us 0 with h4 | h4
  · rw [e3 h4 h0, show FR.lin k w e - fR.lin k w e = -(wR * (cR.lin k w e - UR.lin k w e)) by rw [← j3]; ring]
    have := comb_pos xR yR yL xL (m0 := 1 - m * wR) (m1 := m * wR) (m2 := 0) (m3 := 0) (by linarith) (mul_nonneg hm (by linarith)) le_rfl le_rfl (by ring)
    linarith
  rcases le_total wL 0 with h5 | h5
  · rw [e2 h5 h4, show FL.lin k w e - fR.lin k w e = -(us * (UR.lin k w e - UL.lin k w e)) - wR * (cR.lin k w e - UR.lin k w e) by
      rw [← j3, ← j2]; ring]
    have := comb_pos xR yR yL xL (m0 := 1 - m * wR) (m1 := m * (wR - us)) (m2 := m * us) (m3 := 0) (by linarith)
      (mul_nonneg hm (by linarith)) (mul_nonneg hm (by linarith)) le_rfl (by ring)
    linarith
  · rw [e1 h5, show fL.lin k w e - fR.lin k w e = -(wR * (cR.lin k w e - UR.lin k w e)) - us * (UR.lin k w e - UL.lin k w e)
      - wL * (UL.lin k w e - cL.lin k w e) by rw [← j1, ← j2, ← j3]; ring]
    have := comb_pos xR yR yL xL (m0 := 1 - m * wR) (m1 := m * (wR - us)) (m2 := m * (us - wL)) (m3 := m * wL) (by linarith)
      (mul_nonneg hm (by linarith)) (mul_nonneg hm (by linarith)) (mul_nonneg hm (by linarith)) (by ring)
    linarith

omit [LinearOrder K] [IsStrictOrderedRing K] in
theorem jump_self (U : Cons d K) (F : Flux d K) (S : K) : Jump U U F F S := ⟨by ring, fun i => by ring, by ring⟩

/-- HLL and HLLC. -/
theorem fan_of {eos : EoS K} (he : eos.Lawful) (hf : eos.Fast) {sol : Solver} (hs : sol = .hll ∨ sol = .hllc) {cL cR : Cons d K}
    (hL : cL.Adm eos) (hR : cR.Adm eos) (a : Fin d) :
    Fan cL cR (physFlux eos cL a) (physFlux eos cR a) (sol.flux eos cL cR a) (min (cL.vel a - cL.cs eos) (cR.vel a - cR.cs eos))
      (max (cL.vel a + cL.cs eos) (cR.vel a + cR.cs eos)) := by
  rcases hs with rfl | rfl
  · obtain ⟨h1, -, U, F, p1, p2, j1, j2, f1, f2, f3⟩ := C61_hll_positive he hf hL hR a
    exact ⟨_, U, U, F, F, le_rfl, h1.le, ⟨p1, p2⟩, ⟨p1, p2⟩, j1, jump_self _ _ _, j2, f1, fun h h' => f2 h (h'.trans h1.le), fun h h' => f2 h h', f3⟩
  · obtain ⟨-, b1, b3, us, ps, h1, h2, -, -, -, rL, rR, -, -, hF⟩ := hllc_full he hL hR a rfl rfl
    obtain ⟨j1, j2, j3, f1, f2, f3, f4⟩ := hF _ _ rfl rfl
    have k1 : min (cL.vel a - cL.cs eos) (cR.vel a - cR.cs eos) ≤ cL.vel a - cL.cs eos := min_le_left _ _
    have k2 : cR.vel a + cR.cs eos ≤ max (cL.vel a + cL.cs eos) (cR.vel a + cR.cs eos) := le_max_right _ _
    refine ⟨us, _, _, _, _, h1.le, h2.le, ⟨rL, ?_⟩, ⟨rR, ?_⟩, j1, j2, j3, f1, f2, f3, f4⟩
    · apply starState_eint_pos he hf hL (div_pos_of_neg_of_neg b1 (by linarith))
      have := (hL.sound he).1
      nlinarith
    · apply starState_eint_pos he hf hR (div_pos b3 (by linarith))
      have := (hR.sound he).1
      nlinarith

end Cone

section Step
variable [Field K] [LinearOrder K] [IsStrictOrderedRing K]

/-- Without slopes the face values are the cell value. -/
theorem reconVal_constant (dx : Fin 3 → ℤ → K) (v : Cell → K) (c : Cell) (side : Fin 2) (a : Fin d) :
    reconVal .constant dx v c side a = v c := by
  unfold reconVal reconFace Limiter.slope
  dsimp only
  split <;> ring

/-- Where all slopes vanish, and without gravity, the predictor changes nothing: the face states are the cell state. -/
theorem recVal_flat (lim : Limiter) {eos : EoS K} (he : eos.Lawful) (tr : Trig K) (p : PGrid d K) (dt : K) {U : Cell → Fields d n K} {up : Cell → VelPres d K} {c : Cell}
    (h1 : ∀ side (a : Fin d), reconVal lim p.dx (fun c => (U c).rho) c side a = (U c).rho)
    (h2 : ∀ side (a : Fin d) i, reconVal lim p.dx (fun c => (U c).fx i) c side a = (U c).fx i)
    (h3 : ∀ side (a : Fin d) i, reconVal lim p.dx (fun c => (up c).u i) c side a = (up c).u i)
    (h4 : ∀ side (a : Fin d), reconVal lim p.dx (fun c => (up c).P) c side a = (up c).P)
    (hr : 0 < (U c).rho) (hup : up c = ⟨(toPrim eos (U c).cons).u, (toPrim eos (U c).cons).P⟩) (hg : ∀ a, p.grav c a = 0)
    (hds : ∀ a : Fin d, p.ds (nb c (ax a) 1) (ax a) = p.ds c (ax a)) :
    recVal lim eos tr .cartesian p dt U up c = fun _ _ => U c := by
  have hc : ∀ side a, faceFields lim eos p U up c side a = U c := by
    intro side a
    have h := toCons_toPrim he (c := (U c).cons) hr
    have e : toCons eos (⟨(U c).rho, (up c).u, (up c).P⟩ : Prim d K) = (U c).cons := by rw [hup]; exact h
    unfold faceFields faceUP
    simp only [h1, h2, h3, h4]
    rw [e]
    rfl
  have hq : ∀ side a, faceUP lim p up c side a = up c := by
    intro side a
    unfold faceUP
    simp only [h3, h4]
  funext side a
  unfold recVal hanVal
  simp only [hc, hq]
  have z : ∀ (b : Fin d) (f : K), fluxDiff (p.dirGeo .cartesian b c) (dt / p.dv c) f f = 0 := fun b f => by
    unfold fluxDiff PGrid.dirGeo
    simp only [hds]
    ring
  have hm : ∀ (b i : Fin d) pL (f : Flux d K), momDiff tr .cartesian (p.dirGeo .cartesian b c) (dt / p.dv c) pL pL f f b i = 0 := fun b i pL f => by
    unfold momDiff
    rw [z]
    simp
  simp only [z, hm, hg, mul_zero, zero_mul, ite_self, add_zero, Finset.sum_const_zero]
  have hfx : ∀ i, (U c).fx i * (U c).rho / (U c).rho = (U c).fx i := fun i => mul_div_cancel_right₀ _ hr.ne'
  simp only [hfx]

/-- Without slopes and without gravity the predictor changes nothing: the face states are the cell state. -/
theorem recVal_constant {eos : EoS K} (he : eos.Lawful) (tr : Trig K) (p : PGrid d K) (dt : K) {U : Cell → Fields d n K} {up : Cell → VelPres d K} {c : Cell}
    (hr : 0 < (U c).rho) (hup : up c = ⟨(toPrim eos (U c).cons).u, (toPrim eos (U c).cons).P⟩) (hg : ∀ a, p.grav c a = 0)
    (hds : ∀ a : Fin d, p.ds (nb c (ax a) 1) (ax a) = p.ds c (ax a)) :
    recVal .constant eos tr .cartesian p dt U up c = fun _ _ => U c :=
  recVal_flat .constant he tr p dt (fun _ _ => reconVal_constant _ _ _ _ _) (fun _ _ _ => reconVal_constant _ _ _ _ _)
    (fun _ _ _ => reconVal_constant _ _ _ _ _) (fun _ _ => reconVal_constant _ _ _ _ _) hr hup hg hds

/-- One step of the first-order scheme on a Cartesian grid without gravity, when the waves of the cell and of its neighbours cross at most
`1 / (2 d)` of the cell: density and internal energy stay positive. -/
theorem stepVal_phys {eos : EoS K} (he : eos.Lawful) (hf : eos.Fast) {sol : Solver} (hs : sol = .hll ∨ sol = .hllc) (tr : Trig K) (p : PGrid d K)
    {dt : K} {U : Cell → Fields d n K} {up : Cell → VelPres d K} {c : Cell} (hd : 0 < d)
    (hU : ∀ a : Fin d, ∀ t : ℤ, -1 ≤ t → t ≤ 1 → (U (nb c (ax a) t)).cons.Adm eos)
    (hup : ∀ a : Fin d, ∀ t : ℤ, -1 ≤ t → t ≤ 1 → up (nb c (ax a) t) = ⟨(toPrim eos (U (nb c (ax a) t)).cons).u, (toPrim eos (U (nb c (ax a) t)).cons).P⟩)
    (hg : ∀ a : Fin d, ∀ t : ℤ, -1 ≤ t → t ≤ 1 → ∀ b, p.grav (nb c (ax a) t) b = 0)
    (hds : ∀ a : Fin d, ∀ t : ℤ, -1 ≤ t → t ≤ 1 → ∀ b : Fin d, p.ds (nb (nb c (ax a) t) (ax b) 1) (ax b) = p.ds (nb c (ax a) t) (ax b))
    {l : Fin d → K} (hl : ∀ a, dt / p.dv c * p.ds c (ax a) = l a) (hl0 : ∀ a, 0 ≤ l a)
    (hcfl : ∀ a : Fin d, ∀ t : ℤ, -1 ≤ t → t ≤ 1 → 2 * d * l a * (|(U (nb c (ax a) t)).cons.vel a| + (U (nb c (ax a) t)).cons.cs eos) ≤ 1) :
    (stepVal .constant sol eos tr .cartesian p dt U up c).cons.Phys := by
  have hrec : ∀ a : Fin d, ∀ t : ℤ, -1 ≤ t → t ≤ 1 →
      recVal .constant eos tr .cartesian p (dt / 2) U up (nb c (ax a) t) = fun _ _ => U (nb c (ax a) t) := fun a t h1 h2 =>
    recVal_constant he tr p _ (hU a t h1 h2).1 (hup a t h1 h2) (hg a t h1 h2) (hds a t h1 h2)
  have n0 : ∀ a : Fin d, nb c (ax a) 0 = c := fun a => by
    funext b
    unfold nb
    by_cases h : b = ax a
    · subst h; simp
    · rw [Function.update_of_ne h]
  have a0 : Fin d := ⟨0, hd⟩
  have hrec0 := hrec a0 0 (by norm_num) (by norm_num)
  have hU0 := hU a0 0 (by norm_num) (by norm_num)
  have hg0 := hg a0 0 (by norm_num) (by norm_num)
  have hds0 := hds a0 0 (by norm_num) (by norm_num)
  rw [n0] at hrec0 hU0 hg0 hds0
  have phys : ∀ {x : Cons d K}, x.Adm eos → x.Phys := fun h => ⟨h.1, eint_pos he hf h⟩
  set FL : Fin d → Flux d K := fun a => sol.flux eos (U (nb c (ax a) (-1))).cons (U c).cons a with hFL
  set FR : Fin d → Flux d K := fun a => sol.flux eos (U c).cons (U (nb c (ax a) 1)).cons a with hFR
  refine phys_iff.2 fun k w e hp => ?_
  have key : (stepVal .constant sol eos tr .cartesian p dt U up c).cons.lin k w e =
      (U c).cons.lin k w e + ∑ a, l a * ((FL a).lin k w e - (FR a).lin k w e) := by
    unfold stepVal godVal
    have hm1 := fun a : Fin d => hrec a (-1) (by norm_num) (by norm_num)
    have hp1 := fun a : Fin d => hrec a 1 (by norm_num) (by norm_num)
    have fd : ∀ (a : Fin d) (f g : K), fluxDiff (p.dirGeo .cartesian a c) (dt / p.dv c) f g = l a * (f - g) := fun a f g => by
      unfold fluxDiff PGrid.dirGeo
      simp only [hds0]
      rw [← hl a]
      ring
    have md : ∀ (a i : Fin d) pL pR (f g : Flux d K),
        momDiff tr .cartesian (p.dirGeo .cartesian a c) (dt / p.dv c) pL pR f g a i = l a * (f.rhou i - g.rhou i) := fun a i pL pR f g => by
      unfold momDiff
      rw [fd]
      simp
    simp only [hrec0, hm1, hp1, fd, md, hg0, mul_zero, zero_mul, ite_self, add_zero]
    simp only [Fields.cons, Cons.lin, Flux.lin, mul_add, mul_sub, Finset.sum_add_distrib, Finset.sum_sub_distrib, Finset.mul_sum]
    have c1 : ∀ G : Fin d → Flux d K, ∑ i, ∑ a, w i * (l a * (G a).rhou i) = ∑ a, ∑ i, l a * (w i * (G a).rhou i) := fun G => by
      rw [Finset.sum_comm]
      exact Finset.sum_congr rfl fun a _ => Finset.sum_congr rfl fun i _ => by ring
    have c2 : ∀ (q : K) (G : Fin d → K), ∑ a, q * (l a * G a) = ∑ a, l a * (q * G a) := fun q G => Finset.sum_congr rfl fun a _ => by ring
    have c1L := c1 FL
    have c1R := c1 FR
    have c2L := c2 k fun a => (FL a).rho
    have c2R := c2 k fun a => (FR a).rho
    have c3L := c2 e fun a => (FL a).E
    have c3R := c2 e fun a => (FR a).E
    simp only [hFL, hFR, Fields.cons] at c1L c1R c2L c2R c3L c3R ⊢
    linear_combination c1L - c1R + c2L - c2R + c3L - c3R
  rw [key]
  have hdK : (0 : K) < d := by exact_mod_cast hd
  have hpart : ∀ a : Fin d, 0 < (1 / d) * (U c).cons.lin k w e + l a * ((FL a).lin k w e - (FR a).lin k w e) := by
    intro a
    have hm : 0 ≤ 2 * d * l a := mul_nonneg (by positivity) (hl0 a)
    have hA := fun t h1 h2 => hU a t h1 h2
    have hAm := hA (-1) (by norm_num) (by norm_num)
    have hAp := hA 1 (by norm_num) (by norm_num)
    have b0 := hcfl a 0 (by norm_num) (by norm_num)
    have bm := hcfl a (-1) (by norm_num) (by norm_num)
    have bp := hcfl a 1 (by norm_num) (by norm_num)
    rw [n0] at b0
    have q1 := (fan_of he hf hs hAm hU0 a).right (phys hAm) (phys hU0) hm (by
      rcases max_choice ((U (nb c (ax a) (-1))).cons.vel a + (U (nb c (ax a) (-1))).cons.cs eos) ((U c).cons.vel a + (U c).cons.cs eos) with h | h <;> rw [h]
      · exact (mul_le_mul_of_nonneg_left (by have := le_abs_self ((U (nb c (ax a) (-1))).cons.vel a); linarith) hm).trans bm
      · exact (mul_le_mul_of_nonneg_left (by have := le_abs_self ((U c).cons.vel a); linarith) hm).trans b0) hp
    have q2 := (fan_of he hf hs hU0 hAp a).left (phys hU0) (phys hAp) hm (by
      rcases min_choice ((U c).cons.vel a - (U c).cons.cs eos) ((U (nb c (ax a) 1)).cons.vel a - (U (nb c (ax a) 1)).cons.cs eos) with h | h <;> rw [h]
      · exact (mul_le_mul_of_nonneg_left (by have := neg_le_abs ((U c).cons.vel a); linarith) hm).trans b0
      · exact (mul_le_mul_of_nonneg_left (by have := neg_le_abs ((U (nb c (ax a) 1)).cons.vel a); linarith) hm).trans bp) hp
    have hsum := mul_pos (show 0 < 1 / (2 * (d : K)) by positivity) (add_pos q1 q2)
    have : (1 / d) * (U c).cons.lin k w e + l a * ((FL a).lin k w e - (FR a).lin k w e) =
        1 / (2 * d) * ((U c).cons.lin k w e + 2 * d * l a * ((FL a).lin k w e - (physFlux eos (U c).cons a).lin k w e)
          + ((U c).cons.lin k w e - 2 * d * l a * ((FR a).lin k w e - (physFlux eos (U c).cons a).lin k w e))) := by
      field_simp
      ring
    rw [this]
    exact hsum
  have hsum := Finset.sum_pos (fun a _ => hpart a) ⟨a0, Finset.mem_univ _⟩
  rw [Finset.sum_add_distrib, Finset.sum_const, Finset.card_univ, Fintype.card_fin, nsmul_eq_mul, ← mul_assoc, mul_one_div_cancel hdK.ne', one_mul] at hsum
  exact hsum

end Step

end Heracles

import Verif.Spec.Units
import Verif.Lemmas.Reflection

/-!
# The scheme in other units
-/

namespace Heracles

variable {d n : ℕ} {K : Type} [Field K] [LinearOrder K] [IsStrictOrderedRing K] {k : Units K} {eos eos' : EoS K}

theorem Units.Pos.vel (h : k.Pos) : 0 < k.vel := div_pos h.len h.time

theorem Units.Pos.mom (h : k.Pos) : 0 < k.mom := mul_pos h.dens h.vel

theorem Units.Pos.pres (h : k.Pos) : 0 < k.pres := mul_pos h.dens (pow_pos h.vel 2)

theorem Cons.scale_ek (h : k.Pos) (c : Cons d K) : (c.scale k).ek = k.pres * c.ek := by
  simp only [Cons.ek, Cons.scale]
  have : ∑ i, k.mom * c.rhou i * (k.mom * c.rhou i) = k.dens * (k.pres * ∑ i, c.rhou i * c.rhou i) := by
    rw [Finset.mul_sum, Finset.mul_sum]
    exact Finset.sum_congr rfl fun i _ => by unfold Units.mom Units.pres; ring
  rw [this, mul_div_mul_left _ _ h.dens.ne', mul_div_assoc, mul_div_assoc]

omit [LinearOrder K] [IsStrictOrderedRing K] in
theorem Prim.scale_ek (p : Prim d K) : (p.scale k).ek = k.pres * p.ek := by
  simp only [Prim.ek, Prim.scale]
  have : ∑ i, k.vel * p.u i * (k.vel * p.u i) = k.vel ^ 2 * ∑ i, p.u i * p.u i := by
    rw [Finset.mul_sum]
    exact Finset.sum_congr rfl fun i _ => by ring
  rw [this]
  unfold Units.pres
  ring

theorem Cons.scale_evol (h : k.Pos) (c : Cons d K) : (c.scale k).evol = k.pres * c.evol := by
  unfold Cons.evol
  rw [Cons.scale_ek h, mul_sub]
  rfl

theorem div_dens (h : k.Pos) (m rho : K) : k.mom * m / (k.dens * rho) = k.vel * (m / rho) := by
  unfold Units.mom
  rw [mul_assoc, mul_div_mul_left _ _ h.dens.ne', mul_div_assoc]

theorem toPrim_scale (h : k.Pos) (he : eos.Rescaled k eos') (c : Cons d K) : toPrim eos' (c.scale k) = (toPrim eos c).scale k := by
  apply Prim.ext
  · rfl
  · funext i
    exact div_dens h _ _
  · show eos'.presFromEvol (k.dens * c.rho) (c.scale k).evol = _
    rw [Cons.scale_evol h, he.pres]
    rfl

omit [LinearOrder K] [IsStrictOrderedRing K] in
theorem toCons_scale (he : eos.Rescaled k eos') (p : Prim d K) : toCons eos' (p.scale k) = (toCons eos p).scale k := by
  apply Cons.ext
  · rfl
  · funext i
    show k.dens * p.rho * (k.vel * p.u i) = k.mom * (p.rho * p.u i)
    unfold Units.mom
    ring
  · show eos'.evolFromPres (k.dens * p.rho) (k.pres * p.P) + (p.scale k).ek = k.pres * (eos.evolFromPres p.rho p.P + p.ek)
    rw [he.evol, Prim.scale_ek, mul_add]

omit [LinearOrder K] [IsStrictOrderedRing K] in
theorem fluxPrim_scale (he : eos.Rescaled k eos') (p : Prim d K) (a : Fin d) : fluxPrim eos' (p.scale k) a = (fluxPrim eos p a).scale k := by
  apply Flux.ext
  · show k.dens * p.rho * (k.vel * p.u a) = k.mom * (p.rho * p.u a)
    unfold Units.mom
    ring
  · funext i
    simp only [fluxPrim, Flux.scale, Prim.scale]
    by_cases hi : i = a
    · subst hi
      rw [Function.update_self, Function.update_self]
      unfold Units.pres
      ring
    · rw [Function.update_of_ne hi, Function.update_of_ne hi]
      unfold Units.pres
      ring
  · show k.vel * p.u a * ((p.scale k).ek + eos'.evolFromPres (k.dens * p.rho) (k.pres * p.P) + k.pres * p.P) = k.pres * k.vel * (p.u a * (_ + p.P))
    rw [he.evol, Prim.scale_ek]
    ring

theorem waveL_scale (h : k.Pos) (he : eos.Rescaled k eos') (pL pR : Prim d K) (a : Fin d) :
    waveL eos' (pL.scale k) (pR.scale k) a = k.vel * waveL eos pL pR a := by
  simp only [waveL, Prim.scale, he.sound]
  rw [mul_min_of_nonneg _ _ h.vel.le, mul_sub, mul_sub]

theorem waveR_scale (h : k.Pos) (he : eos.Rescaled k eos') (pL pR : Prim d K) (a : Fin d) :
    waveR eos' (pL.scale k) (pR.scale k) a = k.vel * waveR eos pL pR a := by
  simp only [waveR, Prim.scale, he.sound]
  rw [mul_max_of_nonneg _ _ h.vel.le, mul_add, mul_add]

theorem fluxHll_scale (h : k.Pos) (q uL uR fL fR wL wR : K) :
    fluxHll (q * uL) (q * uR) (q * k.vel * fL) (q * k.vel * fR) (k.vel * wL) (k.vel * wR) = q * k.vel * fluxHll uL uR fL fR wL wR := by
  unfold fluxHll
  rw [show k.vel * wR * (q * k.vel * fL) - k.vel * wL * (q * k.vel * fR) + k.vel * wL * (k.vel * wR) * (q * uR - q * uL) =
    k.vel * (q * k.vel * (wR * fL - wL * fR + wL * wR * (uR - uL))) by ring, ← mul_sub, mul_div_mul_left _ _ h.vel.ne', mul_div_assoc]

omit [LinearOrder K] [IsStrictOrderedRing K] in
theorem Units.mom_vel (k : Units K) : k.mom * k.vel = k.pres := by unfold Units.mom Units.pres; ring

omit [LinearOrder K] [IsStrictOrderedRing K] in
theorem Units.dens_vel (k : Units K) : k.dens * k.vel = k.mom := rfl

theorem hllcUstar_scale (h : k.Pos) (pL pR : Prim d K) (a : Fin d) (wL wR : K) :
    hllcUstar (pL.scale k) (pR.scale k) a (k.vel * wL) (k.vel * wR) = k.vel * hllcUstar pL pR a wL wR := by
  simp only [hllcUstar, Prim.scale]
  rw [show k.pres * pR.P - k.pres * pL.P + k.dens * pL.rho * (k.vel * wL - k.vel * pL.u a) * (k.vel * pL.u a) -
      k.dens * pR.rho * (k.vel * wR - k.vel * pR.u a) * (k.vel * pR.u a) =
      k.mom * (k.vel * (pR.P - pL.P + pL.rho * (wL - pL.u a) * pL.u a - pR.rho * (wR - pR.u a) * pR.u a)) by unfold Units.mom Units.pres; ring,
    show k.dens * pL.rho * (k.vel * wL - k.vel * pL.u a) - k.dens * pR.rho * (k.vel * wR - k.vel * pR.u a) =
      k.mom * (pL.rho * (wL - pL.u a) - pR.rho * (wR - pR.u a)) by unfold Units.mom; ring, mul_div_mul_left _ _ h.mom.ne', mul_div_assoc]

theorem hllcPstar_scale (h : k.Pos) (pL pR : Prim d K) (a : Fin d) (wL wR : K) :
    hllcPstar (pL.scale k) (pR.scale k) a (k.vel * wL) (k.vel * wR) = k.pres * hllcPstar pL pR a wL wR := by
  simp only [hllcPstar, hllcUstar_scale h]
  simp only [Prim.scale]
  unfold Units.pres
  ring

theorem hllcStar_scale (h : k.Pos) (c : Cons d K) (p : Prim d K) (f : Flux d K) (a : Fin d) (S u q : K) :
    hllcStar (c.scale k) (p.scale k) (f.scale k) a (k.vel * S) (k.vel * u) (k.pres * q) = (hllcStar c p f a S u q).scale k := by
  have e1 : k.dens * c.rho * (k.vel * S - k.vel * p.u a) / (k.vel * S - k.vel * u) = k.dens * (c.rho * (S - p.u a) / (S - u)) := by
    rw [show k.dens * c.rho * (k.vel * S - k.vel * p.u a) = k.vel * (k.dens * (c.rho * (S - p.u a))) by ring, ← mul_sub, mul_div_mul_left _ _ h.vel.ne', mul_div_assoc]
  have e2 : (k.vel * S - k.vel * p.u a) / (k.vel * S - k.vel * u) = (S - p.u a) / (S - u) := by
    rw [← mul_sub, ← mul_sub, mul_div_mul_left _ _ h.vel.ne']
  have e3 : (k.vel * u - k.vel * p.u a) / (k.vel * S - k.vel * u) = (u - p.u a) / (S - u) := by
    rw [← mul_sub, ← mul_sub, mul_div_mul_left _ _ h.vel.ne']
  apply Flux.ext
  · simp only [hllcStar, Cons.scale, Prim.scale, Flux.scale, fluxHllc, e1]
    unfold Units.mom
    ring
  · funext i
    simp only [hllcStar, Cons.scale, Prim.scale, Flux.scale, e1]
    by_cases hi : i = a
    · subst hi
      rw [Function.update_self, Function.update_self]
      unfold Units.pres
      ring
    · rw [Function.update_of_ne hi, Function.update_of_ne hi]
      unfold Units.pres
      ring
  · simp only [hllcStar, Cons.scale, Prim.scale, Flux.scale, fluxHllc, e2, e3]
    unfold Units.pres
    ring

/-- Every solver gives the flux of the new units. -/
theorem flux_scale (h : k.Pos) (s : Solver) (he : eos.Rescaled k eos') (cL cR : Cons d K) (a : Fin d) :
    s.flux eos' (cL.scale k) (cR.scale k) a = (s.flux eos cL cR a).scale k := by
  cases s
  · show hllFlux eos' _ _ a = (hllFlux eos cL cR a).scale k
    unfold hllFlux
    simp only [toPrim_scale h he, waveL_scale h he, waveR_scale h he, fluxPrim_scale he]
    have m1 : ∀ x : K, min (k.vel * x) 0 = k.vel * min x 0 := fun x => by rw [mul_min_of_nonneg _ _ h.vel.le, mul_zero]
    have m2 : ∀ x : K, max (k.vel * x) 0 = k.vel * max x 0 := fun x => by rw [mul_max_of_nonneg _ _ h.vel.le, mul_zero]
    rw [m1, m2]
    apply Flux.ext
    · exact fluxHll_scale h k.dens ..
    · funext i
      have := fluxHll_scale h k.mom (cL.rhou i) (cR.rhou i) ((fluxPrim eos (toPrim eos cL) a).rhou i) ((fluxPrim eos (toPrim eos cR) a).rhou i)
        (min (waveL eos (toPrim eos cL) (toPrim eos cR) a) 0) (max (waveR eos (toPrim eos cL) (toPrim eos cR) a) 0)
      rw [Units.mom_vel] at this
      exact this
    · exact fluxHll_scale h k.pres ..
  · show hllcFlux eos' _ _ a = (hllcFlux eos cL cR a).scale k
    unfold hllcFlux
    simp only [toPrim_scale h he, waveL_scale h he, waveR_scale h he, fluxPrim_scale he, hllcUstar_scale h, hllcPstar_scale h]
    have c1 : ∀ x : K, (k.vel * x > 0) = (x > 0) := fun x => propext (mul_pos_iff_of_pos_left h.vel)
    have c2 : ∀ x y : K, (k.vel * x * (k.vel * y) > 0) = (x * y > 0) := fun x y => by
      rw [show k.vel * x * (k.vel * y) = k.vel ^ 2 * (x * y) by ring]
      exact propext (mul_pos_iff_of_pos_left (pow_pos h.vel 2))
    simp only [c1, c2]
    by_cases hu : hllcUstar (toPrim eos cL) (toPrim eos cR) a (waveL eos (toPrim eos cL) (toPrim eos cR) a) (waveR eos (toPrim eos cL) (toPrim eos cR) a) > 0
    · simp only [if_pos hu]
      split_ifs
      · rfl
      · exact hllcStar_scale h ..
    · simp only [if_neg hu]
      split_ifs
      · rfl
      · exact hllcStar_scale h ..
  · show splittingFlux eos' _ _ a = (splittingFlux eos cL cR a).scale k
    unfold splittingFlux
    simp only [toPrim_scale h he]
    set pL := toPrim eos cL
    set pR := toPrim eos cR
    simp only [Prim.scale, he.sound]
    have ea : 11 / 10 * max (k.dens * pL.rho * (k.vel * eos.sound pL.rho pL.P)) (k.dens * pR.rho * (k.vel * eos.sound pR.rho pR.P)) =
        k.mom * (11 / 10 * max (pL.rho * eos.sound pL.rho pL.P) (pR.rho * eos.sound pR.rho pR.P)) := by
      rw [show k.dens * pL.rho * (k.vel * eos.sound pL.rho pL.P) = k.mom * (pL.rho * eos.sound pL.rho pL.P) by unfold Units.mom; ring,
        show k.dens * pR.rho * (k.vel * eos.sound pR.rho pR.P) = k.mom * (pR.rho * eos.sound pR.rho pR.P) by unfold Units.mom; ring,
        ← mul_max_of_nonneg _ _ h.mom.le]
      ring
    simp only [ea]
    set aa := 11 / 10 * max (pL.rho * eos.sound pL.rho pL.P) (pR.rho * eos.sound pR.rho pR.P)
    have eu : (k.vel * pL.u a + k.vel * pR.u a) / 2 - 1 / (2 * (k.mom * aa)) * (k.pres * pR.P - k.pres * pL.P) =
        k.vel * ((pL.u a + pR.u a) / 2 - 1 / (2 * aa) * (pR.P - pL.P)) := by
      have : 1 / (2 * (k.mom * aa)) * (k.pres * pR.P - k.pres * pL.P) = k.vel * (1 / (2 * aa) * (pR.P - pL.P)) := by
        rw [show 2 * (k.mom * aa) = k.mom * (2 * aa) by ring, ← mul_sub, ← k.mom_vel, div_mul_eq_mul_div, one_mul, mul_assoc, mul_div_mul_left _ _ h.mom.ne']
        ring
      rw [this]
      ring
    simp only [eu]
    set us := (pL.u a + pR.u a) / 2 - 1 / (2 * aa) * (pR.P - pL.P)
    have em : |k.vel * us| / min (k.vel * eos.sound pL.rho pL.P) (k.vel * eos.sound pR.rho pR.P) =
        |us| / min (eos.sound pL.rho pL.P) (eos.sound pR.rho pR.P) := by
      rw [abs_mul, abs_of_pos h.vel, ← mul_min_of_nonneg _ _ h.vel.le, mul_div_mul_left _ _ h.vel.ne']
    simp only [em]
    have c1 : (k.vel * us > 0) = (us > 0) := propext (mul_pos_iff_of_pos_left h.vel)
    simp only [c1]
    have ec : (if us > 0 then cL.scale k else cR.scale k) = (if us > 0 then cL else cR).scale k := by split_ifs <;> rfl
    simp only [ec]
    set c := if us > 0 then cL else cR
    apply Flux.ext
    · simp only [Flux.scale, Cons.scale]
      unfold Units.mom
      ring
    · funext i
      simp only [Flux.scale, Cons.scale]
      by_cases hi : i = a
      · subst hi
        rw [Function.update_self, Function.update_self]
        unfold Units.pres Units.mom
        ring
      · rw [Function.update_of_ne hi, Function.update_of_ne hi]
        unfold Units.pres Units.mom
        ring
    · simp only [Flux.scale, Cons.scale]
      unfold Units.pres Units.mom
      ring

/-! ### One step -/

/-- Lengths along the axes multiplied by a factor: the reconstruction does not see it. -/
theorem reconFace_length (lim : Limiter) {l : K} (hl : l ≠ 0) (dlm dl dlp vm v vp : K) (side : Fin 2) :
    reconFace lim (l * dlm) (l * dl) (l * dlp) vm v vp side = reconFace lim dlm dl dlp vm v vp side := by
  unfold reconFace
  have e1 : (vp - v) / ((l * dl + l * dlp) / 2) = l⁻¹ * ((vp - v) / ((dl + dlp) / 2)) := by
    rw [← mul_add, mul_div_assoc, ← div_div, inv_mul_eq_div, div_right_comm]
  have e2 : (v - vm) / ((l * dlm + l * dl) / 2) = l⁻¹ * ((v - vm) / ((dlm + dl) / 2)) := by
    rw [← mul_add, mul_div_assoc, ← div_div, inv_mul_eq_div, div_right_comm]
  have e3 : ∀ s : K, l * dl / 2 * (l⁻¹ * s) = dl / 2 * s := fun s => by
    rw [show l * dl / 2 * (l⁻¹ * s) = l * l⁻¹ * (dl / 2 * s) by ring, mul_inv_cancel₀ hl, one_mul]
  simp only [e1, e2, Limiter.slope_smul, e3]

/-- The same grid and the same gravity in the new units. -/
structure PGrid.Rescaled (k : Units K) (geom : Geom) (p p' : PGrid d K) : Prop where
  x : ∀ a i, p'.x a i = k.axis geom a * p.x a i
  dx : ∀ a i, p'.dx a i = k.axis geom a * p.dx a i
  ds : ∀ c a, p'.ds c a = k.len ^ 2 * p.ds c a
  dv : ∀ c, p'.dv c = k.len ^ 3 * p.dv c
  grav : ∀ c a, p'.grav c a = k.acc * p.grav c a

theorem Units.Pos.axis (h : k.Pos) (geom : Geom) (a : Fin 3) : 0 < k.axis geom a := by
  unfold Units.axis
  split_ifs
  · exact one_pos
  · exact h.len

variable {geom : Geom} {p p' : PGrid d K}

theorem reconVal_scale (h : k.Pos) (hp : p.Rescaled k geom p') (lim : Limiter) (q : K) (var : Cell → K) (c : Cell) (side : Fin 2) (a : Fin d) :
    reconVal lim p'.dx (fun c => q * var c) c side a = q * reconVal lim p.dx var c side a := by
  unfold reconVal
  rw [hp.dx, hp.dx, hp.dx, reconFace_length lim (h.axis geom (ax a)).ne', reconFace_smul]

theorem reconVal_same (h : k.Pos) (hp : p.Rescaled k geom p') (lim : Limiter) (var : Cell → K) (c : Cell) (side : Fin 2) (a : Fin d) :
    reconVal lim p'.dx var c side a = reconVal lim p.dx var c side a := by
  unfold reconVal
  rw [hp.dx, hp.dx, hp.dx, reconFace_length lim (h.axis geom (ax a)).ne']

theorem faceUP_scale (h : k.Pos) (hp : p.Rescaled k geom p') (lim : Limiter) (up : Cell → VelPres d K) (c : Cell) (side : Fin 2) (a : Fin d) :
    faceUP lim p' (fun c => (up c).scale k) c side a = (faceUP lim p up c side a).scale k := by
  simp only [faceUP, VelPres.scale, reconVal_scale h hp]

theorem faceFields_scale (h : k.Pos) (he : eos.Rescaled k eos') (hp : p.Rescaled k geom p') (lim : Limiter) (U : Cell → Fields d n K)
    (up : Cell → VelPres d K) (c : Cell) (side : Fin 2) (a : Fin d) :
    faceFields lim eos' p' (fun c => (U c).scale k) (fun c => (up c).scale k) c side a = (faceFields lim eos p U up c side a).scale k := by
  have e := toCons_scale he ⟨reconVal lim p.dx (fun c => (U c).rho) c side a, (faceUP lim p up c side a).u, (faceUP lim p up c side a).P⟩
  have e1 : reconVal lim p'.dx (fun c => ((U c).scale k).rho) c side a = k.dens * reconVal lim p.dx (fun c => (U c).rho) c side a :=
    reconVal_scale h hp lim ..
  unfold faceFields
  simp only [faceUP_scale h hp, e1]
  simp only [Fields.scale]
  refine Fields.ext rfl ?_ ?_ ?_
  · exact congrArg Cons.rhou e
  · exact congrArg Cons.E e
  · funext i
    exact reconVal_same h hp lim (fun c => (U c).fx i) c side a

omit [LinearOrder K] [IsStrictOrderedRing K] in
/-- The geometric data of a direction in the new units. -/
def DirGeo.scale (k : Units K) (g : DirGeo K) : DirGeo K :=
  { dv := k.len ^ 3 * g.dv, dsL := k.len ^ 2 * g.dsL, dsR := k.len ^ 2 * g.dsR, x0 := k.len * g.x0, x0p := k.len * g.x0p, x1 := g.x1, x1p := g.x1p }

omit [LinearOrder K] [IsStrictOrderedRing K] in
theorem dirGeo_scale (hp : p.Rescaled k geom p') (a : Fin d) (c : Cell) : p'.dirGeo geom a c = (p.dirGeo geom a c).scale k := by
  cases geom
  · simp only [PGrid.dirGeo, DirGeo.scale, hp.dv, hp.ds, mul_zero]
  · simp only [PGrid.dirGeo, DirGeo.scale, hp.dv, hp.ds, hp.x, Units.axis, one_mul, ne_eq, not_true_eq_false, and_false, if_false, Fin.isValue,
      one_ne_zero, not_false_eq_true, and_self, if_true]

/-- Factor of `dt / dv`. -/
theorem dtodv_scale (h : k.Pos) (q : K) : k.time / k.len ^ 3 * (q * k.vel * k.len ^ 2) = q := by
  have := h.len.ne'
  have := h.time.ne'
  unfold Units.vel
  field_simp

theorem fluxDiff_scale (h : k.Pos) (g : DirGeo K) (w q fL fR : K) :
    fluxDiff (g.scale k) (k.time / k.len ^ 3 * w) (q * k.vel * fL) (q * k.vel * fR) = q * fluxDiff g w fL fR := by
  simp only [fluxDiff, DirGeo.scale]
  conv_rhs => rw [← dtodv_scale h q]
  ring

theorem sphSource_scale (h : k.Pos) (tr : Trig K) (g : DirGeo K) (w : K) (pL pR : Prim d K) (a i : Fin d) :
    sphSource tr (g.scale k) (k.time / k.len ^ 3 * w) (pL.scale k) (pR.scale k) a i = k.mom * sphSource tr g w pL pR a i := by
  have hu : ∀ (p : Prim d K) m, (p.scale k).uAt m = k.vel * p.uAt m := fun p m => by
    unfold Prim.uAt
    split_ifs
    · rfl
    · rw [mul_zero]
  have hm := dtodv_scale h k.mom
  rw [Units.mom_vel] at hm
  have e1 : ∀ PL PR s s' : K, sourceGradPres (k.time / k.len ^ 3 * w) (k.pres * PL) (k.pres * PR) (k.len ^ 2 * s) (k.len ^ 2 * s') =
      k.mom * sourceGradPres w PL PR s s' := fun PL PR s s' => by
    unfold sourceGradPres
    conv_rhs => rw [← hm]
    ring
  have e2 : ∀ rL rR uL uR s s' : K, sourceGradUr (k.time / k.len ^ 3 * w) (k.dens * rL) (k.dens * rR) (k.vel * uL) (k.vel * uR) (k.len ^ 2 * s)
      (k.len ^ 2 * s') = k.mom * sourceGradUr w rL rR uL uR s s' := fun rL rR uL uR s s' => by
    unfold sourceGradUr
    conv_rhs => rw [← hm]
    unfold Units.pres
    ring
  have e3 : ∀ x x' rL rR uL uR vL vR s s' : K, sourceGradUidirR (k.time / k.len ^ 3 * w) (k.len * x) (k.len * x') (k.dens * rL) (k.dens * rR)
      (k.vel * uL) (k.vel * uR) (k.vel * vL) (k.vel * vR) (k.len ^ 2 * s) (k.len ^ 2 * s') =
      k.mom * sourceGradUidirR w x x' rL rR uL uR vL vR s s' := fun x x' rL rR uL uR vL vR s s' => by
    unfold sourceGradUidirR
    have : k.time / k.len ^ 3 * w * (k.len * x' - k.len * x) / (k.len * x' + k.len * x) = k.time / k.len ^ 3 * (w * (x' - x) / (x' + x)) := by
      rw [show k.time / k.len ^ 3 * w * (k.len * x' - k.len * x) = k.len * (k.time / k.len ^ 3 * (w * (x' - x))) by ring, ← mul_add,
        mul_div_mul_left _ _ h.len.ne', mul_div_assoc]
    rw [this]
    conv_rhs => rw [← hm]
    unfold Units.pres
    ring
  have e4 : ∀ x x' rL rR uL uR s s' : K, sourceGradUth tr (k.time / k.len ^ 3 * w) x x' (k.dens * rL) (k.dens * rR) (k.vel * uL) (k.vel * uR)
      (k.len ^ 2 * s) (k.len ^ 2 * s') = k.mom * sourceGradUth tr w x x' rL rR uL uR s s' := fun x x' rL rR uL uR s s' => by
    unfold sourceGradUth
    conv_rhs => rw [← hm]
    unfold Units.pres
    ring
  have e5 : ∀ x x' rL rR uL uR vL vR s s' : K, sourceGradUphi tr (k.time / k.len ^ 3 * w) x x' (k.dens * rL) (k.dens * rR)
      (k.vel * uL) (k.vel * uR) (k.vel * vL) (k.vel * vR) (k.len ^ 2 * s) (k.len ^ 2 * s') =
      k.mom * sourceGradUphi tr w x x' rL rR uL uR vL vR s s' := fun x x' rL rR uL uR vL vR s s' => by
    simp only [sourceGradUphi]
    conv_rhs => rw [← hm]
    unfold Units.pres
    ring
  unfold sphSource
  simp only [hu]
  simp only [DirGeo.scale, Prim.scale, e1, e2, e3, e4, e5]
  split_ifs <;> ring

theorem momDiff_scale (h : k.Pos) (tr : Trig K) (g : DirGeo K) (w : K) (pL pR : Prim d K) (fL fR : Flux d K) (a i : Fin d) :
    momDiff tr geom (g.scale k) (k.time / k.len ^ 3 * w) (pL.scale k) (pR.scale k) (fL.scale k) (fR.scale k) a i =
      k.mom * momDiff tr geom g w pL pR fL fR a i := by
  unfold momDiff
  rw [sphSource_scale h]
  have : fluxDiff (g.scale k) (k.time / k.len ^ 3 * w) ((fL.scale k).rhou i) ((fR.scale k).rhou i) = k.mom * fluxDiff g w (fL.rhou i) (fR.rhou i) := by
    have := fluxDiff_scale h g w k.mom (fL.rhou i) (fR.rhou i)
    rw [Units.mom_vel] at this
    exact this
  rw [this]
  split_ifs <;> ring

omit [LinearOrder K] [IsStrictOrderedRing K] in
theorem dtodv_eq (hp : p.Rescaled k geom p') (dt : K) (c : Cell) : k.time * dt / p'.dv c = k.time / k.len ^ 3 * (dt / p.dv c) := by
  rw [hp.dv, mul_div_mul_comm]

theorem Units.Pos.time_acc (h : k.Pos) : k.time * k.acc = k.vel := by
  have := h.time.ne'
  unfold Units.acc Units.vel
  field_simp

theorem hanVal_scale (h : k.Pos) (he : eos.Rescaled k eos') (hp : p.Rescaled k geom p') (tr : Trig K) (dt : K)
    (up : Fin 2 → Fin d → VelPres d K) (old : Fin 2 → Fin d → Fields d n K) (c : Cell) (side : Fin 2) (a : Fin d) :
    hanVal eos' tr geom p' (k.time * dt) (fun s a => (up s a).scale k) (fun s a => (old s a).scale k) c side a =
      (hanVal eos tr geom p dt up old c side a).scale k := by
  have ef : ∀ s a, facePrim ((old s a).scale k) ((up s a).scale k) = (facePrim (old s a) (up s a)).scale k := fun s a => rfl
  have er : (hanVal eos' tr geom p' (k.time * dt) (fun s a => (up s a).scale k) (fun s a => (old s a).scale k) c side a).rho =
      k.dens * (hanVal eos tr geom p dt up old c side a).rho := by
    simp only [hanVal, ef, fluxPrim_scale he, dirGeo_scale hp, dtodv_eq hp]
    simp only [Fields.scale, Flux.scale]
    rw [mul_add, Finset.mul_sum]
    exact congrArg₂ (fun x y : K => x + y) rfl (Finset.sum_congr rfl fun b _ => fluxDiff_scale h ..)
  refine Fields.ext er ?_ ?_ ?_
  · funext i
    simp only [hanVal, ef, fluxPrim_scale he, dirGeo_scale hp, dtodv_eq hp, momDiff_scale h]
    simp only [Fields.scale]
    rw [mul_add, Finset.mul_sum]
    refine congrArg₂ (fun x y : K => x + y) rfl (Finset.sum_congr rfl fun b _ => ?_)
    rw [mul_add, hp.grav]
    refine congrArg₂ (fun x y : K => x + y) rfl ?_
    split_ifs
    · unfold Units.mom
      rw [← h.time_acc]
      ring
    · rw [mul_zero]
  · simp only [hanVal, ef, fluxPrim_scale he, dirGeo_scale hp, dtodv_eq hp]
    simp only [Fields.scale]
    rw [mul_add, Finset.mul_sum]
    refine congrArg₂ (fun x y : K => x + y) rfl (Finset.sum_congr rfl fun b _ => ?_)
    rw [mul_add, hp.grav]
    refine congrArg₂ (fun x y : K => x + y) (fluxDiff_scale h ..) ?_
    rw [← k.mom_vel, ← h.time_acc]
    ring
  · funext i
    show _ / (hanVal eos' tr geom p' (k.time * dt) (fun s a => (up s a).scale k) (fun s a => (old s a).scale k) c side a).rho =
      _ / (hanVal eos tr geom p dt up old c side a).rho
    rw [er]
    simp only [ef, fluxPrim_scale he, dirGeo_scale hp, dtodv_eq hp]
    simp only [Fields.scale, Flux.scale]
    rw [← mul_div_mul_left _ (hanVal eos tr geom p dt up old c side a).rho h.dens.ne', mul_add, Finset.mul_sum]
    refine congrArg (· / _) (congrArg₂ (fun x y : K => x + y) (by ring) (Finset.sum_congr rfl fun b _ => ?_))
    rw [← fluxDiff_scale h]
    unfold Units.mom
    congr 1 <;> ring

theorem recVal_scale (h : k.Pos) (he : eos.Rescaled k eos') (hp : p.Rescaled k geom p') (lim : Limiter) (tr : Trig K) (dt : K)
    (U : Cell → Fields d n K) (up : Cell → VelPres d K) (c : Cell) (side : Fin 2) (a : Fin d) :
    recVal lim eos' tr geom p' (k.time * dt) (fun c => (U c).scale k) (fun c => (up c).scale k) c side a =
      (recVal lim eos tr geom p dt U up c side a).scale k := by
  unfold recVal
  rw [← hanVal_scale h he hp]
  congr 1
  · funext s b
    exact faceUP_scale h hp lim up c s b
  · funext s b
    exact faceFields_scale h he hp lim U up c s b

theorem godVal_scale (h : k.Pos) (he : eos.Rescaled k eos') (hp : p.Rescaled k geom p') (sol : Solver) (tr : Trig K) (dt : K)
    (s : Fields d n K) (R : Cell → Fin 2 → Fin d → Fields d n K) (c : Cell) :
    godVal sol eos' tr geom p' (k.time * dt) (s.scale k) (fun c s a => (R c s a).scale k) c = (godVal sol eos tr geom p dt s R c).scale k := by
  have ec : ∀ f : Fields d n K, (f.scale k).cons = f.cons.scale k := fun f => rfl
  have er : (godVal sol eos' tr geom p' (k.time * dt) (s.scale k) (fun c s a => (R c s a).scale k) c).rho =
      k.dens * (godVal sol eos tr geom p dt s R c).rho := by
    simp only [godVal, ec, flux_scale h sol he, dirGeo_scale hp, dtodv_eq hp]
    simp only [Fields.scale, Flux.scale]
    rw [mul_add, Finset.mul_sum]
    exact congrArg₂ (fun x y : K => x + y) rfl (Finset.sum_congr rfl fun b _ => fluxDiff_scale h ..)
  refine Fields.ext er ?_ ?_ ?_
  · funext i
    simp only [godVal, ec, flux_scale h sol he, toPrim_scale h he, dirGeo_scale hp, dtodv_eq hp, momDiff_scale h]
    simp only [Fields.scale]
    rw [mul_add, Finset.mul_sum]
    refine congrArg₂ (fun x y : K => x + y) rfl (Finset.sum_congr rfl fun b _ => ?_)
    rw [mul_add, hp.grav]
    refine congrArg₂ (fun x y : K => x + y) rfl ?_
    split_ifs
    · unfold Units.mom
      rw [← h.time_acc]
      ring
    · rw [mul_zero]
  · simp only [godVal, ec, flux_scale h sol he, dirGeo_scale hp, dtodv_eq hp]
    simp only [Fields.scale]
    rw [mul_add, Finset.mul_sum]
    refine congrArg₂ (fun x y : K => x + y) rfl (Finset.sum_congr rfl fun b _ => ?_)
    rw [mul_add, hp.grav]
    refine congrArg₂ (fun x y : K => x + y) (fluxDiff_scale h ..) ?_
    rw [← k.mom_vel, ← h.time_acc]
    ring
  · funext i
    show clamp (_ / (godVal sol eos' tr geom p' (k.time * dt) (s.scale k) (fun c s a => (R c s a).scale k) c).rho) 0 1 =
      clamp (_ / (godVal sol eos tr geom p dt s R c).rho) 0 1
    rw [er]
    simp only [ec, flux_scale h sol he, dirGeo_scale hp, dtodv_eq hp]
    simp only [Fields.scale, Flux.scale]
    have c1 : ∀ x : K, (k.mom * x < 0) = (x < 0) := fun x => propext (by
      rw [← not_le, ← not_le, mul_nonneg_iff_of_pos_left h.mom])
    simp only [c1]
    rw [← mul_div_mul_left _ (godVal sol eos tr geom p dt s R c).rho h.dens.ne', mul_add, Finset.mul_sum]
    refine congrArg (fun x => clamp (x / _) 0 1) (congrArg₂ (fun x y : K => x + y) (by ring) (Finset.sum_congr rfl fun b _ => ?_))
    rw [← fluxDiff_scale h]
    unfold Units.mom
    congr 1 <;> ring

/-- One hydrodynamic step in the new units. -/
theorem stepVal_scale (h : k.Pos) (he : eos.Rescaled k eos') (hp : p.Rescaled k geom p') (lim : Limiter) (sol : Solver) (tr : Trig K) (dt : K)
    (U : Cell → Fields d n K) (up : Cell → VelPres d K) (c : Cell) :
    stepVal lim sol eos' tr geom p' (k.time * dt) (fun c => (U c).scale k) (fun c => (up c).scale k) c =
      (stepVal lim sol eos tr geom p dt U up c).scale k := by
  unfold stepVal
  rw [← godVal_scale h he hp, mul_div_assoc]
  congr 1
  funext c s a
  exact recVal_scale h he hp ..

end Heracles

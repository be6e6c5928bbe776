import Verif.Props.Conservation
import Verif.Props.Riemann

/-!
# C32, C33 Uniform flow and rest states are fixed points
-/

namespace Heracles

variable {d n : ℕ} {K : Type} [Field K] [LinearOrder K] [IsStrictOrderedRing K]

/-- Fields of a uniform state: density, velocity and pressure, fractions. -/
def uniformFields (eos : EoS K) (rho : K) (w : VelPres d K) (fx : Fin n → K) : Fields d n K :=
  { rho := rho, rhou := (toCons eos ⟨rho, w.u, w.P⟩).rhou, E := (toCons eos ⟨rho, w.u, w.P⟩).E, fx := fx }

section
variable {lim : Limiter} {eos : EoS K} {tr : Trig K} {geom : Geom} {p : PGrid d K} {dt : K} {U : Cell → Fields d n K}
  {up : Cell → VelPres d K} {c : Cell} {W : Fields d n K} {w : VelPres d K}

theorem faceUP_const (hup : ∀ a : Fin d, ∀ t : ℤ, -1 ≤ t → t ≤ 1 → up (nb c (ax a) t) = w) :
    faceUP lim p up c = fun _ _ => w := by
  funext side a
  unfold faceUP
  rw [reconVal_const lim p.dx a (v := fun c => (up c).P) (fun t h1 h2 => by rw [hup a t h1 h2]) side]
  congr 1
  funext i
  exact reconVal_const lim p.dx a (v := fun c => (up c).u i) (fun t h1 h2 => by rw [hup a t h1 h2]) side

theorem faceFields_const (hU : ∀ a : Fin d, ∀ t : ℤ, -1 ≤ t → t ≤ 1 → U (nb c (ax a) t) = W)
    (hup : ∀ a : Fin d, ∀ t : ℤ, -1 ≤ t → t ≤ 1 → up (nb c (ax a) t) = w) :
    faceFields lim eos p U up c = fun _ _ => uniformFields eos W.rho w W.fx := by
  funext side a
  unfold faceFields uniformFields
  rw [faceUP_const hup]
  simp only
  rw [reconVal_const lim p.dx a (v := fun c => (U c).rho) (fun t h1 h2 => by rw [hU a t h1 h2]) side]
  congr 1
  funext i
  exact reconVal_const lim p.dx a (v := fun c => (U c).fx i) (fun t h1 h2 => by rw [hU a t h1 h2]) side

/-- Uniform data for which the fluxes of all directions balance are not changed by the predictor. -/
theorem recVal_const (hU : ∀ a : Fin d, ∀ t : ℤ, -1 ≤ t → t ≤ 1 → U (nb c (ax a) t) = W)
    (hup : ∀ a : Fin d, ∀ t : ℤ, -1 ≤ t → t ≤ 1 → up (nb c (ax a) t) = w) (hr : W.rho ≠ 0) (hg : ∀ a, p.grav c a = 0)
    (hm : ∀ a, fluxDiff (p.dirGeo geom a c) (dt / p.dv c) (fluxPrim eos ⟨W.rho, w.u, w.P⟩ a).rho
      (fluxPrim eos ⟨W.rho, w.u, w.P⟩ a).rho = 0)
    (hE : ∀ a, fluxDiff (p.dirGeo geom a c) (dt / p.dv c) (fluxPrim eos ⟨W.rho, w.u, w.P⟩ a).E
      (fluxPrim eos ⟨W.rho, w.u, w.P⟩ a).E = 0)
    (hmom : ∀ a i, momDiff tr geom (p.dirGeo geom a c) (dt / p.dv c) ⟨W.rho, w.u, w.P⟩ ⟨W.rho, w.u, w.P⟩
      (fluxPrim eos ⟨W.rho, w.u, w.P⟩ a) (fluxPrim eos ⟨W.rho, w.u, w.P⟩ a) a i = 0) :
    recVal lim eos tr geom p dt U up c = fun _ _ => uniformFields eos W.rho w W.fx := by
  funext side a
  unfold recVal
  rw [faceUP_const hup, faceFields_const hU hup]
  unfold hanVal facePrim
  have hfx : ∀ a i, fluxDiff (p.dirGeo geom a c) (dt / p.dv c) (W.fx i * (fluxPrim eos ⟨W.rho, w.u, w.P⟩ a).rho)
      (W.fx i * (fluxPrim eos ⟨W.rho, w.u, w.P⟩ a).rho) = 0 := fun a i => by
    have := congrArg (W.fx i * ·) (hm a)
    simp only [mul_zero] at this
    rw [← this]
    unfold fluxDiff
    ring
  simp only [uniformFields, hm, hE, hmom, hfx, hg, mul_zero, zero_mul, ite_self, add_zero, Finset.sum_const_zero]
  congr 1
  funext i
  rw [mul_div_cancel_right₀ _ hr]

/-- The same for the Godunov update. -/
theorem godVal_const {sol : Solver} {R : Cell → Fin 2 → Fin d → Fields d n K} {W' : Fields d n K} (h0 : R c = fun _ _ => W')
    (hR : ∀ a : Fin d, ∀ t : ℤ, -1 ≤ t → t ≤ 1 → R (nb c (ax a) t) = fun _ _ => W') (hr : W.rho ≠ 0) (hWfx : W'.fx = W.fx)
    (hfx01 : ∀ i, 0 ≤ W.fx i ∧ W.fx i ≤ 1) (hg : ∀ a, p.grav c a = 0)
    (hm : ∀ a, fluxDiff (p.dirGeo geom a c) (dt / p.dv c) (sol.flux eos W'.cons W'.cons a).rho
      (sol.flux eos W'.cons W'.cons a).rho = 0)
    (hE : ∀ a, fluxDiff (p.dirGeo geom a c) (dt / p.dv c) (sol.flux eos W'.cons W'.cons a).E
      (sol.flux eos W'.cons W'.cons a).E = 0)
    (hmom : ∀ a i, momDiff tr geom (p.dirGeo geom a c) (dt / p.dv c) (toPrim eos W'.cons) (toPrim eos W'.cons)
      (sol.flux eos W'.cons W'.cons a) (sol.flux eos W'.cons W'.cons a) a i = 0) :
    godVal sol eos tr geom p dt W R c = W := by
  unfold godVal
  have h1 : ∀ a : Fin d, R (nb c (ax a) 1) = fun _ _ => W' := fun a => hR a 1 (by norm_num) (by norm_num)
  have h2 : ∀ a : Fin d, R (nb c (ax a) (-1)) = fun _ _ => W' := fun a => hR a (-1) (by norm_num) (by norm_num)
  have hfx : ∀ a i, fluxDiff (p.dirGeo geom a c) (dt / p.dv c) (W.fx i * (sol.flux eos W'.cons W'.cons a).rho)
      (W.fx i * (sol.flux eos W'.cons W'.cons a).rho) = 0 := fun a i => by
    have := congrArg (W.fx i * ·) (hm a)
    simp only [mul_zero] at this
    rw [← this]
    unfold fluxDiff
    ring
  simp only [h0, h1, h2, hWfx, ite_self, hm, hE, hmom, hfx, hg, mul_zero, zero_mul, add_zero, Finset.sum_const_zero]
  cases W with
  | mk rho rhou E fx =>
    congr 1
    funext i
    rw [mul_div_cancel_right₀ _ hr, clamp_eq, min_eq_left (hfx01 i).2, max_eq_right (hfx01 i).1]

omit [LinearOrder K] [IsStrictOrderedRing K] in
theorem GeoOf.cartesian_ds {ext : Cell} (hG : GeoOf tr .cartesian ext p) (hd : d ≤ 3) (a : Fin d)
    (hc : inExt ext c = true) (hc' : inExt ext (nb c (ax a) 1) = true) : p.ds (nb c (ax a) 1) (ax a) = p.ds c (ax a) := by
  rw [hG.ds _ hc, hG.ds _ hc']
  simp only [dsFun]
  have : ∀ b : Fin 3, (if ax a = b then (1 : K) else p.dx b (nb c (ax a) 1 b)) = if ax a = b then 1 else p.dx b (c b) := fun b => by
    by_cases h : ax a = b
    · simp [h]
    · rw [if_neg h, if_neg h, nb_ne _ (Ne.symm h)]
  simp only [this]

omit [LinearOrder K] [IsStrictOrderedRing K] in
theorem GeoOf.spherical_ds {ext : Cell} (hG : GeoOf tr .spherical ext p) (hd : d ≤ 3) (a : Fin d) (ha : a.val = 2)
    (hc : inExt ext c = true) (hc' : inExt ext (nb c (ax a) 1) = true) : p.ds (nb c (ax a) 1) (ax a) = p.ds c (ax a) := by
  have hax : ax a = 2 := by
    unfold ax
    rw [ha]
    rfl
  have hd3 : d = 3 := by have := a.isLt; omega
  rw [hG.ds _ hc, hG.ds _ hc']
  have e0 : nb c (ax a) 1 0 = c 0 := nb_ne _ (by rw [hax]; decide) _
  have e1 : nb c (ax a) 1 1 = c 1 := nb_ne _ (by rw [hax]; decide) _
  simp only [dsFun, e0, e1]
  rw [hax]
  subst hd3
  rfl

end

section
variable {g : GridData K} {grav : GravField d K} {ext : Cell} {p : PGrid d K} {ng : ℤ} {sc : RecScheds d n} {l l' : List Cell}
  (lim : Limiter) (sol : Solver) (eos : EoS K) (tr : Trig K) (geom : Geom) (dt : K) (U : Cell → Fields d n K)
  (up : Cell → VelPres d K) (upRec : Cell → Fin 2 → Fin d → VelPres d K) (rec : Cell → Fin 2 → Fin d → Fields d n K)
  (new : Cell → Fields d n K)

/-- C32: on a Cartesian grid without gravity a uniform state is a fixed point of a whole step (reconstruction, half-step
extrapolation, Godunov update), for every mesh, time step, solver and limiter. -/
theorem C32_uniform_flow (h : StepOk g grav ext p ng sc l l') (hG : GeoOf tr .cartesian ext p) (h0 : ∀ c a, p.grav c a = 0)
    {rho : K} {w : VelPres d K} {fx : Fin n → K} (hr : rho ≠ 0) (hfx : ∀ i, 0 ≤ fx i ∧ fx i ≤ 1)
    (hU : ∀ c, inExt ext c = true → U c = uniformFields eos rho w fx) (hup : ∀ c, inExt ext c = true → up c = w) :
    ∃ out, hydroStep lim sol eos tr .cartesian g grav dt sc l l' ⟨inExt ext, U⟩ ⟨inExt ext, up⟩ ⟨inExt ext, upRec⟩
        ⟨inExt ext, rec⟩ ⟨inExt ext, new⟩ = some ⟨inExt ext, out⟩ ∧
      ∀ c, layer d ext ng c → out c = U c := by
  refine ⟨_, h.step lim sol eos tr .cartesian dt U up upRec rec new, fun c hc => ?_⟩
  have hng := h.ghosts
  have hdiff : ∀ (c : Cell) (a : Fin d) (k f : K), layer d ext 1 c → fluxDiff (p.dirGeo .cartesian a c) k f f = 0 := by
    intro c a k f hc
    have : (p.dirGeo .cartesian a c).dsR = (p.dirGeo .cartesian a c).dsL :=
      hG.cartesian_ds h.dim a (layer_inExt hc (by omega)) (layer_inExt (layer_nb h.dim hc a (by norm_num) (by norm_num)) (by norm_num))
    unfold fluxDiff
    rw [this, sub_self, mul_zero]
  have hrec : ∀ c, layer d ext 1 c →
      recVal lim eos tr .cartesian p (dt / 2) U up c = fun _ _ => uniformFields eos rho w fx := by
    intro c hc
    have hst := layer_stencil h.dim hc le_rfl
    refine recVal_const (W := uniformFields eos rho w fx) (fun a t h1 h2 => hU _ (hst a t h1 h2)) (fun a t h1 h2 => hup _ (hst a t h1 h2)) hr (h0 c)
      (fun a => hdiff c a _ _ hc) (fun a => hdiff c a _ _ hc) (fun a i => ?_)
    unfold momDiff
    rw [hdiff c a _ _ hc, if_neg (by decide), add_zero]
  have hin := layer_inExt hc (by omega)
  have hc1 : layer d ext 1 c := layer_mono hc (by omega)
  show (if layer d ext ng c then _ else _) = _
  rw [if_pos hc]
  unfold stepVal
  rw [hU c hin]
  refine godVal_const (W' := uniformFields eos rho w fx) (hrec c hc1)
    (fun a t h1 h2 => hrec _ (layer_mono (layer_nb h.dim hc a h1 h2) (by omega))) hr rfl hfx (h0 c)
    (fun a => hdiff c a _ _ hc1) (fun a => hdiff c a _ _ hc1) (fun a i => ?_)
  unfold momDiff
  rw [hdiff c a _ _ hc1, if_neg (by decide), add_zero]

/-- Geometric sources balance the pressure fluxes of a fluid at rest. -/
theorem momDiff_rest (hG : GeoOf tr geom ext p) (hd : d ≤ 3) {c : Cell} (hc : inExt ext c = true) (a i : Fin d)
    (hc' : inExt ext (nb c (ax a) 1) = true) {rho P k : K} {f : Flux d K} (hf : ∀ i, f.rhou i = if i = a then P else 0) :
    momDiff tr geom (p.dirGeo geom a c) k ⟨rho, fun _ => 0, P⟩ ⟨rho, fun _ => 0, P⟩ f f a i = 0 := by
  have hu : ∀ m, (⟨rho, fun _ => 0, P⟩ : Prim d K).uAt m = 0 := fun m => by unfold Prim.uAt; split <;> rfl
  unfold momDiff fluxDiff
  rw [hf i]
  cases geom with
  | cartesian =>
    have : (p.dirGeo .cartesian a c).dsR = (p.dirGeo .cartesian a c).dsL := hG.cartesian_ds hd a hc hc'
    rw [this]
    simp
  | spherical =>
    simp only [if_true]
    unfold sphSource
    simp only [hu, sourceGradUr, sourceGradUidirR, sourceGradUth, sourceGradUphi, sourceGradPres, mul_zero, zero_mul, add_zero,
      zero_div, ite_self, neg_zero]
    have ha := a.isLt
    by_cases hia : i = a
    · subst hia
      rw [if_pos rfl]
      by_cases h0 : i.val = 0
      · rw [if_pos h0, if_pos h0]; ring
      · rw [if_neg h0, if_neg h0]
        by_cases h1 : i.val = 1
        · rw [if_pos h1, if_pos h1]; ring
        · rw [if_neg h1]
          have : (p.dirGeo .spherical i c).dsR = (p.dirGeo .spherical i c).dsL := hG.spherical_ds hd i (by omega) hc hc'
          rw [this]
          ring
    · rw [if_neg hia]
      have hv : i.val ≠ a.val := fun h => hia (Fin.ext h)
      by_cases h0 : a.val = 0
      · rw [if_pos h0, if_neg (by omega)]; ring
      · rw [if_neg h0]
        by_cases h1 : a.val = 1
        · rw [if_pos h1, if_neg (show ¬ i.val = 1 by omega)]; simp
        · rw [if_neg h1]; ring

/-- C33: in every geometry (in particular spherical), without gravity, a uniform fluid at rest is a fixed point of a whole
step, for every mesh and solver: the geometric source terms balance the area-weighted pressure fluxes exactly. -/
theorem C33_rest_state (h : StepOk g grav ext p ng sc l l') (hG : GeoOf tr geom ext p) (h0 : ∀ c a, p.grav c a = 0)
    (he : eos.Lawful) {rho P : K} {fx : Fin n → K} (hr : 0 < rho) (hP : 0 < P) (hfx : ∀ i, 0 ≤ fx i ∧ fx i ≤ 1)
    (hU : ∀ c, inExt ext c = true → U c = uniformFields eos rho ⟨fun _ => 0, P⟩ fx)
    (hup : ∀ c, inExt ext c = true → up c = ⟨fun _ => 0, P⟩) :
    ∃ out, hydroStep lim sol eos tr geom g grav dt sc l l' ⟨inExt ext, U⟩ ⟨inExt ext, up⟩ ⟨inExt ext, upRec⟩
        ⟨inExt ext, rec⟩ ⟨inExt ext, new⟩ = some ⟨inExt ext, out⟩ ∧
      ∀ c, layer d ext ng c → out c = U c := by
  refine ⟨_, h.step lim sol eos tr geom dt U up upRec rec new, fun c hc => ?_⟩
  have hng := h.ghosts
  have hW : (uniformFields eos rho ⟨fun _ => 0, P⟩ fx).cons = toCons eos (⟨rho, fun _ => 0, P⟩ : Prim d K) := rfl
  have hprim : toPrim eos (uniformFields eos rho ⟨fun _ => 0, P⟩ fx).cons = (⟨rho, fun _ => 0, P⟩ : Prim d K) := by
    rw [hW]; exact toPrim_toCons he hr
  have hpres : (uniformFields eos rho ⟨fun _ => 0, P⟩ fx : Fields d n K).cons.pressure eos = P := by
    have := congrArg Prim.P hprim
    rwa [toPrim_eq] at this
  have hadm : (uniformFields eos rho ⟨fun _ => 0, P⟩ fx : Fields d n K).cons.Adm eos := ⟨hr, by rw [hpres]; exact hP⟩
  have hrec : ∀ c, layer d ext 1 c →
      recVal lim eos tr geom p (dt / 2) U up c = fun _ _ => uniformFields eos rho ⟨fun _ => 0, P⟩ fx := by
    intro c hc
    have hst := layer_stencil h.dim hc le_rfl
    refine recVal_const (W := uniformFields eos rho ⟨fun _ => 0, P⟩ fx) (fun a t h1 h2 => hU _ (hst a t h1 h2))
      (fun a t h1 h2 => hup _ (hst a t h1 h2)) hr.ne' (h0 c)
      (fun a => ?_) (fun a => ?_) (fun a i => ?_)
    · simp [fluxPrim, fluxDiff]
    · simp [fluxPrim, fluxDiff]
    · refine momDiff_rest tr geom hG h.dim (layer_inExt hc (by omega)) a i (hst a 1 (by norm_num) (by norm_num)) (fun i => ?_)
      simp only [fluxPrim, Function.update_apply]
      split <;> simp
  have hin := layer_inExt hc (by omega)
  have hc1 : layer d ext 1 c := layer_mono hc (by omega)
  show (if layer d ext ng c then _ else _) = _
  rw [if_pos hc]
  unfold stepVal
  rw [hU c hin]
  have hflux : ∀ a, sol.flux eos (uniformFields eos rho ⟨fun _ => 0, P⟩ fx : Fields d n K).cons
      (uniformFields eos rho ⟨fun _ => 0, P⟩ fx : Fields d n K).cons a = ⟨0, fun i => if i = a then P else 0, 0⟩ := by
    intro a
    rw [C24_consistency sol he hadm a, physFlux, hpres]
    simp [eulerFlux, hW, toCons]
  refine godVal_const (W' := uniformFields eos rho ⟨fun _ => 0, P⟩ fx) (hrec c hc1)
    (fun a t h1 h2 => hrec _ (layer_mono (layer_nb h.dim hc a h1 h2) (by omega))) hr.ne' rfl hfx (h0 c)
    (fun a => ?_) (fun a => ?_) (fun a i => ?_)
  · rw [hflux]; simp [fluxDiff]
  · rw [hflux]; simp [fluxDiff]
  · rw [hprim]
    refine momDiff_rest tr geom hG h.dim hin a i (layer_stencil h.dim hc1 le_rfl a 1 (by norm_num) (by norm_num)) (fun i => ?_)
    rw [hflux]

end

section Examples

omit [LinearOrder K] [IsStrictOrderedRing K] in
/-- The grid computed from given nodes. -/
theorem geoOf_nodes (tr : Trig K) (geom : Geom) (ext : Cell) (x : Fin 3 → ℤ → K) :
    GeoOf tr geom ext (⟨x, fun a i => x a (i + 1) - x a i, dsFun tr geom d x (fun a i => x a (i + 1) - x a i) 0,
      dvFun tr geom d x (fun a i => x a (i + 1) - x a i) 0, fun _ _ => 0⟩ : PGrid d K) :=
  ⟨fun _ _ _ _ => rfl, fun _ _ => rfl, fun _ _ => rfl⟩

/-- C32: a uniform wind in 2D. -/
example (lim : Limiter) (sol : Solver) (tr : Trig ℝ) (dt : ℝ) :=
  C32_uniform_flow (d := 2) (n := 1) (ext := demoExt 2) lim sol (PerfectGas.toEoS ⟨2, 2 - 1, 1⟩) tr dt _ _ (fun _ _ _ => ⟨0, 0⟩)
    (fun _ _ _ => uniformFields (PerfectGas.toEoS ⟨2, 2 - 1, 1⟩) 0 ⟨0, 0⟩ 0) (fun _ => uniformFields (PerfectGas.toEoS ⟨2, 2 - 1, 1⟩) 0 ⟨0, 0⟩ 0)
    (demo_stepOk (by norm_num) 0) (demoGrid_geo tr 0) (fun _ _ => rfl) (rho := 3) (w := ⟨![1, -4], 5⟩) (fx := fun _ => 1 / 2) (by norm_num)
    (fun _ => by norm_num) (fun _ _ => rfl) (fun _ _ => rfl)

/-- C33: gas at rest on a 3D spherical grid. -/
example (lim : Limiter) (sol : Solver) (tr : Trig ℝ) (dt : ℝ) (rec : Cell → Fin 2 → Fin 3 → Fields 3 1 ℝ) (new : Cell → Fields 3 1 ℝ) :=
  C33_rest_state (d := 3) (n := 1) (ext := demoExt 3) lim sol (PerfectGas.toEoS ⟨2, 2 - 1, 1⟩) tr .spherical dt _ _ (fun _ _ _ => ⟨0, 0⟩) rec new
    ⟨le_refl _, le_refl 2, gridOf_fits (demoExt 3) _, RecScheds.box_ok _ _, boxList_isSchedule _ _, boxList_isSchedule _ _⟩
    (geoOf_nodes tr .spherical (demoExt 3) (fun _ i => 1 + (i : ℝ) / 10)) (fun _ _ => rfl)
    (PerfectGas.lawful sampleGas_physical) (rho := 3) (P := 5) (fx := fun _ => 1 / 2) (by norm_num) (by norm_num)
    (fun _ => by norm_num) (fun _ _ => rfl) (fun _ _ => rfl)

end Examples

end Heracles

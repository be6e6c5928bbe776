import Verif.Props.Uniform
import Verif.Props.Transport

/-!
# C73 A uniform flow in a uniform gravity field
-/

namespace Heracles

variable {d n : ℕ} {K : Type} [Field K] [LinearOrder K] [IsStrictOrderedRing K]

/-- A state after the force `force` per unit mass has acted on it during `dt`, as the scheme has it: the work is that of the momentum before. -/
def Fields.pushed (s : Fields d n K) (dt : K) (force : Fin d → K) : Fields d n K :=
  { s with rhou := fun i => s.rhou i + dt * force i * s.rho, E := s.E + ∑ a, dt * force a * s.rhou a }

section
variable {lim : Limiter} {sol : Solver} {eos : EoS K} {tr : Trig K} {p : PGrid d K} {dt : K} {U : Cell → Fields d n K}
  {up : Cell → VelPres d K} {c : Cell} {W : Fields d n K} {w : VelPres d K} {force : Fin d → K}

theorem recVal_fall (hU : ∀ a : Fin d, ∀ t : ℤ, -1 ≤ t → t ≤ 1 → U (nb c (ax a) t) = W)
    (hup : ∀ a : Fin d, ∀ t : ℤ, -1 ≤ t → t ≤ 1 → up (nb c (ax a) t) = w) (hr : W.rho ≠ 0) (hg : ∀ a, p.grav c a = force a)
    (hm : ∀ a k f, fluxDiff (p.dirGeo .cartesian a c) k f f = 0) :
    recVal lim eos tr .cartesian p dt U up c = fun _ _ => (uniformFields eos W.rho w W.fx).pushed dt force := by
  funext side a
  unfold recVal
  rw [faceUP_const hup, faceFields_const hU hup]
  unfold hanVal facePrim
  have hmom : ∀ a i k (pL pR : Prim d K) (f : Flux d K), momDiff tr .cartesian (p.dirGeo .cartesian a c) k pL pR f f a i = 0 := fun a i k pL pR f => by
    unfold momDiff
    rw [hm, if_neg (by decide), add_zero]
  simp only [uniformFields, Fields.pushed, hm, hmom, hg, zero_add, add_zero, Finset.sum_const_zero, Finset.sum_ite_eq, Finset.mem_univ, if_true]
  congr 1
  funext i
  rw [mul_div_cancel_right₀ _ hr]

theorem godVal_fall {R : Cell → Fin 2 → Fin d → Fields d n K} {W' : Fields d n K} (h0 : R c = fun _ _ => W')
    (hR : ∀ a : Fin d, ∀ t : ℤ, -1 ≤ t → t ≤ 1 → R (nb c (ax a) t) = fun _ _ => W') (hr : W.rho ≠ 0) (hWfx : W'.fx = W.fx)
    (hfx01 : ∀ i, 0 ≤ W.fx i ∧ W.fx i ≤ 1) (hg : ∀ a, p.grav c a = force a) (hm : ∀ a k f, fluxDiff (p.dirGeo .cartesian a c) k f f = 0) :
    godVal sol eos tr .cartesian p dt W R c = W.pushed dt force := by
  unfold godVal
  have h1 : ∀ a : Fin d, R (nb c (ax a) 1) = fun _ _ => W' := fun a => hR a 1 (by norm_num) (by norm_num)
  have h2 : ∀ a : Fin d, R (nb c (ax a) (-1)) = fun _ _ => W' := fun a => hR a (-1) (by norm_num) (by norm_num)
  have hmom : ∀ a i k (pL pR : Prim d K) (f : Flux d K), momDiff tr .cartesian (p.dirGeo .cartesian a c) k pL pR f f a i = 0 := fun a i k pL pR f => by
    unfold momDiff
    rw [hm, if_neg (by decide), add_zero]
  simp only [h0, h1, h2, hWfx, ite_self, hm, hmom, hg, zero_add, add_zero, Finset.sum_const_zero, Finset.sum_ite_eq, Finset.mem_univ, if_true, Fields.pushed]
  congr 1
  funext i
  rw [mul_div_cancel_right₀ _ hr, clamp_eq, min_eq_left (hfx01 i).2, max_eq_right (hfx01 i).1]

end

section
variable {g : GridData K} {grav : GravField d K} {ext : Cell} {p : PGrid d K} {ng : ℤ} {sc : RecScheds d n} {l l' : List Cell}
  (lim : Limiter) (sol : Solver) (eos : EoS K) (tr : Trig K) (dt : K) (U : Cell → Fields d n K)
  (up : Cell → VelPres d K) (upRec : Cell → Fin 2 → Fin d → VelPres d K) (rec : Cell → Fin 2 → Fin d → Fields d n K)
  (new : Cell → Fields d n K)

/-- The step in a cell. -/
theorem fall_step (h : StepOk g grav ext p ng sc l l') (hG : GeoOf tr .cartesian ext p) {force : Fin d → K} (hf : ∀ c a, p.grav c a = force a)
    {rho : K} {w : VelPres d K} {fx : Fin n → K} (hr : rho ≠ 0) (hfx : ∀ i, 0 ≤ fx i ∧ fx i ≤ 1)
    (hU : ∀ c, inExt ext c = true → U c = uniformFields eos rho w fx) (hup : ∀ c, inExt ext c = true → up c = w) :
    ∃ out, hydroStep lim sol eos tr .cartesian g grav dt sc l l' ⟨inExt ext, U⟩ ⟨inExt ext, up⟩ ⟨inExt ext, upRec⟩
        ⟨inExt ext, rec⟩ ⟨inExt ext, new⟩ = some ⟨inExt ext, out⟩ ∧
      ∀ c, layer d ext ng c → out c = (uniformFields eos rho w fx).pushed dt force := by
  refine ⟨_, h.step lim sol eos tr .cartesian dt U up upRec rec new, fun c hc => ?_⟩
  have hng := h.ghosts
  have hdiff : ∀ c, layer d ext 1 c → ∀ (a : Fin d) (k f : K), fluxDiff (p.dirGeo .cartesian a c) k f f = 0 := by
    intro c hc a k f
    have : (p.dirGeo .cartesian a c).dsR = (p.dirGeo .cartesian a c).dsL :=
      hG.cartesian_ds h.dim a (layer_inExt hc (by omega)) (layer_inExt (layer_nb h.dim hc a (by norm_num) (by norm_num)) (by norm_num))
    unfold fluxDiff
    rw [this, sub_self, mul_zero]
  have hrec : ∀ c, layer d ext 1 c →
      recVal lim eos tr .cartesian p (dt / 2) U up c = fun _ _ => (uniformFields eos rho w fx).pushed (dt / 2) force := by
    intro c hc
    have hst := layer_stencil h.dim hc le_rfl
    exact recVal_fall (W := uniformFields eos rho w fx) (fun a t h1 h2 => hU _ (hst a t h1 h2)) (fun a t h1 h2 => hup _ (hst a t h1 h2)) hr (hf c)
      (hdiff c hc)
  have hin := layer_inExt hc (by omega)
  have hc1 : layer d ext 1 c := layer_mono hc (by omega)
  show (if layer d ext ng c then _ else _) = _
  rw [if_pos hc]
  unfold stepVal
  rw [hU c hin]
  exact godVal_fall (W' := (uniformFields eos rho w fx).pushed (dt / 2) force) (hrec c hc1)
    (fun a t h1 h2 => hrec _ (layer_mono (layer_nb h.dim hc a h1 h2) (by omega))) hr rfl hfx (hf c) (hdiff c hc1)

/-- **C73, partial.** Cartesian grid, uniform gravity, uniform flow, any mesh, time step, solver, limiter: after a whole step (reconstruction,
half-step extrapolation, Godunov update) the density and the fractions are as before and the velocity has grown by exactly `dt` times the gravity. The full
property adds that the pressure is as before, see `C73_pressure_violated`. -/
theorem C73_velocity_partial (h : StepOk g grav ext p ng sc l l') (hG : GeoOf tr .cartesian ext p) {force : Fin d → K} (hf : ∀ c a, p.grav c a = force a)
    {rho : K} {w : VelPres d K} {fx : Fin n → K} (hr : rho ≠ 0) (hfx : ∀ i, 0 ≤ fx i ∧ fx i ≤ 1)
    (hU : ∀ c, inExt ext c = true → U c = uniformFields eos rho w fx) (hup : ∀ c, inExt ext c = true → up c = w) :
    ∃ out, hydroStep lim sol eos tr .cartesian g grav dt sc l l' ⟨inExt ext, U⟩ ⟨inExt ext, up⟩ ⟨inExt ext, upRec⟩
        ⟨inExt ext, rec⟩ ⟨inExt ext, new⟩ = some ⟨inExt ext, out⟩ ∧
      ∀ c, layer d ext ng c → (out c).rho = rho ∧ (∀ i, (out c).rhou i / (out c).rho = w.u i + dt * force i) ∧ (out c).fx = fx := by
  obtain ⟨out, e, ho⟩ := fall_step lim sol eos tr dt U up upRec rec new h hG hf hr hfx hU hup
  refine ⟨out, e, fun c hc => ?_⟩
  rw [ho c hc]
  refine ⟨rfl, fun i => ?_, rfl⟩
  show ((toCons eos ⟨rho, w.u, w.P⟩).rhou i + dt * force i * rho) / rho = _
  simp only [toCons]
  field_simp

/-- **C73**, the internal energy. In the same situation the internal energy (total minus kinetic) of every cell of the domain falls by exactly
`rho |force|^2 dt^2 / 2`: the energy receives the work of the momentum before the step, the momentum itself the whole force. -/
theorem C73_internal_loss (h : StepOk g grav ext p ng sc l l') (hG : GeoOf tr .cartesian ext p) {force : Fin d → K} (hf : ∀ c a, p.grav c a = force a)
    {rho : K} {w : VelPres d K} {fx : Fin n → K} (hr : rho ≠ 0) (hfx : ∀ i, 0 ≤ fx i ∧ fx i ≤ 1)
    (hU : ∀ c, inExt ext c = true → U c = uniformFields eos rho w fx) (hup : ∀ c, inExt ext c = true → up c = w) :
    ∃ out, hydroStep lim sol eos tr .cartesian g grav dt sc l l' ⟨inExt ext, U⟩ ⟨inExt ext, up⟩ ⟨inExt ext, upRec⟩
        ⟨inExt ext, rec⟩ ⟨inExt ext, new⟩ = some ⟨inExt ext, out⟩ ∧
      ∀ c, layer d ext ng c → (out c).cons.eint = (U c).cons.eint - rho * (∑ i, force i ^ 2) * dt ^ 2 / 2 := by
  obtain ⟨out, e, ho⟩ := fall_step lim sol eos tr dt U up upRec rec new h hG hf hr hfx hU hup
  refine ⟨out, e, fun c hc => ?_⟩
  have hng := h.ghosts
  rw [ho c hc, hU c (layer_inExt hc (by omega))]
  generalize hs : (uniformFields eos rho w fx : Fields d n K) = s
  have hrs : s.rho = rho := by rw [← hs]; rfl
  have h2 : (2 : K) * rho ≠ 0 := mul_ne_zero two_ne_zero hr
  show s.E + ∑ a, dt * force a * s.rhou a - (∑ i, (s.rhou i + dt * force i * s.rho) ^ 2) / (2 * s.rho) = s.E - (∑ i, s.rhou i ^ 2) / (2 * s.rho) - _
  rw [hrs]
  have e1 : ∑ i, (s.rhou i + dt * force i * rho) ^ 2 = ∑ i, s.rhou i ^ 2 + 2 * rho * (∑ i, dt * force i * s.rhou i) + (dt * rho) ^ 2 * ∑ i, force i ^ 2 := by
    rw [Finset.mul_sum, Finset.mul_sum, ← Finset.sum_add_distrib, ← Finset.sum_add_distrib]
    exact Finset.sum_congr rfl fun i _ => by ring
  rw [e1]
  field_simp
  ring

end

/-- **C73, violated.** A perfect gas at rest, `rho = 1`, `P = 1/2`, sound speed 1, on cells of width 1, and the force -3. One step of half the
largest time step allowed by the sound speed leaves every cell of the domain with a negative pressure. -/
theorem C73_pressure_violated (lim : Limiter) (sol : Solver) (tr : Trig ℝ) (upRec : Cell → Fin 2 → Fin 1 → VelPres 1 ℝ)
    (rec : Cell → Fin 2 → Fin 1 → Fields 1 0 ℝ) (new : Cell → Fields 1 0 ℝ) :
    ∃ (g : GridData ℝ) (grav : GravField 1 ℝ) (ext : Cell) (p : PGrid 1 ℝ) (sc : RecScheds 1 0) (l l' : List Cell) (U out : Cell → Fields 1 0 ℝ)
      (up : Cell → VelPres 1 ℝ),
      StepOk g grav ext p 2 sc l l' ∧ GeoOf tr .cartesian ext p ∧ (∀ a i, p.dx a i = 1) ∧ (∀ c a, p.grav c a = -3) ∧
      (PerfectGas.toEoS ⟨2, 2 - 1, 1⟩).sound 1 (1 / 2) = 1 ∧
      (∀ c, U c = uniformFields (PerfectGas.toEoS ⟨2, 2 - 1, 1⟩) 1 ⟨fun _ => 0, 1 / 2⟩ finZeroElim) ∧ (∀ c, up c = ⟨fun _ => 0, 1 / 2⟩) ∧
      hydroStep lim sol (PerfectGas.toEoS ⟨2, 2 - 1, 1⟩) tr .cartesian g grav (1 / 2) sc l l' ⟨inExt ext, U⟩ ⟨inExt ext, up⟩ ⟨inExt ext, upRec⟩
        ⟨inExt ext, rec⟩ ⟨inExt ext, new⟩ = some ⟨inExt ext, out⟩ ∧
      (∀ c, layer 1 ext 2 c → (U c).cons.pressure (PerfectGas.toEoS ⟨2, 2 - 1, 1⟩) = 1 / 2 ∧
        (out c).cons.pressure (PerfectGas.toEoS ⟨2, 2 - 1, 1⟩) < 0) ∧ ∃ c, layer 1 ext 2 c := by
  obtain ⟨out, e, ho⟩ := C73_internal_loss (d := 1) (n := 0) (ext := demoExt 1) lim sol (PerfectGas.toEoS ⟨2, 2 - 1, 1⟩) tr (1 / 2) _ _ upRec rec new
    (demo_stepOk (by norm_num) fun _ => -3) (demoGrid_geo tr fun _ => -3) (force := fun _ => -3) (fun _ _ => rfl) (rho := 1) (w := ⟨fun _ => 0, 1 / 2⟩)
    (fx := finZeroElim) one_ne_zero (fun i => i.elim0) (fun _ _ => rfl) (fun _ _ => rfl)
  obtain ⟨out', e', hv⟩ := C73_velocity_partial (d := 1) (n := 0) (ext := demoExt 1) lim sol (PerfectGas.toEoS ⟨2, 2 - 1, 1⟩) tr (1 / 2) _ _ upRec rec new
    (demo_stepOk (by norm_num) fun _ => -3) (demoGrid_geo tr fun _ => -3) (force := fun _ => -3) (fun _ _ => rfl) (rho := 1) (w := ⟨fun _ => 0, 1 / 2⟩)
    (fx := finZeroElim) one_ne_zero (fun i => i.elim0) (fun _ _ => rfl) (fun _ _ => rfl)
  obtain rfl : out = out' := by
    have := Option.some.inj (e.symm.trans e')
    injection this
  have hl := PerfectGas.lawful sampleGas_physical
  have hint : (uniformFields (PerfectGas.toEoS ⟨2, 2 - 1, 1⟩) 1 (⟨fun _ => 0, 1 / 2⟩ : VelPres 1 ℝ) finZeroElim : Fields 1 0 ℝ).cons.eint = 1 / 2 := by
    show (PerfectGas.toEoS ⟨2, 2 - 1, 1⟩).evolFromPres 1 (1 / 2) + _ - _ = _
    rw [perfectGas_evol sampleGas_physical _ one_pos]
    simp [Prim.ek, Fields.cons, uniformFields, toCons]
    norm_num
  have hpr : ∀ e : ℝ, (PerfectGas.toEoS ⟨2, 2 - 1, 1⟩).presFromEvol 1 e = e := fun e => by
    have := hl.pres_evol 1 e one_pos
    rw [perfectGas_evol sampleGas_physical _ one_pos] at this
    norm_num at this
    norm_num
    exact this
  refine ⟨_, _, demoExt 1, demoGrid 1 fun _ => -3, _, _, _, _, out, _, demo_stepOk (by norm_num) fun _ => -3, demoGrid_geo tr fun _ => -3, fun _ _ => rfl,
    fun _ _ => rfl, ?_, fun _ => rfl, fun _ => rfl, e, fun c hc => ⟨?_, ?_⟩, ?_⟩
  · show Real.sqrt _ = _
    norm_num
  · unfold Cons.pressure
    rw [hint]
    exact hpr _
  · unfold Cons.pressure
    rw [ho c hc, hint, show (out c).cons.rho = 1 from (hv c hc).1, hpr]
    norm_num
  · refine ⟨fun a => nghostOf 1 2 a, fun a => ?_⟩
    unfold demoExt
    fin_cases a <;> simp [nghostOf]

/-! ### Examples -/

/-- A wind in 2D, falling. -/
example (lim : Limiter) (sol : Solver) (tr : Trig ℝ) (dt : ℝ) :=
  C73_velocity_partial (d := 2) (n := 1) (ext := demoExt 2) lim sol (PerfectGas.toEoS ⟨2, 2 - 1, 1⟩) tr dt _ _ (fun _ _ _ => ⟨0, 0⟩)
    (fun _ _ _ => uniformFields (PerfectGas.toEoS ⟨2, 2 - 1, 1⟩) 0 ⟨0, 0⟩ 0) (fun _ => uniformFields (PerfectGas.toEoS ⟨2, 2 - 1, 1⟩) 0 ⟨0, 0⟩ 0)
    (demo_stepOk (by norm_num) ![1, -2]) (demoGrid_geo tr ![1, -2]) (fun _ _ => rfl) (rho := 3) (w := ⟨![1, -4], 5⟩) (fx := fun _ => 1 / 2) (by norm_num)
    (fun _ => by norm_num) (fun _ _ => rfl) (fun _ _ => rfl)

example (lim : Limiter) (sol : Solver) (tr : Trig ℝ) (dt : ℝ) :=
  C73_internal_loss (d := 2) (n := 1) (ext := demoExt 2) lim sol (PerfectGas.toEoS ⟨2, 2 - 1, 1⟩) tr dt _ _ (fun _ _ _ => ⟨0, 0⟩)
    (fun _ _ _ => uniformFields (PerfectGas.toEoS ⟨2, 2 - 1, 1⟩) 0 ⟨0, 0⟩ 0) (fun _ => uniformFields (PerfectGas.toEoS ⟨2, 2 - 1, 1⟩) 0 ⟨0, 0⟩ 0)
    (demo_stepOk (by norm_num) ![1, -2]) (demoGrid_geo tr ![1, -2]) (fun _ _ => rfl) (rho := 3) (w := ⟨![1, -4], 5⟩) (fx := fun _ => 1 / 2) (by norm_num)
    (fun _ => by norm_num) (fun _ _ => rfl) (fun _ _ => rfl)

end Heracles

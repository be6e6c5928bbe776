import Verif.Lemmas.Reflection
import Verif.Props.Conservation
import Verif.Props.Uniform
import Verif.Props.Transport

/-!
# C59: the Cartesian update treats directions alike
-/

namespace Heracles

variable {d n : ℕ} {K : Type} [Field K] [LinearOrder K] [IsStrictOrderedRing K]

/-- **C59, permutations.** Two runs of a Cartesian step, on any two orders of the loops: the mesh of the second is the mesh of
the first with its axes permuted (each possibly translated), its gravity, densities, momenta, energies, scalars, velocities and
pressures are those of the first with axes and components permuted. Neither run accesses an array out of bounds, and the results
are those of the first with axes and components permuted, in every interior cell, for every solver, limiter and equation of
state. -/
theorem C59_permutation {σ : Equiv.Perm (Fin d)} {τ : Equiv.Perm (Fin 3)} (hτ : ∀ a : Fin d, τ (ax a) = ax (σ a)) {ext ext' : Cell}
    (he : ∀ x, ext' (τ x) = ext x) {tr : Trig K} {g g' : GridData K} {grav grav' : GravField d K} {p p' : PGrid d K} {ng : ℤ}
    {sc sc' : RecScheds d n} {l₁ l₂ l₁' l₂' : List Cell} (h : StepOk g grav ext p ng sc l₁ l₂) (h' : StepOk g' grav' ext' p' ng sc' l₁' l₂')
    (hp : GeoOf tr .cartesian ext p) (hp' : GeoOf tr .cartesian ext' p') (δ : Fin 3 → K)
    (hx : ∀ x i, 0 ≤ i → i ≤ ext x → p'.x (τ x) i = p.x x i + δ x)
    (hg : ∀ c, inExt ext' c = true → ∀ a, p'.grav c (σ a) = p.grav (c ∘ τ) a)
    {U U' : Cell → Fields d n K} {up up' : Cell → VelPres d K} (hU : ∀ c, inExt ext' c = true → U' c = (U (c ∘ τ)).perm σ)
    (hup : ∀ c, inExt ext' c = true → up' c = (up (c ∘ τ)).perm σ) (lim : Limiter) (sol : Solver) (eos : EoS K) (dt : K)
    (upRec upRec' : Cell → Fin 2 → Fin d → VelPres d K) (R R' : Cell → Fin 2 → Fin d → Fields d n K) (new new' : Cell → Fields d n K) :
    ∃ out out', hydroStep lim sol eos tr .cartesian g grav dt sc l₁ l₂ ⟨inExt ext, U⟩ ⟨inExt ext, up⟩ ⟨inExt ext, upRec⟩ ⟨inExt ext, R⟩
          ⟨inExt ext, new⟩ = some ⟨inExt ext, out⟩ ∧
      hydroStep lim sol eos tr .cartesian g' grav' dt sc' l₁' l₂' ⟨inExt ext', U'⟩ ⟨inExt ext', up'⟩ ⟨inExt ext', upRec'⟩ ⟨inExt ext', R'⟩
          ⟨inExt ext', new'⟩ = some ⟨inExt ext', out'⟩ ∧
      ∀ c, layer d ext' ng c → layer d ext ng (c ∘ τ) ∧ out' c = (out (c ∘ τ)).perm σ := by
  have hP := geoOf_permuted h.dim hτ he hp hp' δ hx hg
  refine ⟨_, _, h.step lim sol eos tr .cartesian dt U up upRec R new, h'.step lim sol eos tr .cartesian dt U' up' upRec' R' new', fun c hc => ?_⟩
  have hc' := (layer_perm hP h.dim he).1 hc
  refine ⟨hc', ?_⟩
  simp only [if_pos hc, if_pos hc']
  exact stepVal_perm h.dim hP lim sol eos tr dt hU hup h.ghosts hc

/-- **C59, reflections.** Two runs of a Cartesian step, on any two orders of the loops: the second is the first with axis `b`
reversed, that is mesh and data are mirrored along `b` and the component along `b` of momentum, velocity and gravity changes
sign. With HLL and the low-Mach solver always, with HLLC if the states extrapolated to the faces normal to `b` have positive density and
pressure, neither run accesses an array out of bounds, and the results are those of the first mirrored, in every interior cell, for every limiter and lawful
equation of state. Ties (a face at rest, equal wave speeds) need no exception. -/
theorem C59_reflection (b : Fin d) {ext : Cell} {tr : Trig K} {g g' : GridData K} {grav grav' : GravField d K} {p p' : PGrid d K} {ng : ℤ}
    {sc sc' : RecScheds d n} {l₁ l₂ l₁' l₂' : List Cell} (h : StepOk g grav ext p ng sc l₁ l₂) (h' : StepOk g' grav' ext p' ng sc' l₁' l₂')
    (hp : GeoOf tr .cartesian ext p) (hp' : GeoOf tr .cartesian ext p') (L : K)
    (hx : ∀ i, 0 ≤ i → i ≤ ext (ax b) → p'.x (ax b) i = L - p.x (ax b) (ext (ax b) - i))
    (hx' : ∀ y, y ≠ ax b → ∀ i, 0 ≤ i → i ≤ ext y → p'.x y i = p.x y i)
    (hg : ∀ c, inExt ext c = true → ∀ a, p'.grav c a = (if a = b then -1 else 1) * p.grav (reflect (ax b) (ext (ax b)) c) a)
    {U U' : Cell → Fields d n K} {up up' : Cell → VelPres d K}
    (hU : ∀ c, inExt ext c = true → U' c = (U (reflect (ax b) (ext (ax b)) c)).flip b)
    (hup : ∀ c, inExt ext c = true → up' c = (up (reflect (ax b) (ext (ax b)) c)).flip b) (lim : Limiter) (sol : Solver) {eos : EoS K}
    (heos : eos.Lawful) (dt : K)
    (upRec upRec' : Cell → Fin 2 → Fin d → VelPres d K) (R R' : Cell → Fin 2 → Fin d → Fields d n K) (new new' : Cell → Fields d n K)
    (hA : sol = .hllc → ∀ W, hydroReconstruct lim eos tr .cartesian g grav (dt / 2) sc ⟨inExt ext, U⟩ ⟨inExt ext, up⟩ ⟨inExt ext, upRec⟩ ⟨inExt ext, R⟩ = some W →
      ∀ c, layer d ext (ng - 1) c → ∀ side, (W.val c side b).cons.Adm eos) :
    ∃ out out', hydroStep lim sol eos tr .cartesian g grav dt sc l₁ l₂ ⟨inExt ext, U⟩ ⟨inExt ext, up⟩ ⟨inExt ext, upRec⟩ ⟨inExt ext, R⟩
          ⟨inExt ext, new⟩ = some ⟨inExt ext, out⟩ ∧
      hydroStep lim sol eos tr .cartesian g' grav' dt sc' l₁' l₂' ⟨inExt ext, U'⟩ ⟨inExt ext, up'⟩ ⟨inExt ext, upRec'⟩ ⟨inExt ext, R'⟩
          ⟨inExt ext, new'⟩ = some ⟨inExt ext, out'⟩ ∧
      ∀ c, layer d ext ng c → layer d ext ng (reflect (ax b) (ext (ax b)) c) ∧ out' c = (out (reflect (ax b) (ext (ax b)) c)).flip b := by
  have hP := geoOf_reflected h.dim hp hp' L hx hx' hg
  refine ⟨_, _, h.step lim sol eos tr .cartesian dt U up upRec R new, h'.step lim sol eos tr .cartesian dt U' up' upRec' R' new', fun c hc => ?_⟩
  have hc' : layer d ext ng (reflect (ax b) (ext (ax b)) c) := layer_reflect hc
  refine ⟨hc', ?_⟩
  simp only [if_pos hc, if_pos hc']
  refine stepVal_reflect h.dim hP lim sol heos tr dt hU hup h.ghosts (fun hs c hc side => ?_) hc
  have := hA hs _ (h.recon lim eos tr .cartesian (dt / 2) U up upRec R) c hc side
  simp only [if_pos hc] at this
  exact this

section Examples

/-- Two axes exchanged on a square mesh, with data that are not symmetric and gravity along one axis. -/
example (tr : Trig K) (lim : Limiter) (sol : Solver) (eos : EoS K) (U : Cell → Fields 2 1 K) (up : Cell → VelPres 2 K)
    (upRec : Cell → Fin 2 → Fin 2 → VelPres 2 K) (R : Cell → Fin 2 → Fin 2 → Fields 2 1 K) (new : Cell → Fields 2 1 K) :=
  C59_permutation (σ := Equiv.swap 0 1) (τ := Equiv.swap 0 1) (by decide) (ext := demoExt 2) (ext' := demoExt 2) (by decide) (tr := tr)
    (demo_stepOk (by norm_num) ![1, -2]) (demo_stepOk (by norm_num) ![-2, 1]) (demoGrid_geo tr _) (demoGrid_geo tr _) 0
    (fun _ _ _ _ => by simp [demoGrid]) (fun _ _ a => by fin_cases a <;> simp [demoGrid]) (U := U)
    (U' := fun c => (U (c ∘ Equiv.swap 0 1)).perm (Equiv.swap 0 1)) (fun _ _ => rfl) (up := up)
    (up' := fun c => (up (c ∘ Equiv.swap 0 1)).perm (Equiv.swap 0 1)) (fun _ _ => rfl) lim sol eos 1 upRec upRec R R new new

omit [IsStrictOrderedRing K] in
/-- Without slopes and gravity the extrapolated states are the states of the cells. -/
theorem recVal_firstOrder (eos : EoS K) (tr : Trig K) (dt : K) (rho : Cell → K) (up : Cell → VelPres d K) (fx : Cell → Fin n → K)
    (hrho : ∀ c, rho c ≠ 0) (c : Cell) (side : Fin 2) (a : Fin d) :
    recVal .constant eos tr .cartesian (demoGrid d 0) dt (fun c => uniformFields eos (rho c) (up c) (fx c)) up c side a =
      uniformFields eos (rho c) (up c) (fx c) := by
  have h0 : ∀ (dx : Fin 3 → ℤ → K) (var : Cell → K) c side (a : Fin d), reconVal .constant dx var c side a = var c := by
    intro dx var c side a
    simp [reconVal, reconFace, Limiter.slope]
  have h1 : faceUP .constant (demoGrid d 0) up c = fun _ _ => up c := by
    funext s a
    simp only [faceUP, h0]
  have h2 : faceFields .constant eos (demoGrid d 0) (fun c => uniformFields eos (rho c) (up c) (fx c)) up c =
      fun _ _ => uniformFields eos (rho c) (up c) (fx c) := by
    funext s a
    simp only [faceFields, h0, h1, uniformFields]
  unfold recVal
  rw [h1, h2]
  have hz : ∀ (a : Fin d) (w f : K), fluxDiff ((demoGrid d 0).dirGeo .cartesian a c) w f f = 0 := by
    intro a w f
    simp [fluxDiff, PGrid.dirGeo, demoGrid]
  have hg : ∀ a, (demoGrid (K := K) d 0).grav c a = 0 := fun _ => rfl
  unfold hanVal
  simp only [momDiff_cart, hz, hg, mul_zero, zero_mul, ite_self, add_zero, Finset.sum_const_zero]
  apply Fields.ext
  · rfl
  · rfl
  · rfl
  · funext i
    exact mul_div_cancel_right₀ _ (hrho c)

/-- A step of a diatomic gas with varying density, pressure and velocity, seen in a mirror. -/
example (tr : Trig ℝ) (sol : Solver) (rho : Cell → ℝ) (up : Cell → VelPres 2 ℝ) (hrho : ∀ c, 0 < rho c) (hP : ∀ c, 0 < (up c).P)
    (upRec : Cell → Fin 2 → Fin 2 → VelPres 2 ℝ) (R : Cell → Fin 2 → Fin 2 → Fields 2 1 ℝ) (new : Cell → Fields 2 1 ℝ) :=
  C59_reflection (1 : Fin 2) (ext := demoExt 2) (tr := tr) (n := 1) (demo_stepOk (K := ℝ) (by norm_num) 0) (demo_stepOk (by norm_num) 0) (demoGrid_geo tr _)
    (demoGrid_geo tr _) (demoExt 2 1) (fun i _ _ => by simp [demoGrid, show ax (1 : Fin 2) = 1 from rfl]) (fun _ _ _ _ _ => rfl) (fun _ _ a => by simp [demoGrid])
    (U := fun c => uniformFields (PerfectGas.toEoS ⟨7 / 5, 2 / 5, 1⟩) (rho c) (up c) fun _ => 1 / 2) (up := up) (fun _ _ => rfl) (fun _ _ => rfl)
    .constant sol (PerfectGas.lawful (g := ⟨7 / 5, 2 / 5, 1⟩) ⟨by norm_num, by norm_num, by norm_num⟩) (1 / 10) upRec upRec R R new new (by
      intro _ W hW c hc side
      rw [(demo_stepOk (by norm_num) 0).recon] at hW
      obtain rfl := Option.some.inj hW
      have e : layer 2 (demoExt 2) (2 - 1) c := hc
      simp only [if_pos e]
      rw [recVal_firstOrder _ _ _ _ _ _ fun c => (hrho c).ne']
      exact (adm_carried (PerfectGas.lawful (g := ⟨7 / 5, 2 / 5, 1⟩) ⟨by norm_num, by norm_num, by norm_num⟩) (q := ⟨rho c, (up c).u, (up c).P⟩) (hrho c) (hP c)).1)

end Examples

end Heracles

import Verif.Lemmas.Conservation
import Verif.Props.Stencil

/-!
# C30, C31, C34, C58 Conservative form, conservation, scalars, gravity
-/

namespace Heracles

variable {d n : ℕ} {K : Type} [Field K] [LinearOrder K] [IsStrictOrderedRing K]

section
variable {g : GridData K} {grav : GravField d K} {ext : Cell} {p : PGrid d K} {ng : ℤ} {sc : RecScheds d n} {l l' : List Cell}
  (lim : Limiter) (sol : Solver) (eos : EoS K) (tr : Trig K) (geom : Geom) (dt : K) (U : Cell → Fields d n K)
  (up : Cell → VelPres d K) (upRec : Cell → Fin 2 → Fin d → VelPres d K) (rec : Cell → Fin 2 → Fin d → Fields d n K)
  (new : Cell → Fields d n K)

/-- C31: the step is in conservative form with one flux and one area per face. With `R` the face states produced by the
reconstruction, and `F a c` the flux of the solver through the left face of cell `c`, computed from the right state of its left
neighbour and its own left state, what a cell loses through its right face is what the right neighbour `c + e_a` gains
through its left face: both are `F a (c + e_a)` times `ds (c + e_a) a`. The same holds for the scalars, with the
fraction taken on the side the mass comes from. Gravity only adds the work and force of C58. -/
theorem C31_single_interface_flux (h : StepOk g grav ext p ng sc l l') :
    ∃ R out, hydroReconstruct lim eos tr geom g grav (dt / 2) sc ⟨inExt ext, U⟩ ⟨inExt ext, up⟩ ⟨inExt ext, upRec⟩
        ⟨inExt ext, rec⟩ = some ⟨inExt ext, R⟩ ∧
      hydroStep lim sol eos tr geom g grav dt sc l l' ⟨inExt ext, U⟩ ⟨inExt ext, up⟩ ⟨inExt ext, upRec⟩ ⟨inExt ext, rec⟩
        ⟨inExt ext, new⟩ = some ⟨inExt ext, out⟩ ∧
      let F := faceFlux (sol.flux eos) R
      let Fx := faceScalarFlux (sol.flux eos) R
      let A := fun (a : Fin d) (c : Cell) => p.ds c (ax a)
      let R1 := fun (a : Fin d) (c : Cell) => nb c (ax a) 1
      ∀ c, layer d ext ng c →
        (out c).rho = (U c).rho + dt / p.dv c * ∑ a, (A a c * (F a c).rho - A a (R1 a c) * (F a (R1 a c)).rho) ∧
        (out c).E = (U c).E + dt / p.dv c * ∑ a, (A a c * (F a c).E - A a (R1 a c) * (F a (R1 a c)).E)
          + dt * ∑ a, p.grav c a * (U c).rhou a ∧
        (geom = .cartesian → ∀ i, (out c).rhou i = (U c).rhou i
          + dt / p.dv c * ∑ a, (A a c * (F a c).rhou i - A a (R1 a c) * (F a (R1 a c)).rhou i)
          + dt * (p.grav c i * (U c).rho)) ∧
        ∀ i, (out c).fx i = max 0 (min (((U c).rho * (U c).fx i
          + dt / p.dv c * ∑ a, (A a c * Fx a c i - A a (R1 a c) * Fx a (R1 a c) i)) / (out c).rho) 1) := by
  refine ⟨_, _, h.recon lim eos tr geom (dt / 2) U up upRec rec, h.step lim sol eos tr geom dt U up upRec rec new, ?_⟩
  intro F Fx A R1 c hc
  have hl1 : layer d ext (ng - 1) c := layer_mono hc (by omega)
  have hlm : ∀ a : Fin d, layer d ext (ng - 1) (nb c (ax a) (-1)) := fun a => layer_nb h.dim hc a (by norm_num) (by norm_num)
  have hlp : ∀ a : Fin d, layer d ext (ng - 1) (nb c (ax a) 1) := fun a => layer_nb h.dim hc a (by norm_num) (by norm_num)
  have hback : ∀ a : Fin d, nb (nb c (ax a) 1) (ax a) (-1) = c := fun a => by rw [nb_nb]; exact nb_zero _ _
  have hdsR : ∀ a : Fin d, (p.dirGeo geom a c).dsR = A a (R1 a c) := fun a => by cases geom <;> rfl
  have hdsL : ∀ a : Fin d, (p.dirGeo geom a c).dsL = A a c := fun a => by cases geom <;> rfl
  have hFL : ∀ a, F a c = sol.flux eos (recVal lim eos tr geom p (dt / 2) U up (nb c (ax a) (-1)) 1 a).cons
      (recVal lim eos tr geom p (dt / 2) U up c 0 a).cons a := fun a => by
    simp only [F, faceFlux, if_pos (hlm a), if_pos hl1]
  have hFR : ∀ a, F a (R1 a c) = sol.flux eos (recVal lim eos tr geom p (dt / 2) U up c 1 a).cons
      (recVal lim eos tr geom p (dt / 2) U up (nb c (ax a) 1) 0 a).cons a := fun a => by
    simp only [F, R1, faceFlux, hback, if_pos (hlp a), if_pos hl1]
  have hfx : ∀ a i, Fx a c i = (if (F a c).rho < 0 then (recVal lim eos tr geom p (dt / 2) U up c 0 a).fx i
      else (recVal lim eos tr geom p (dt / 2) U up (nb c (ax a) (-1)) 1 a).fx i) * (F a c).rho := fun a i => by
    simp only [Fx, faceScalarFlux, if_pos (hlm a), if_pos hl1, ← not_lt, ite_not]
    rfl
  have hfx' : ∀ a i, Fx a (R1 a c) i = (if (F a (R1 a c)).rho < 0 then (recVal lim eos tr geom p (dt / 2) U up (nb c (ax a) 1) 0 a).fx i
      else (recVal lim eos tr geom p (dt / 2) U up c 1 a).fx i) * (F a (R1 a c)).rho := fun a i => by
    simp only [Fx, R1, faceScalarFlux, hback, if_pos (hlp a), if_pos hl1, ← not_lt, ite_not]
    rfl
  have hrho : (stepVal lim sol eos tr geom p dt U up c).rho = (U c).rho
      + dt / p.dv c * ∑ a, (A a c * (F a c).rho - A a (R1 a c) * (F a (R1 a c)).rho) := by
    simp only [stepVal, godVal, fluxDiff, hdsR, hdsL, ← hFL, ← hFR, Finset.mul_sum]
    congr 1
    refine Finset.sum_congr rfl fun a _ => ?_
    ring
  simp only [if_pos hc]
  refine ⟨hrho, ?_, ?_, fun i => ?_⟩
  · simp only [stepVal, godVal, fluxDiff, hdsR, hdsL, ← hFL, ← hFR, Finset.mul_sum, Finset.sum_add_distrib]
    rw [add_assoc]
    congr 2
    · refine Finset.sum_congr rfl fun a _ => ?_
      ring
    · refine Finset.sum_congr rfl fun a _ => ?_
      ring
  · intro hcart i
    subst hcart
    simp only [stepVal, godVal, momDiff, fluxDiff, hdsR, hdsL, ← hFL, ← hFR, Finset.mul_sum, Finset.sum_add_distrib,
      Finset.sum_ite_eq, Finset.mem_univ, if_true, reduceCtorEq, if_false, add_zero, Finset.sum_const_zero]
    rw [add_assoc]
    congr 2
    · refine Finset.sum_congr rfl fun a _ => ?_
      ring
    · ring
  · rw [hrho, ← clamp_eq]
    have e : ∀ x y : K, x = y → (stepVal lim sol eos tr geom p dt U up c).fx i = clamp x 0 1 →
        (stepVal lim sol eos tr geom p dt U up c).fx i = clamp y 0 1 := fun x y h h' => h ▸ h'
    refine e _ _ ?_ rfl
    simp only [fluxDiff, hdsR, hdsL, ← hFL, ← hFR, ← hfx, ← hfx', Finset.mul_sum]
    congr 1
    · congr 1
      · ring
      · refine Finset.sum_congr rfl fun a _ => ?_
        ring
    · congr 1
      refine Finset.sum_congr rfl fun a _ => ?_
      ring

omit [LinearOrder K] [IsStrictOrderedRing K] in
/-- Sum of a conservative update over the interior cells. -/
theorem balance_sum (hd : d ≤ 3) (hsz : ∀ a : Fin d, firstIdx d ng (ax a) ≤ lastIdx d ext ng (ax a)) {dv q q' s : Cell → K}
    {f : Fin d → Cell → K} (hdv : ∀ c, layer d ext ng c → dv c ≠ 0)
    (hq : ∀ c, layer d ext ng c → q' c = q c + dt / dv c * ∑ a, (f a c - f a (nb c (ax a) 1)) + dt * s c) :
    ∑ c ∈ interior d ext ng, dv c * q' c = ∑ c ∈ interior d ext ng, dv c * q c
      + dt * ∑ a, (∑ c ∈ (interior d ext ng).filter (fun c => c (ax a) = firstIdx d ng (ax a)), f a c
        - ∑ c ∈ (interior d ext ng).filter (fun c => c (ax a) = lastIdx d ext ng (ax a)), f a (nb c (ax a) 1))
      + dt * ∑ c ∈ interior d ext ng, dv c * s c := by
  have h1 : ∀ a : Fin d, ∑ c ∈ interior d ext ng, (f a c - f a (nb c (ax a) 1)) =
      ∑ c ∈ (interior d ext ng).filter (fun c => c (ax a) = firstIdx d ng (ax a)), f a c
        - ∑ c ∈ (interior d ext ng).filter (fun c => c (ax a) = lastIdx d ext ng (ax a)), f a (nb c (ax a) 1) := fun a => by
    have := hsz a
    unfold firstIdx lastIdx at this
    exact box_telescope (nghostOf d ng) (fun i => ext i - nghostOf d ng i) (ax a) (by omega) (f a)
  rw [← Finset.sum_congr rfl (fun a _ => h1 a), Finset.sum_comm, Finset.mul_sum, Finset.mul_sum, ← Finset.sum_add_distrib,
    ← Finset.sum_add_distrib]
  refine Finset.sum_congr rfl fun c hc => ?_
  have hc' := mem_interior.1 hc
  have := hdv c hc'
  rw [hq c hc']
  field_simp

/-- C30, any geometry, any boundary data: the total mass of the interior cells changes exactly by the mass that the solver
lets through the faces of the boundary of the domain during the step. -/
theorem C30_mass_balance (h : StepOk g grav ext p ng sc l l') (hdv : ∀ c, layer d ext ng c → p.dv c ≠ 0)
    (hsz : ∀ a : Fin d, firstIdx d ng (ax a) ≤ lastIdx d ext ng (ax a)) :
    ∃ R out, hydroReconstruct lim eos tr geom g grav (dt / 2) sc ⟨inExt ext, U⟩ ⟨inExt ext, up⟩ ⟨inExt ext, upRec⟩
        ⟨inExt ext, rec⟩ = some ⟨inExt ext, R⟩ ∧
      hydroStep lim sol eos tr geom g grav dt sc l l' ⟨inExt ext, U⟩ ⟨inExt ext, up⟩ ⟨inExt ext, upRec⟩ ⟨inExt ext, rec⟩
        ⟨inExt ext, new⟩ = some ⟨inExt ext, out⟩ ∧
      let F := fun (a : Fin d) (c : Cell) => p.ds c (ax a) * (faceFlux (sol.flux eos) R a c).rho
      ∑ c ∈ interior d ext ng, p.dv c * (out c).rho = ∑ c ∈ interior d ext ng, p.dv c * (U c).rho
        + dt * ∑ a, (∑ c ∈ (interior d ext ng).filter (fun c => c (ax a) = firstIdx d ng (ax a)), F a c
          - ∑ c ∈ (interior d ext ng).filter (fun c => c (ax a) = lastIdx d ext ng (ax a)), F a (nb c (ax a) 1)) := by
  obtain ⟨R, out, h1, h2, h3⟩ := C31_single_interface_flux lim sol eos tr geom dt U up upRec rec new h
  refine ⟨R, out, h1, h2, ?_⟩
  intro F
  have := balance_sum (s := 0) (f := F) (q := fun c => (U c).rho) (q' := fun c => (out c).rho) dt h.dim hsz hdv (fun c hc => by
    rw [(h3 c hc).1]; simp [F])
  simpa using this

/-- Boundary values of a periodic box: two cells of the arrays that are one period apart along an active direction hold the
same data, gravity and cell sizes. -/
structure PeriodicBox (d : ℕ) (ext : Cell) (ng : ℤ) (p : PGrid d K) (U : Cell → Fields d n K) (up : Cell → VelPres d K) : Prop where
  U : ∀ (a : Fin d) c, inExt ext c = true → inExt ext (nb c (ax a) (ext (ax a) - 2 * ng)) = true →
    U (nb c (ax a) (ext (ax a) - 2 * ng)) = U c
  up : ∀ (a : Fin d) c, inExt ext c = true → inExt ext (nb c (ax a) (ext (ax a) - 2 * ng)) = true →
    up (nb c (ax a) (ext (ax a) - 2 * ng)) = up c
  grav : ∀ (a : Fin d) c, inExt ext c = true → inExt ext (nb c (ax a) (ext (ax a) - 2 * ng)) = true →
    p.grav (nb c (ax a) (ext (ax a) - 2 * ng)) = p.grav c
  dx : ∀ (a : Fin d) i, 0 ≤ i → i + (ext (ax a) - 2 * ng) < ext (ax a) →
    p.dx (ax a) (i + (ext (ax a) - 2 * ng)) = p.dx (ax a) i

/-- The same along one direction. -/
structure PeriodicAlong (ext : Cell) (ng : ℤ) (a : Fin d) (p : PGrid d K) (U : Cell → Fields d n K) (up : Cell → VelPres d K) : Prop where
  U : ∀ c, inExt ext c = true → inExt ext (nb c (ax a) (ext (ax a) - 2 * ng)) = true → U (nb c (ax a) (ext (ax a) - 2 * ng)) = U c
  up : ∀ c, inExt ext c = true → inExt ext (nb c (ax a) (ext (ax a) - 2 * ng)) = true → up (nb c (ax a) (ext (ax a) - 2 * ng)) = up c
  grav : ∀ c, inExt ext c = true → inExt ext (nb c (ax a) (ext (ax a) - 2 * ng)) = true → p.grav (nb c (ax a) (ext (ax a) - 2 * ng)) = p.grav c
  dx : ∀ i, 0 ≤ i → i + (ext (ax a) - 2 * ng) < ext (ax a) → p.dx (ax a) (i + (ext (ax a) - 2 * ng)) = p.dx (ax a) i

omit [LinearOrder K] [IsStrictOrderedRing K] in
theorem PeriodicBox.along {p : PGrid d K} {U : Cell → Fields d n K} {up : Cell → VelPres d K} (hP : PeriodicBox d ext ng p U up) (a : Fin d) :
    PeriodicAlong ext ng a p U up := ⟨hP.U a, hP.up a, hP.grav a, hP.dx a⟩

theorem nb_eq_add (c : Cell) (a : Fin 3) (t : ℤ) : nb c a t = c + Function.update (0 : Cell) a t := by
  funext b
  by_cases h : b = a
  · subst h; simp [nb]
  · simp [nb, Function.update_of_ne h]

omit [LinearOrder K] [IsStrictOrderedRing K] in
/-- Cartesian measures are the same one period apart. -/
theorem PeriodicAlong.geo {p : PGrid d K} {U : Cell → Fields d n K} {up : Cell → VelPres d K}
    {a : Fin d} (hP : PeriodicAlong ext ng a p U up) (hG : GeoOf tr .cartesian ext p) {c : Cell} (hc : inExt ext c = true)
    (hc' : inExt ext (nb c (ax a) (ext (ax a) - 2 * ng)) = true) :
    p.ds (nb c (ax a) (ext (ax a) - 2 * ng)) = p.ds c ∧ p.dv (nb c (ax a) (ext (ax a) - 2 * ng)) = p.dv c := by
  have hdx : ∀ b, p.dx b (nb c (ax a) (ext (ax a) - 2 * ng) b) = p.dx b (c b) := by
    intro b
    by_cases h : b = ax a
    · subst h
      have h1 := inExt_iff.1 hc (ax a)
      have h2 := inExt_iff.1 hc' (ax a)
      rw [nb_self] at h2 ⊢
      exact hP.dx _ h1.1 h2.2
    · rw [nb_ne _ h]
  rw [hG.ds _ hc, hG.ds _ hc', hG.dv _ hc, hG.dv _ hc']
  simp only [dsFun, dvFun, hdx, and_self]

/-- The face states of a Cartesian periodic box are periodic. -/
theorem PeriodicAlong.faces {p : PGrid d K} {U : Cell → Fields d n K} {up : Cell → VelPres d K} (hd : d ≤ 3)
    {a : Fin d} (hP : PeriodicAlong ext ng a p U up) (hG : GeoOf tr .cartesian ext p) (hng : 2 ≤ ng) {c : Cell}
    (hc : layer d ext (ng - 1) c) (hc' : layer d ext (ng - 1) (nb c (ax a) (ext (ax a) - 2 * ng))) :
    recVal lim eos tr .cartesian p (dt / 2) U up c =
      recVal lim eos tr .cartesian p (dt / 2) U up (nb c (ax a) (ext (ax a) - 2 * ng)) := by
  have hin : inExt ext c = true := layer_inExt hc (by omega)
  have hin' : inExt ext (nb c (ax a) (ext (ax a) - 2 * ng)) = true := layer_inExt hc' (by omega)
  have hn : ∀ b : Fin d, ∀ t : ℤ, -1 ≤ t → t ≤ 1 → inExt ext (nb c (ax b) t) = true :=
    fun b t h1 h2 => layer_inExt (layer_nb hd hc b h1 h2) (by omega)
  have hn' : ∀ b : Fin d, ∀ t : ℤ, -1 ≤ t → t ≤ 1 → inExt ext (nb (nb c (ax b) t) (ax a) (ext (ax a) - 2 * ng)) = true := by
    intro b t h1 h2
    have : nb (nb c (ax b) t) (ax a) (ext (ax a) - 2 * ng) = nb (nb c (ax a) (ext (ax a) - 2 * ng)) (ax b) t := by
      rw [nb_eq_add, nb_eq_add c, nb_eq_add _ (ax b), nb_eq_add c, add_right_comm]
    rw [this]
    exact layer_inExt (layer_nb hd hc' b h1 h2) (by omega)
  have hshift := nb_eq_add c (ax a) (ext (ax a) - 2 * ng)
  rw [hshift]
  have geo := hP.geo tr hG hin hin'
  refine recVal_shift lim eos tr .cartesian (dt / 2) ?_ ?_ ?_ ?_ ?_ ?_
  · intro b t h1 h2
    have i1 := inExt_iff.1 (hn b t h1 h2) (ax b)
    have i2 := inExt_iff.1 (hn' b t h1 h2) (ax b)
    rw [nb_self] at i1
    by_cases hb : ax b = ax a
    · rw [hb] at i1 i2 ⊢
      rw [nb_self, nb_self] at i2
      rw [Function.update_self, ← hP.dx _ i1.1 i2.2]
      congr 1
      ring
    · rw [Function.update_of_ne hb]; simp
  · intro b t h1 h2
    rw [← nb_eq_add]
    exact (hP.U _ (hn b t h1 h2) (hn' b t h1 h2)).symm
  · intro b t h1 h2
    rw [← nb_eq_add]
    exact (hP.up _ (hn b t h1 h2) (hn' b t h1 h2)).symm
  · intro b
    have e1 := (hP.geo tr hG (hn b 1 (by norm_num) (by norm_num)) (hn' b 1 (by norm_num) (by norm_num))).1
    have : nb (nb c (ax b) 1) (ax a) (ext (ax a) - 2 * ng) = nb (nb c (ax a) (ext (ax a) - 2 * ng)) (ax b) 1 := by
      rw [nb_eq_add, nb_eq_add c, nb_eq_add _ (ax b), nb_eq_add c, add_right_comm]
    rw [← hshift]
    simp only [PGrid.dirGeo]
    rw [geo.1, geo.2, ← this, e1]
  · rw [← hshift]
    exact (hP.grav c hin hin').symm
  · rw [← hshift, geo.2]

/-- What flows through the first face of a periodic direction is what flows through the last one. -/
theorem PeriodicAlong.flux {R : Cell → Fin 2 → Fin d → Fields d n K} (hd : d ≤ 3) (hng : 2 ≤ ng) {a : Fin d}
    (hG : GeoOf tr .cartesian ext p) (hP : PeriodicAlong ext ng a p U up) (hs : firstIdx d ng (ax a) ≤ lastIdx d ext ng (ax a))
    (hR : ∀ c, layer d ext (ng - 1) c → R c = recVal lim eos tr .cartesian p (dt / 2) U up c)
    (ψ : (Fin 2 → Fin d → Fields d n K) → (Fin 2 → Fin d → Fields d n K) → K) {c : Cell} (hc : layer d ext ng c)
    (hca : c (ax a) = firstIdx d ng (ax a)) :
    p.ds c (ax a) * ψ (R (nb c (ax a) (-1))) (R c) = p.ds (nb c (ax a) (ext (ax a) - 2 * ng)) (ax a)
      * ψ (R (nb (nb c (ax a) (ext (ax a) - 2 * ng)) (ax a) (-1))) (R (nb c (ax a) (ext (ax a) - 2 * ng))) := by
  have hax := ax_lt hd a
  unfold firstIdx lastIdx at hs
  unfold firstIdx at hca
  simp only [nghostOf, if_pos hax] at hs hca
  have L0 : layer d ext (ng - 1) c := layer_mono hc (by omega)
  have Lm : layer d ext (ng - 1) (nb c (ax a) (-1)) := layer_nb hd hc a (by norm_num) (by norm_num)
  have Lb : ∀ t : ℤ, -1 ≤ t → t ≤ 0 → layer d ext (ng - 1) (nb (nb c (ax a) t) (ax a) (ext (ax a) - 2 * ng)) := by
    intro t ht1 ht2 b
    by_cases hb : b = ax a
    · subst hb
      rw [nb_nb, nb_self]
      simp only [nghostOf, if_pos hax]
      omega
    · rw [nb_ne _ hb, nb_ne _ hb]
      exact L0 b
  have L0' := Lb 0 (by norm_num) le_rfl
  rw [nb_zero] at L0'
  have r0 := hP.faces lim eos tr dt hd hG hng L0 L0'
  have rm := hP.faces lim eos tr dt hd hG hng Lm (Lb (-1) le_rfl (by norm_num))
  have em : nb (nb c (ax a) (ext (ax a) - 2 * ng)) (ax a) (-1) = nb (nb c (ax a) (-1)) (ax a) (ext (ax a) - 2 * ng) := by
    rw [nb_nb, nb_nb, add_comm]
  rw [em, hR _ Lm, hR _ L0, hR _ L0', hR _ (Lb (-1) le_rfl (by norm_num)), ← r0, ← rm,
    (hP.geo tr hG (layer_inExt L0 (by omega)) (layer_inExt L0' (by omega))).1]

/-- A quantity that only moves through the faces, as a function of the face states on both sides, keeps its total on a
periodic Cartesian box, up to its sources. -/
theorem PeriodicBox.total {R : Cell → Fin 2 → Fin d → Fields d n K} (h : StepOk g grav ext p ng sc l l')
    (hG : GeoOf tr .cartesian ext p) (hP : PeriodicBox d ext ng p U up) (hdv : ∀ c, layer d ext ng c → p.dv c ≠ 0)
    (hsz : ∀ a : Fin d, firstIdx d ng (ax a) ≤ lastIdx d ext ng (ax a))
    (hR : ∀ c, layer d ext (ng - 1) c → R c = recVal lim eos tr .cartesian p (dt / 2) U up c)
    (ψ : Fin d → (Fin 2 → Fin d → Fields d n K) → (Fin 2 → Fin d → Fields d n K) → K) (q q' s : Cell → K)
    (hq : ∀ c, layer d ext ng c → q' c = q c + dt / p.dv c * ∑ a, (p.ds c (ax a) * ψ a (R (nb c (ax a) (-1))) (R c)
      - p.ds (nb c (ax a) 1) (ax a) * ψ a (R (nb (nb c (ax a) 1) (ax a) (-1))) (R (nb c (ax a) 1))) + dt * s c) :
    ∑ c ∈ interior d ext ng, p.dv c * q' c = ∑ c ∈ interior d ext ng, p.dv c * q c
      + dt * ∑ c ∈ interior d ext ng, p.dv c * s c := by
  have hF : ∀ a : Fin d, ∀ c, layer d ext ng c → c (ax a) = firstIdx d ng (ax a) →
      p.ds c (ax a) * ψ a (R (nb c (ax a) (-1))) (R c) = p.ds (nb c (ax a) (ext (ax a) - 2 * ng)) (ax a)
        * ψ a (R (nb (nb c (ax a) (ext (ax a) - 2 * ng)) (ax a) (-1))) (R (nb c (ax a) (ext (ax a) - 2 * ng))) :=
    fun a c hc hca => (hP.along a).flux lim eos tr dt U up h.dim h.ghosts hG (hsz a) hR (ψ a) hc hca
  have h0 : ∑ c ∈ interior d ext ng, ∑ a : Fin d, (p.ds c (ax a) * ψ a (R (nb c (ax a) (-1))) (R c)
      - p.ds (nb c (ax a) 1) (ax a) * ψ a (R (nb (nb c (ax a) 1) (ax a) (-1))) (R (nb c (ax a) 1))) = 0 := by
    rw [Finset.sum_comm]
    refine Finset.sum_eq_zero fun a _ => ?_
    have hs := hsz a
    have hax := ax_lt h.dim a
    unfold firstIdx lastIdx at hs
    refine box_periodic (nghostOf d ng) (fun i => ext i - nghostOf d ng i) (ax a) (by omega)
      (fun c => p.ds c (ax a) * ψ a (R (nb c (ax a) (-1))) (R c)) ?_
    intro c hc hca
    have e : ext (ax a) - nghostOf d ng (ax a) - nghostOf d ng (ax a) = ext (ax a) - 2 * ng := by
      simp only [nghostOf, if_pos hax]; ring
    simp only [e]
    exact hF a c hc hca
  rw [← add_zero (∑ c ∈ interior d ext ng, p.dv c * q c), ← mul_zero dt, ← h0, Finset.mul_sum, Finset.mul_sum,
    ← Finset.sum_add_distrib, ← Finset.sum_add_distrib]
  refine Finset.sum_congr rfl fun c hc => ?_
  have hc' := mem_interior.1 hc
  have := hdv c hc'
  rw [hq c hc']
  field_simp

theorem StepOk.recon_val (h : StepOk g grav ext p ng sc l l') {R : Cell → Fin 2 → Fin d → Fields d n K}
    (hR : hydroReconstruct lim eos tr geom g grav (dt / 2) sc ⟨inExt ext, U⟩ ⟨inExt ext, up⟩ ⟨inExt ext, upRec⟩
      ⟨inExt ext, rec⟩ = some ⟨inExt ext, R⟩) (c : Cell) (hc : layer d ext (ng - 1) c) :
    R c = recVal lim eos tr geom p (dt / 2) U up c := by
  have := h.recon lim eos tr geom (dt / 2) U up upRec rec
  rw [hR] at this
  have e : R = _ := congrArg View.val (Option.some.inj this)
  rw [e]
  exact if_pos hc

/-- C30: on a periodic Cartesian box one step conserves the total mass exactly; the total momentum changes by the total weight
and the total energy by the work of gravity, that is, by nothing without gravity. For every solver, limiter, time step, equation of
state, mesh with periodic cell sizes and data. -/
theorem C30_periodic_box (h : StepOk g grav ext p ng sc l l') (hG : GeoOf tr .cartesian ext p)
    (hP : PeriodicBox d ext ng p U up) (hdv : ∀ c, layer d ext ng c → p.dv c ≠ 0)
    (hsz : ∀ a : Fin d, firstIdx d ng (ax a) ≤ lastIdx d ext ng (ax a)) :
    ∃ out, hydroStep lim sol eos tr .cartesian g grav dt sc l l' ⟨inExt ext, U⟩ ⟨inExt ext, up⟩ ⟨inExt ext, upRec⟩
        ⟨inExt ext, rec⟩ ⟨inExt ext, new⟩ = some ⟨inExt ext, out⟩ ∧
      ∑ c ∈ interior d ext ng, p.dv c * (out c).rho = ∑ c ∈ interior d ext ng, p.dv c * (U c).rho ∧
      (∀ i, ∑ c ∈ interior d ext ng, p.dv c * (out c).rhou i = ∑ c ∈ interior d ext ng, p.dv c * (U c).rhou i
        + dt * ∑ c ∈ interior d ext ng, p.dv c * (p.grav c i * (U c).rho)) ∧
      ∑ c ∈ interior d ext ng, p.dv c * (out c).E = ∑ c ∈ interior d ext ng, p.dv c * (U c).E
        + dt * ∑ c ∈ interior d ext ng, p.dv c * ∑ a, p.grav c a * (U c).rhou a := by
  obtain ⟨R, out, h1, h2, h3⟩ := C31_single_interface_flux lim sol eos tr .cartesian dt U up upRec rec new h
  have total := fun φ : Flux d K → K => hP.total lim eos tr dt U up h hG hdv hsz
    (h.recon_val lim eos tr .cartesian dt U up upRec rec h1) (fun a r r' => φ (sol.flux eos (r 1 a).cons (r' 0 a).cons a))
  refine ⟨out, h2, ?_, fun i => ?_, ?_⟩
  · have := total (fun f => f.rho) (fun c => (U c).rho) (fun c => (out c).rho) (fun _ => 0)
      (fun c hc => by rw [(h3 c hc).1]; simp [faceFlux])
    simpa using this
  · exact total (fun f => f.rhou i) (fun c => (U c).rhou i) (fun c => (out c).rhou i) _
      (fun c hc => (h3 c hc).2.2.1 rfl i)
  · exact total (fun f => f.E) (fun c => (U c).E) (fun c => (out c).E) _ (fun c hc => (h3 c hc).2.1)

/-- C30, the statement of the property: without gravity, on a periodic Cartesian box, mass, momentum and energy are conserved. -/
theorem C30_conserved (h : StepOk g grav ext p ng sc l l') (hG : GeoOf tr .cartesian ext p)
    (hP : PeriodicBox d ext ng p U up) (hdv : ∀ c, layer d ext ng c → p.dv c ≠ 0)
    (hsz : ∀ a : Fin d, firstIdx d ng (ax a) ≤ lastIdx d ext ng (ax a)) (h0 : ∀ c a, p.grav c a = 0) :
    ∃ out, hydroStep lim sol eos tr .cartesian g grav dt sc l l' ⟨inExt ext, U⟩ ⟨inExt ext, up⟩ ⟨inExt ext, upRec⟩
        ⟨inExt ext, rec⟩ ⟨inExt ext, new⟩ = some ⟨inExt ext, out⟩ ∧
      ∑ c ∈ interior d ext ng, p.dv c * (out c).rho = ∑ c ∈ interior d ext ng, p.dv c * (U c).rho ∧
      (∀ i, ∑ c ∈ interior d ext ng, p.dv c * (out c).rhou i = ∑ c ∈ interior d ext ng, p.dv c * (U c).rhou i) ∧
      ∑ c ∈ interior d ext ng, p.dv c * (out c).E = ∑ c ∈ interior d ext ng, p.dv c * (U c).E := by
  obtain ⟨out, h1, h2, h3, h4⟩ := C30_periodic_box lim sol eos tr dt U up upRec rec new h hG hP hdv hsz
  exact ⟨out, h1, h2, fun i => by rw [h3 i]; simp [h0], by rw [h4]; simp [h0]⟩

/-- C34: after a step every scalar fraction of every interior cell is in `[0, 1]`, whatever the data. -/
theorem C34_fractions_bounded (h : StepOk g grav ext p ng sc l l') :
    ∃ out, hydroStep lim sol eos tr geom g grav dt sc l l' ⟨inExt ext, U⟩ ⟨inExt ext, up⟩ ⟨inExt ext, upRec⟩
        ⟨inExt ext, rec⟩ ⟨inExt ext, new⟩ = some ⟨inExt ext, out⟩ ∧
      ∀ c, layer d ext ng c → ∀ i, 0 ≤ (out c).fx i ∧ (out c).fx i ≤ 1 := by
  obtain ⟨R, out, h1, h2, h3⟩ := C31_single_interface_flux lim sol eos tr geom dt U up upRec rec new h
  refine ⟨out, h2, fun c hc i => ?_⟩
  rw [(h3 c hc).2.2.2 i]
  exact ⟨le_max_left _ _, max_le zero_le_one (min_le_right _ _)⟩

/-- C34: on a periodic Cartesian box the mass of every scalar is conserved before the fractions are clipped to `[0, 1]`; in
particular it is conserved when nothing is clipped. -/
theorem C34_scalars_conserved (h : StepOk g grav ext p ng sc l l') (hG : GeoOf tr .cartesian ext p)
    (hP : PeriodicBox d ext ng p U up) (hdv : ∀ c, layer d ext ng c → p.dv c ≠ 0)
    (hsz : ∀ a : Fin d, firstIdx d ng (ax a) ≤ lastIdx d ext ng (ax a)) :
    ∃ (out : Cell → Fields d n K) (q : Cell → Fin n → K), hydroStep lim sol eos tr .cartesian g grav dt sc l l' ⟨inExt ext, U⟩ ⟨inExt ext, up⟩ ⟨inExt ext, upRec⟩
        ⟨inExt ext, rec⟩ ⟨inExt ext, new⟩ = some ⟨inExt ext, out⟩ ∧
      (∀ c, layer d ext ng c → ∀ i, (out c).fx i = max 0 (min (q c i) 1)) ∧
      ((∀ c, layer d ext ng c → (out c).rho ≠ 0) → ∀ i,
        ∑ c ∈ interior d ext ng, p.dv c * ((out c).rho * q c i) =
          ∑ c ∈ interior d ext ng, p.dv c * ((U c).rho * (U c).fx i) ∧
        ((∀ c, layer d ext ng c → 0 ≤ q c i ∧ q c i ≤ 1) →
          ∑ c ∈ interior d ext ng, p.dv c * ((out c).rho * (out c).fx i) =
            ∑ c ∈ interior d ext ng, p.dv c * ((U c).rho * (U c).fx i))) := by
  obtain ⟨R, out, h1, h2, h3⟩ := C31_single_interface_flux lim sol eos tr .cartesian dt U up upRec rec new h
  refine ⟨out, fun c i => ((U c).rho * (U c).fx i + dt / p.dv c * ∑ a, (p.ds c (ax a) * faceScalarFlux (sol.flux eos) R a c i
      - p.ds (nb c (ax a) 1) (ax a) * faceScalarFlux (sol.flux eos) R a (nb c (ax a) 1) i)) / (out c).rho,
    h2, fun c hc i => (h3 c hc).2.2.2 i, fun hrho i => ?_⟩
  have key := hP.total lim eos tr dt U up h hG hdv hsz (h.recon_val lim eos tr .cartesian dt U up upRec rec h1)
    (fun a r r' => (if 0 ≤ (sol.flux eos (r 1 a).cons (r' 0 a).cons a).rho then (r 1 a).fx i else (r' 0 a).fx i)
      * (sol.flux eos (r 1 a).cons (r' 0 a).cons a).rho) (fun c => (U c).rho * (U c).fx i)
    (fun c => (out c).rho * (((U c).rho * (U c).fx i + dt / p.dv c * ∑ a, (p.ds c (ax a) * faceScalarFlux (sol.flux eos) R a c i
      - p.ds (nb c (ax a) 1) (ax a) * faceScalarFlux (sol.flux eos) R a (nb c (ax a) 1) i)) / (out c).rho)) (fun _ => 0)
    (fun c hc => by
      rw [mul_div_cancel₀ _ (hrho c hc), mul_zero, add_zero]
      rfl)
  have key' := key
  simp only [mul_zero, Finset.sum_const_zero, add_zero] at key'
  refine ⟨key', fun hq => ?_⟩
  rw [← key']
  refine Finset.sum_congr rfl fun c hc => ?_
  have hc' := mem_interior.1 hc
  rw [(h3 c hc').2.2.2 i, min_eq_left (hq c hc').2, max_eq_right (hq c hc').1]

/-- Constant data are reconstructed exactly. -/
theorem reconVal_const (dx : Fin 3 → ℤ → K) {v : Cell → K} {c : Cell} {φ : K} (a : Fin d) (hv : ∀ t : ℤ, -1 ≤ t → t ≤ 1 →
    v (nb c (ax a) t) = φ) (side : Fin 2) : reconVal lim dx v c side a = φ := by
  have g0 := hv 0 (by norm_num) (by norm_num)
  have g1 := hv 1 (by norm_num) (by norm_num)
  have g2 := hv (-1) (by norm_num) (by norm_num)
  rw [nb_zero] at g0
  unfold nb at g1 g2
  unfold reconVal
  rw [sub_eq_add_neg, g0, g1, g2]
  unfold reconFace
  rw [Limiter.slope_zero lim (by simp)]
  simp

/-- C34: a uniform fraction in `[0, 1]` stays uniform, in every geometry, with or without gravity, as long as no density that
the fraction is divided by vanishes. -/
theorem C34_uniform_stays_uniform (h : StepOk g grav ext p ng sc l l') (i : Fin n) {φ : K} (h0 : 0 ≤ φ) (h1 : φ ≤ 1)
    (hφ : ∀ c, inExt ext c = true → (U c).fx i = φ) :
    ∃ R out, hydroReconstruct lim eos tr geom g grav (dt / 2) sc ⟨inExt ext, U⟩ ⟨inExt ext, up⟩ ⟨inExt ext, upRec⟩
        ⟨inExt ext, rec⟩ = some ⟨inExt ext, R⟩ ∧
      hydroStep lim sol eos tr geom g grav dt sc l l' ⟨inExt ext, U⟩ ⟨inExt ext, up⟩ ⟨inExt ext, upRec⟩ ⟨inExt ext, rec⟩
        ⟨inExt ext, new⟩ = some ⟨inExt ext, out⟩ ∧
      ((∀ c, layer d ext (ng - 1) c → ∀ side a, (R c side a).rho ≠ 0) → ∀ c, layer d ext ng c → (out c).rho ≠ 0 →
        (out c).fx i = φ) := by
  obtain ⟨R, out, r1, r2, r3⟩ := C31_single_interface_flux lim sol eos tr geom dt U up upRec rec new h
  refine ⟨R, out, r1, r2, fun hR c hc hrho => ?_⟩
  have hng := h.ghosts
  have face : ∀ c, layer d ext (ng - 1) c → ∀ side a, (R c side a).fx i = φ := by
    intro c hc side a
    have hv := hR c hc side a
    have hst := layer_stencil h.dim hc (by omega)
    rw [h.recon_val lim eos tr geom dt U up upRec rec r1 c hc] at hv ⊢
    have hf : ∀ side a, (faceFields lim eos p U up c side a).fx i = φ := fun side a => by
      exact reconVal_const lim p.dx (v := fun c => (U c).fx i) a (fun t h1 h2 => hφ _ (hst a t h1 h2)) side
    unfold recVal hanVal at hv ⊢
    simp only [hf, fluxDiff] at hv ⊢
    rw [div_eq_iff hv, mul_add, Finset.mul_sum]
    congr 1
    refine Finset.sum_congr rfl fun b _ => ?_
    ring
  have hsf : ∀ a, faceScalarFlux (sol.flux eos) R a c i = φ * (faceFlux (sol.flux eos) R a c).rho := by
    intro a
    unfold faceScalarFlux
    rw [face _ (layer_nb h.dim hc a (by norm_num) (by norm_num)), face _ (layer_mono hc (by omega)), ite_self]
  have hsf' : ∀ a, faceScalarFlux (sol.flux eos) R a (nb c (ax a) 1) i =
      φ * (faceFlux (sol.flux eos) R a (nb c (ax a) 1)).rho := by
    intro a
    unfold faceScalarFlux
    rw [nb_nb, show (1 : ℤ) + -1 = 0 from rfl, nb_zero, face _ (layer_nb h.dim hc a (by norm_num) (by norm_num)),
      face _ (layer_mono hc (by omega)), ite_self]
  rw [(r3 c hc).2.2.2 i]
  simp only [hsf, hsf', hφ c (layer_inExt hc (by omega))]
  have : (U c).rho * φ + dt / p.dv c * ∑ a, (p.ds c (ax a) * (φ * (faceFlux (sol.flux eos) R a c).rho)
      - p.ds (nb c (ax a) 1) (ax a) * (φ * (faceFlux (sol.flux eos) R a (nb c (ax a) 1)).rho)) = φ * (out c).rho := by
    rw [(r3 c hc).1, mul_add, Finset.mul_sum, Finset.mul_sum, Finset.mul_sum, mul_comm]
    congr 1
    refine Finset.sum_congr rfl fun a _ => ?_
    ring
  rw [this, mul_div_cancel_right₀ _ hrho, min_eq_left h1, max_eq_right h0]

/-- C58: on the same face states, gravity adds `dt ρ g` to the momentum and `dt (ρ u)·g` to the energy of the old state, and
changes neither the density nor the scalars. -/
theorem C58_gravity_in_update (hd : d ≤ 3) (hng : 1 ≤ ng) (hl : IsSchedule l (nghostOf d ng) (fun a => ext a - nghostOf d ng a))
    (hl' : IsSchedule l' (nghostOf d ng) (fun a => ext a - nghostOf d ng a)) (hf : g.Fits grav ext p)
    (R : Cell → Fin 2 → Fin d → Fields d n K) :
    ∃ out out0, godunov sol eos tr geom g grav dt l l' ⟨inExt ext, U⟩ ⟨inExt ext, R⟩ ⟨inExt ext, new⟩ = some ⟨inExt ext, out⟩ ∧
      godunov sol eos tr geom g (fun _ _ => some 0) dt l l' ⟨inExt ext, U⟩ ⟨inExt ext, R⟩ ⟨inExt ext, new⟩ =
        some ⟨inExt ext, out0⟩ ∧
      ∀ c, layer d ext ng c → ∃ G : Fin d → K, (∀ a, grav c a = some (G a)) ∧
        (out c).rho = (out0 c).rho ∧ (out c).fx = (out0 c).fx ∧
        (∀ i, (out c).rhou i = (out0 c).rhou i + dt * (U c).rho * G i) ∧
        (out c).E = (out0 c).E + dt * ∑ i, (U c).rhou i * G i := by
  have hin : ∀ c, inBox (nghostOf d ng) (fun a => ext a - nghostOf d ng a) c → inExt ext c = true :=
    fun c hc => layer_inExt (m := ng) hc (by omega)
  have hst : ∀ c, inBox (nghostOf d ng) (fun a => ext a - nghostOf d ng a) c → StencilIn d ext c :=
    fun c hc => layer_stencil hd (m := ng) hc hng
  have hf0 : g.Fits (d := d) (fun _ _ => some 0) ext { p with grav := fun _ _ => 0 } :=
    ⟨hf.x, hf.dx, hf.ds, hf.dv, fun _ _ _ => rfl⟩
  refine ⟨_, _, godunov_eq hd sol eos tr geom hf dt hl hl' hin hst U R new,
    godunov_eq hd sol eos tr geom hf0 dt hl hl' hin hst U R new, fun c hc => ⟨p.grav c, hf.grav c (hin c hc), ?_⟩⟩
  have hc' : inBox (nghostOf d ng) (fun a => ext a - nghostOf d ng a) c := hc
  have hdg : ∀ a, PGrid.dirGeo { p with grav := fun _ _ => 0 } geom a c = p.dirGeo geom a c := fun a => by cases geom <;> rfl
  simp only [if_pos hc']
  unfold godVal
  simp only [hdg, mul_zero, zero_mul, ite_self, add_zero, Finset.sum_add_distrib, Finset.sum_ite_eq, Finset.mem_univ, if_true]
  refine ⟨trivial, trivial, fun i => by ring, ?_⟩
  rw [Finset.mul_sum, ← add_assoc]
  congr 1
  refine Finset.sum_congr rfl fun a _ => ?_
  ring

/-- C58, Hancock predictor: gravity adds the same terms, with the reconstructed state of each face, and nothing to the density
and the scalars. -/
theorem C58_gravity_in_predictor (hd : d ≤ 3) (hng : 1 ≤ ng) (hl : IsSchedule l (nghostOf d ng) (fun a => ext a - nghostOf d ng a))
    (hl' : IsSchedule l' (nghostOf d ng) (fun a => ext a - nghostOf d ng a)) (hf : g.Fits grav ext p)
    (R : Cell → Fin 2 → Fin d → Fields d n K) :
    ∃ out out0, hancock eos tr geom g grav dt l l' ⟨inExt ext, upRec⟩ ⟨inExt ext, R⟩ = some ⟨inExt ext, out⟩ ∧
      hancock eos tr geom g (fun _ _ => some 0) dt l l' ⟨inExt ext, upRec⟩ ⟨inExt ext, R⟩ = some ⟨inExt ext, out0⟩ ∧
      ∀ c, layer d ext ng c → ∃ G : Fin d → K, (∀ a, grav c a = some (G a)) ∧ ∀ side a,
        (out c side a).rho = (out0 c side a).rho ∧ (out c side a).fx = (out0 c side a).fx ∧
        (∀ i, (out c side a).rhou i = (out0 c side a).rhou i + dt * (R c side a).rho * G i) ∧
        (out c side a).E = (out0 c side a).E + dt * ∑ i, (R c side a).rhou i * G i := by
  have hin : ∀ c ∈ l, inExt ext c = true := fun c hc => layer_inExt (m := ng) ((hl.2 c).1 hc) (by omega)
  have hst : ∀ c ∈ l, ∀ a : Fin d, inExt ext (nb c (ax a) 1) = true :=
    fun c hc a => layer_stencil hd (m := ng) ((hl.2 c).1 hc) hng a 1 (by norm_num) (by norm_num)
  have hf0 : g.Fits (d := d) (fun _ _ => some 0) ext { p with grav := fun _ _ => 0 } :=
    ⟨hf.x, hf.dx, hf.ds, hf.dv, fun _ _ _ => rfl⟩
  refine ⟨_, _, hancock_eq hd eos tr geom hf dt hl.1 hl'.1 (fun c => by rw [hl.2, hl'.2]) hin hst upRec R,
    hancock_eq hd eos tr geom hf0 dt hl.1 hl'.1 (fun c => by rw [hl.2, hl'.2]) hin hst upRec R,
    fun c hc => ⟨p.grav c, hf.grav c (hin c ((hl.2 c).2 hc)), fun side a => ?_⟩⟩
  have hc' : c ∈ l := (hl.2 c).2 hc
  have hdg : ∀ a, PGrid.dirGeo { p with grav := fun _ _ => 0 } geom a c = p.dirGeo geom a c := fun a => by cases geom <;> rfl
  simp only [if_pos hc']
  unfold hanVal
  simp only [hdg, mul_zero, zero_mul, ite_self, add_zero, Finset.sum_add_distrib, Finset.sum_ite_eq, Finset.mem_univ, if_true]
  refine ⟨trivial, trivial, fun i => by ring, ?_⟩
  rw [Finset.mul_sum, ← add_assoc]
  congr 1
  refine Finset.sum_congr rfl fun a _ => ?_
  ring

end

section Examples

/-- Orders of the kernels that traverse the boxes lexicographically. -/
def RecScheds.box (b e : Cell) : RecScheds d n :=
  ⟨boxList b e, fun _ => boxList b e, boxList b e, fun _ => boxList b e, fun _ _ => boxList b e, boxList b e, boxList b e⟩

theorem RecScheds.box_ok (b e : Cell) : (RecScheds.box (d := d) (n := n) b e).Ok b e :=
  ⟨boxList_isSchedule b e, fun _ => boxList_isSchedule b e, boxList_isSchedule b e, fun _ => boxList_isSchedule b e,
    fun _ _ => boxList_isSchedule b e, boxList_isSchedule b e, boxList_isSchedule b e⟩

/-- A unit mesh with four interior cells per active direction. -/
def demoExt (d : ℕ) : Cell := fun a => 2 * nghostOf d 2 a + 4

def demoGrid (d : ℕ) (G : Fin d → K) : PGrid d K := ⟨fun _ i => (i : K), 1, 1, 1, fun _ => G⟩

omit [LinearOrder K] [IsStrictOrderedRing K] in
theorem demoGrid_geo (tr : Trig K) (G : Fin d → K) : GeoOf tr .cartesian (demoExt d) (demoGrid d G) := by
  refine ⟨fun a i _ _ => ?_, fun c _ => ?_, fun c _ => ?_⟩
  · simp [demoGrid]
  · funext a; simp [demoGrid, dsFun]
  · simp [demoGrid, dvFun]

theorem demo_stepOk (hd : d ≤ 3) (G : Fin d → K) :
    StepOk (n := n) (gridOf (demoExt d) (demoGrid d G)) (fun c a => some ((demoGrid d G).grav c a)) (demoExt d) (demoGrid d G) 2
      (RecScheds.box (nghostOf d 1) (fun a => demoExt d a - nghostOf d 1 a))
      (boxList (nghostOf d 2) (fun a => demoExt d a - nghostOf d 2 a))
      (boxList (nghostOf d 2) (fun a => demoExt d a - nghostOf d 2 a)) :=
  ⟨hd, le_refl _, gridOf_fits _ _, RecScheds.box_ok _ _, boxList_isSchedule _ _, boxList_isSchedule _ _⟩

/-- Periodic data that are not constant. -/
def demoU (n : ℕ) (c : Cell) : Fields 2 n ℚ :=
  { rho := if (c 0 + c 1) % 4 = 0 then 2 else 1, rhou := ![if c 1 % 4 = 1 then 3 else 0, 1], E := 20 + (c 0 % 4 : ℤ), fx := fun _ => 1 / 2 }

def demoUp (c : Cell) : VelPres 2 ℚ := { u := ![(c 0 % 4 : ℤ), 1], P := 7 + (c 1 % 4 : ℤ) }

/-- C30, C31, C34: the hypotheses hold for a 2D periodic box with non-uniform data and gravity. -/
example (tr : Trig ℚ) :
    StepOk (n := 1) (gridOf (demoExt 2) (demoGrid 2 ![1, -2])) (fun c a => some ((demoGrid (K := ℚ) 2 ![1, -2]).grav c a)) (demoExt 2)
      (demoGrid 2 ![1, -2]) 2 (RecScheds.box (nghostOf 2 1) (fun a => demoExt 2 a - nghostOf 2 1 a))
      (boxList (nghostOf 2 2) (fun a => demoExt 2 a - nghostOf 2 2 a))
      (boxList (nghostOf 2 2) (fun a => demoExt 2 a - nghostOf 2 2 a)) ∧
    GeoOf tr .cartesian (demoExt 2) (demoGrid 2 ![1, -2]) ∧
    PeriodicBox 2 (demoExt 2) 2 (demoGrid 2 ![1, -2]) (demoU 1) demoUp ∧
    (∀ c, layer 2 (demoExt 2) 2 c → (demoGrid (K := ℚ) 2 ![1, -2]).dv c ≠ 0) ∧
    (∀ a : Fin 2, firstIdx 2 2 (ax a) ≤ lastIdx 2 (demoExt 2) 2 (ax a)) := by
  have hp : ∀ a : Fin 2, demoExt 2 (ax a) - 2 * 2 = 4 := by decide
  have hm : ∀ (a : Fin 2) (c : Cell) (b : Fin 3), nb c (ax a) 4 b % 4 = c b % 4 := by
    intro a c b
    by_cases h : b = ax a
    · subst h; rw [nb_self]; omega
    · rw [nb_ne _ h]
  have hs : ∀ (a : Fin 2) (c : Cell), (nb c (ax a) 4 0 + nb c (ax a) 4 1) % 4 = (c 0 + c 1) % 4 := by
    intro a c
    have := hm a c 0
    have := hm a c 1
    omega
  refine ⟨demo_stepOk (by norm_num) _, demoGrid_geo tr _, ⟨fun a c _ _ => ?_, fun a c _ _ => ?_, fun a c _ _ => rfl,
    fun a i _ _ => rfl⟩, fun c _ => one_ne_zero, by decide⟩
  · rw [hp]; simp only [demoU, hm, hs]
  · rw [hp]; simp only [demoUp, hm]

/-- C34: a uniform fraction strictly between 0 and 1. -/
example : (0 : ℚ) ≤ 1 / 2 ∧ (1 : ℚ) / 2 ≤ 1 ∧ ∀ c, (demoU 1 c).fx 0 = 1 / 2 := ⟨by norm_num, by norm_num, fun _ => rfl⟩

/-- C58: non-zero gravity. -/
example : (demoGrid (K := ℚ) 2 ![1, -2]).grav 0 1 = -2 := rfl

end Examples

end Heracles

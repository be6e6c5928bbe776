import Verif.Lemmas.Convergence
import Verif.Props.WindRun
import Verif.Props.FreeFallProgram
import Verif.Props.MirrorLost
import Mathlib.Analysis.Real.Pi.Bounds
import Mathlib.Analysis.SpecialFunctions.Trigonometric.Bounds

/-!
# C105: the solution of the program tends to the exact one as the cells shrink

Density carried by a uniform wind, and a mass fraction in a uniform stream, without slopes, in a periodic box. The exact solution is known: the profile of the start, moved.
-/

namespace Heracles

/-- As `runN_inv`, with the bounds of the time step. -/
theorem runN_inv_dt {H : Type} {q : LoopParams ℝ} {hy : Hydro H ℝ} {clock : ℕ → Bool} {I : H → ℝ → Prop} {r : RunState H ℝ} (h0 : I r.s.h r.s.t)
    (hout : ∀ o ∈ r.outs, I o.h o.t) (ht : r.s.t ≤ q.tEnd) (hst : ∀ W t, I W t → 0 ≤ q.cfl * hy.timeStep W)
    (hadv : ∀ W t dt, I W t → 0 ≤ dt → dt ≤ q.cfl * hy.timeStep W → I (hy.advance W t dt) (t + dt)) (k : ℕ) :
    I (runN q hy clock r k).s.h (runN q hy clock r k).s.t ∧ (runN q hy clock r k).s.t ≤ q.tEnd ∧ ∀ o ∈ (runN q hy clock r k).outs, I o.h o.t := by
  induction k with
  | zero => exact ⟨h0, ht, hout⟩
  | succ k ih =>
    rw [runN]
    generalize runN q hy clock r k = u at ih
    obtain ⟨i1, i2, i3⟩ := ih
    have hdt : ∀ D, decideStep q (hy.timeStep u.s.h) (clock k) u.s = .ok D → 0 ≤ D.dt ∧ D.dt ≤ q.cfl * hy.timeStep u.s.h ∧ u.s.t + D.dt ≤ q.tEnd := by
      intro D e
      have hb := hst _ _ i1
      unfold decideStep at e
      by_cases htt : timeTrigger q u.s (q.cfl * hy.timeStep u.s.h) = true
      · have h1 : nextTimed q u.s ≤ u.s.t + q.cfl * hy.timeStep u.s.h := by
          unfold timeTrigger at htt
          simpa using (Bool.and_eq_true_iff.1 htt).2
        simp only [htt, if_true, true_and] at e
        by_cases h2 : nextTimed q u.s - u.s.t ≤ 0
        · rw [if_pos h2] at e
          cases e
        · rw [if_neg h2] at e
          simp only [bind, Except.bind, pure, Except.pure, Except.ok.injEq] at e
          subst e
          simp only [decide_eq_true_eq]
          split <;> refine ⟨?_, ?_, ?_⟩ <;> linarith
      · simp only [Bool.not_eq_true] at htt
        simp only [htt, Bool.false_eq_true, if_false, false_and, bind, Except.bind, pure, Except.pure, Except.ok.injEq] at e
        subst e
        simp only [decide_eq_true_eq]
        split <;> refine ⟨?_, ?_, ?_⟩ <;> linarith
    unfold runStep
    split
    · unfold iteration
      split
      · rename_i s out exit e
        split at e
        · cases e
        · rename_i D hD
          obtain ⟨q1, q2, q3⟩ := hdt D hD
          split at e
          · cases e
          · cases e
            have hI := hadv _ u.s.t D.dt i1 q1 q2
            refine ⟨hI, q3, fun o ho => ?_⟩
            dsimp only at ho
            split at ho
            · rcases List.mem_append.1 ho with ho | ho
              · exact i3 o ho
              · rw [List.mem_singleton.1 ho]
                exact hI
            · exact i3 o ho
      · rename_i f e
        split at e
        · cases e
        · split at e
          · cases e
            refine ⟨i1, i2, fun o ho => ?_⟩
            rcases List.mem_append.1 ho with ho | ho
            · exact i3 o ho
            · rw [List.mem_singleton.1 ho]
              exact i1
          · cases e
      · exact ⟨i1, i2, i3⟩
    · exact ⟨i1, i2, i3⟩

section
variable {d n : ℕ} {K : Type} [Field K] [LinearOrder K] [IsStrictOrderedRing K]
  {p : KernelParams d n K} {sol : Solver} {eos : EoS K} {tr : Trig K} {w : VelPres d K} {nx : Cell} {ng : ℤ} {X : Fin 3 → ℤ → K}
  {order : List ℕ} {Gr : (Cell → Fields d n K) → Cell → Fin d → K} {h : Fin 3 → K} {r : (Fin d → K) → K} {D : (Fin d → K) → Fin d → K} {M : K}

/-- One iteration without slopes of a density in a uniform wind: the error grows by at most that of one step. -/
theorem constant_iter_error (hd3 : d ≤ 3) (hk : p.k = exactKernels .constant .hllc eos tr .cartesian none)
    (hgeom : p.geom = .cartesian) (he : eos.Lawful)
    {e : K} (hev : ∀ r, 0 < r → eos.evolFromPres r w.P = e) (hP : 0 < w.P) (hN : ∀ a, 0 < nx a) (hng : 2 ≤ ng)
    (hb : ∀ a f, p.bcs a f = .periodic) (hh : ∀ a, 0 < h a) (hX : ∀ a i, X a (i + 1) - X a i = h a) (hGr : ∀ W c a, Gr W c a = 0)
    {lo hi : K} (hlo : 0 < lo) (hM : 0 ≤ M) (hr : SmoothBy M D r) (hper : ∀ x (k : Fin d → ℤ), r (fun a => x a + k a * (nx (ax a) * h (ax a))) = r x)
    {W : Cell → Fields d n K} (ih : ∀ C, InWind eos w lo hi (W C)) {t E : K} (hE : ErrorAt X r w.u t E fun c => (W c).rho) {dt : K} (d1 : 0 ≤ dt)
    (d2 : ∑ a, dt * |w.u a| / h (ax a) ≤ 1) :
    ErrorAt X r w.u (t + dt) (E + 2 * M * dt * ∑ a, |w.u a| * h (ax a)) fun c => (kIterGlob p nx ng X Gr order dt W c).rho := by
  intro C
  unfold kIterGlob
  rw [bcGlob_wrap hb]
  dsimp only
  rw [← errorAt_wrap hX hper (nghostOf d ng)]
  set g : Cell := wrap nx (C - nghostOf d ng) with hgdef
  have hg : inBox 0 nx g := fun a => ⟨Int.emod_nonneg _ (hN a).ne', Int.emod_lt_of_pos _ (hN a)⟩
  rw [hk, hgeom, kStepVal_exact hd3]
  set pg : PGrid d K := kGrid (exactKernels (n := n) .constant .hllc eos tr .cartesian none) .cartesian X (Gr W) with hpg
  have hdx : ∀ a i, pg.dx a i = h a := fun a i => hX a i
  have hrg : ∀ c, lo ≤ (fun c => (W c).rho) c ∧ (fun c => (W c).rho) c ≤ hi := fun c => (ih c).2
  have rng := wind_range (lim := .constant) (p := pg) (Or.inl rfl) hrg (h := fun a : Fin d => h (ax a)) (fun a => hh _) (fun a i => hdx _ i) d1 d2 (g + nghostOf d ng)
  have hpos : ∀ c, 0 < (W c).rho := fun c => hlo.trans_le (ih c).2.1
  have step := wind_step (ext := globExt nx (nghostOf d ng)) (p := pg) (lim := .constant) (tr := tr) (rho := fun c : Cell => (W c).rho) (W := W)
    (up := kPrimGlob (exactKernels .constant .hllc eos tr .cartesian none) W) (C := g + nghostOf d ng) (dt := dt) hd3 (kGrid_geo (n := n) _ _ _ _ _)
    (fun c _ b => by rw [hdx]; exact (hh b).ne') (fun c a => hGr _ c a) he hev hP (fun c => (ih c).1) (fun c => by
      have q := toPrim_toCons he (p := (⟨(W c).rho, w.u, w.P⟩ : Prim d K)) (hpos c)
      show VelPres.mk (toPrim eos (W c).cons).u (toPrim eos (W c).cons).P = w
      rw [(ih c).1, q]) hpos
    (fun c t ht side a _ _ => by rw [profile_constant]; exact hpos c)
    (fun a i h1 h2 => inExt_beside hd3 hng hg h1 h2 a) (inExt_glob_add (by omega) hg) (fun a b i j h1 h2 h3 h4 => inExt_around hd3 hng hg h1 h2 h3 h4 a b)
    (hlo.trans_le rng.1)
  have er := congrArg Cons.rho step
  change (stepVal .constant .hllc eos tr .cartesian pg dt W _ (g + nghostOf d ng)).rho = _ at er
  rw [er]
  dsimp only [toCons]
  have um := upwind_mean (v := fun c => (W c).rho) (h := fun a : Fin d => h (ax a)) (pg := pg) (fun a => hh _) (fun a i => hdx _ i) d1 w.u (g + nghostOf d ng)
  rw [um]
  exact upwind_step_error hd3 hM hr hh hX d1 d2 hE _

/-- As `constant_iter_error` for a mass fraction in a uniform stream. -/
theorem constant_fx_iter_error (hd3 : d ≤ 3) (hk : p.k = exactKernels .constant sol eos tr .cartesian none)
    (hgeom : p.geom = .cartesian) (he : eos.Lawful) (hP : 0 < w.P) {rho : K} (hrho : 0 < rho) (hN : ∀ a, 0 < nx a) (hng : 2 ≤ ng)
    (hb : ∀ a f, p.bcs a f = .periodic) (hh : ∀ a, 0 < h a) (hX : ∀ a i, X a (i + 1) - X a i = h a) (hGr : ∀ W c a, Gr W c a = 0)
    {f : Fin n} (hM : 0 ≤ M) (hr : SmoothBy M D r) (hper : ∀ x (k : Fin d → ℤ), r (fun a => x a + k a * (nx (ax a) * h (ax a))) = r x) {W : Cell → Fields d n K}
    (ih : ∀ C, (W C).cons = toCons eos ⟨rho, w.u, w.P⟩ ∧ 0 ≤ (W C).fx f ∧ (W C).fx f ≤ 1) {t E : K} (hE : ErrorAt X r w.u t E fun c => (W c).fx f) {dt : K} (d1 : 0 ≤ dt)
    (d2 : ∑ a, dt * |w.u a| / h (ax a) ≤ 1) :
    ErrorAt X r w.u (t + dt) (E + 2 * M * dt * ∑ a, |w.u a| * h (ax a)) fun c => (kIterGlob p nx ng X Gr order dt W c).fx f := by
  intro C
  unfold kIterGlob
  rw [bcGlob_wrap hb]
  dsimp only
  rw [← errorAt_wrap hX hper (nghostOf d ng)]
  set g : Cell := wrap nx (C - nghostOf d ng) with hgdef
  have hg : inBox 0 nx g := fun a => ⟨Int.emod_nonneg _ (hN a).ne', Int.emod_lt_of_pos _ (hN a)⟩
  rw [hk, hgeom, kStepVal_exact hd3]
  set pg : PGrid d K := kGrid (exactKernels (n := n) .constant sol eos tr .cartesian none) .cartesian X (Gr W) with hpg
  have hdx : ∀ a i, pg.dx a i = h a := fun a i => hX a i
  have hrg : ∀ c, 0 ≤ (fun c => (W c).fx f) c ∧ (fun c => (W c).fx f) c ≤ 1 := fun c => (ih c).2
  have rng := wind_range (lim := .constant) (p := pg) (Or.inl rfl) hrg (h := fun a : Fin d => h (ax a)) (fun a => hh _) (fun a i => hdx _ i) d1 d2 (g + nghostOf d ng)
  have step := wind_fx_step (ext := globExt nx (nghostOf d ng)) (p := pg) (lim := .constant) (sol := sol) (tr := tr) (W := W) (f := f)
    (up := kPrimGlob (exactKernels .constant sol eos tr .cartesian none) W) (C := g + nghostOf d ng) (dt := dt) hd3 (kGrid_geo (n := n) _ _ _ _ _)
    (fun c _ b => by rw [hdx]; exact (hh b).ne') (fun c a => hGr _ c a) he hP hrho (fun c => by
      have q := toPrim_toCons he (p := (⟨rho, w.u, w.P⟩ : Prim d K)) hrho
      refine ⟨congrArg Cons.rho (ih c).1, ?_⟩
      show VelPres.mk (toPrim eos (W c).cons).u (toPrim eos (W c).cons).P = w
      rw [(ih c).1, q])
    (fun a i h1 h2 => inExt_beside hd3 hng hg h1 h2 a) (inExt_glob_add (by omega) hg) (fun a b i j h1 h2 h3 h4 => inExt_around hd3 hng hg h1 h2 h3 h4 a b)
  rw [step.2, clamp_within le_rfl le_rfl rng]
  have um := upwind_mean (v := fun c => (W c).fx f) (h := fun a : Fin d => h (ax a)) (pg := pg) (fun a => hh _) (fun a i => hdx _ i) d1 w.u (g + nghostOf d ng)
  rw [um]
  exact upwind_step_error hd3 hM hr hh hX d1 d2 hE _

end

variable {d n : ℕ} {p : ProgParams d n} {nx : Cell} {ng : ℤ} {X : Fin 3 → ℤ → ℝ} {Gr : (Cell → Fields d n ℝ) → Cell → Fin d → ℝ} {A : Machine d n}
  {order : List ℕ} {S : Cell → Prim d ℝ} {Fx : Cell → Fin n → ℝ} {U : Cell → View Cell (Fields d n ℝ)} {up : Cell → View Cell (VelPres d ℝ)}
  {h : Fin 3 → ℝ} {w : VelPres d ℝ} {r : (Fin d → ℝ) → ℝ} {D : (Fin d → ℝ) → Fin d → ℝ} {M lo hi : ℝ}

/-- **C105, the density carried by a uniform wind.** Exact arithmetic, one, two or three dimensions, the whole program with its own time steps and outputs, HLLC without slopes, equal cells of sizes `h`, all boundaries periodic, Courant number
at most 1, no gravity, no pressure fix, no heating, a gas whose energy per volume depends on pressure only, any process grid. The density at the start is that of a smooth periodic profile `r > 0` at the centres of
the cells (`r` has a gradient, with second order remainder at most `M` times the squared distance); velocity `u` and pressure are uniform. The exact solution is `r (x - (t - tIni) u)`. At every
turn, in every cell of every process (ghosts included) and in every file the density differs from it by at most `2 M (t - tIni) Σ_a |u_a| h_a`: an error that tends to 0 with the size of the cells, at first order, uniformly
in the number of steps. Partial: with slopes, other flows, second order. -/
theorem C105_density_partial (hd : 0 < d) (hd3 : d ≤ 3) (hpos : ∀ a, 0 < nx a) (hng : 2 ≤ ng) (hp : ParamsOk p order) (hA : MachineOk nx ng Gr A)
    (hI : InitOf nx ng A S Fx U up) (clock : ℕ → Bool) (he : p.hydro.eos.Lawful) {e : ℝ} (hev : ∀ r, 0 < r → p.hydro.eos.evolFromPres r w.P = e)
    (hP : 0 < w.P) (hl : p.hydro.lim = .constant) (hsol : p.hydro.sol = .hllc)
    (hgeom : p.hydro.geom = .cartesian) (hb : ∀ a f, p.hydro.bcs a f = .periodic)
    (h0 : ∀ W C a, Gr W C a = 0) (hfix : p.fix = none) (hs : p.step ≠ .heatNickel)
    (hh : ∀ a, 0 < h a) (hX : ∀ a i, X a (i + 1) - X a i = h a) (hc0 : 0 ≤ p.loop.cfl) (hc1 : p.loop.cfl ≤ 1) (ht : p.tIni ≤ p.loop.tEnd)
    (hM : 0 ≤ M) (hr : ∀ x y, |r y - r x - ∑ a, D x a * (y a - x a)| ≤ M * ∑ a, (y a - x a) ^ 2)
    (hper : ∀ x (k : Fin d → ℤ), r (fun a => x a + k a * (nx (ax a) * h (ax a))) = r x)
    (hlo : 0 < lo) (hrg : ∀ x, lo ≤ r x ∧ r x ≤ hi) (hS : ∀ g, inBox 0 nx g → S g = ⟨r (cellCentre X (g + nghostOf d ng)), w.u, w.P⟩) (k : ℕ) :
    ∃ z, progRun p nx (nghostOf d ng) (borderOf A.dims) A clock (progFresh p nx (nghostOf d ng) (borderOf A.dims) A X U up) k = some z ∧
      (∀ rank, inBox 0 A.dims rank → ∀ c, inExt (localExt nx A.dims (nghostOf d ng) rank) c = true →
        |(z.s.h.val rank c).rho - r (fun a => cellCentre X (c + startCell nx A.dims rank) a - (z.s.t - p.tIni) * w.u a)| ≤ 2 * M * (z.s.t - p.tIni) * ∑ a, |w.u a| * h (ax a)) ∧
      ∀ f ∈ z.files, ∀ g, inBox 0 nx g →
        |f.h.rho.at g - r (fun a => cellCentre X (g + nghostOf d ng) a - (f.t - p.tIni) * w.u a)| ≤ 2 * M * (f.t - p.tIni) * ∑ a, |w.u a| * h (ax a) := by
  obtain ⟨z0, e0, f0⟩ := progFresh_follows (X := X) hd3 (fun a => (hpos a).le) hng hp hA hI
  obtain ⟨z, e, hz⟩ := progRun_follows hd3 (fun a => (hpos a).le) hng hp hA clock e0 f0 k
  have htt : ∀ W, (freshRun p.loop p.tIni W : RunState (Cell → Fields d n ℝ) ℝ).s.t = p.tIni := fun W => by unfold freshRun; split <;> rfl
  set J : (Cell → Fields d n ℝ) → ℝ → Prop := fun W t => (∀ C, InWind p.hydro.eos w lo hi (W C)) ∧
    ErrorAt X r w.u (t - p.tIni) (2 * M * (t - p.tIni) * ∑ a, |w.u a| * h (ax a)) fun c => (W c).rho with hJ
  have hinit : J (bcGlob p.hydro.bcs nx (nghostOf d ng) order (fun g => consFields p.hydro.eos (S g) (Fx g))) p.tIni := by
    rw [bcGlob_wrap hb]
    have hval : ∀ C, S (wrap nx (C - nghostOf d ng)) = ⟨r (cellCentre X (wrap nx (C - nghostOf d ng) + nghostOf d ng)), w.u, w.P⟩ := fun C =>
      hS _ fun a => ⟨Int.emod_nonneg _ (hpos a).ne', Int.emod_lt_of_pos _ (hpos a)⟩
    refine ⟨fun C => ?_, fun C => ?_⟩
    · dsimp only
      rw [hval]
      exact ⟨rfl, hrg _⟩
    · dsimp only
      rw [hval, sub_self, mul_zero, zero_mul, ← errorAt_wrap hX hper (nghostOf d ng)]
      refine le_of_eq (abs_eq_zero.2 (sub_eq_zero.2 ?_))
      show r _ = r _
      congr 1
      funext a
      rw [zero_mul, sub_zero]
  have hadm : ∀ W : Cell → Fields d n ℝ, (∀ C, InWind p.hydro.eos w lo hi (W C)) → ∀ C, (W C).cons.Adm p.hydro.eos := fun W hW C => by
    rw [(hW C).1]
    exact adm_toCons he (hlo.trans_le (hW C).2.1) hP
  have hX' : ∀ a i, 0 ≤ i → i < nx a + 2 * nghostOf d ng a → X a i < X a (i + 1) := fun a i _ _ => sub_pos.1 (by rw [hX]; exact hh a)
  have h0in : inExt (globExt nx (nghostOf d ng)) 0 = true := inExt_iff.2 fun a => by
    have := hpos a
    have h3 : 0 ≤ nghostOf d ng a := by unfold nghostOf; split <;> omega
    simp only [globExt, Pi.zero_apply]
    omega
  have hprim : ∀ W : Cell → Fields d n ℝ, (∀ C, InWind p.hydro.eos w lo hi (W C)) → ∀ C, primGlob p.hydro.eos W C = w := fun W hW C => by
    rw [primGlob_toPrim, (hW C).1, toPrim_toCons he (hlo.trans_le (hW C).2.1)]
  have key := runN_inv_dt (q := p.loop) (hy := globHydro p nx ng X Gr order) (clock := clock)
    (r := freshRun p.loop p.tIni (bcGlob p.hydro.bcs nx (nghostOf d ng) order fun g => consFields p.hydro.eos (S g) (Fx g))) (I := J)
    (by unfold freshRun; split <;> exact hinit)
    (fun o ho => by
      unfold freshRun at ho
      split at ho
      · rw [List.mem_singleton.1 ho]
        exact hinit
      · exact absurd ho List.not_mem_nil) (by rw [htt]; exact ht)
    (fun W t hW => mul_nonneg hc0 (glob_dt_sum (Gr := Gr) (order := order) hd hpos hng he hgeom hX' hc1 (hadm W hW.1)).1.le)
    (fun W t dt hW q1 q2 => by
      have hcs := (glob_dt_sum (Gr := Gr) (order := order) hd hpos hng he hgeom hX' hc1 (hadm W hW.1)).2 dt q1 q2 0 h0in
      rw [hprim W hW.1] at hcs
      simp only [hX] at hcs
      rw [advance_plain hd3 hgeom hfix hs]
      have hk : (plainKernels p).k = exactKernels .constant .hllc p.hydro.eos p.hydro.tr .cartesian none := by rw [← hsol, ← hl]; rfl
      refine ⟨minmod_iter (p := plainKernels p) (lim := .constant) (tr := p.hydro.tr) hd3 hk (Or.inl rfl) rfl he hev hP hpos hng (fun a f => Or.inl (hb a f)) hh hX h0 hlo hW.1 q1 hcs, ?_⟩
      have := constant_iter_error (p := plainKernels p) (order := order) hd3 hk rfl he hev hP hpos hng hb hh hX h0 hlo hM hr hper hW.1 hW.2 q1 hcs
      rw [show t + dt - p.tIni = t - p.tIni + dt by ring]
      refine fun C => (this C).trans (le_of_eq ?_)
      ring) k
  refine ⟨z, e, fun r hr c hc => ?_, fun f hf g hg => ?_⟩
  · have ht : z.s.t = (runN p.loop (globHydro p nx ng X Gr order) clock (freshRun p.loop p.tIni (bcGlob p.hydro.bcs nx (nghostOf d ng) order fun g => consFields p.hydro.eos (S g) (Fx g))) k).s.t :=
      congrArg LoopState.t hz.s
    rw [hz.h.val r hr c hc, ht]
    exact key.1.2 _
  · obtain ⟨o, ho, hfo, hfo'⟩ := forall₂_mem hz.files hf
    have ht : f.t = o.t := congrArg LoopState.t hfo'
    rw [FileOf.at hfo.rho hg, ht]
    exact (key.2.2 o ho).2 _

/-- **C105, a mass fraction in a uniform stream.** As `C105_density_partial` for a mass fraction in a fluid of uniform density, velocity and pressure, with any solver and any equation of state that inverts. -/
theorem C105_fraction_partial {i : Fin n} {rho : ℝ} (hd : 0 < d) (hd3 : d ≤ 3) (hpos : ∀ a, 0 < nx a) (hng : 2 ≤ ng) (hp : ParamsOk p order) (hA : MachineOk nx ng Gr A)
    (hI : InitOf nx ng A S Fx U up) (clock : ℕ → Bool) (he : p.hydro.eos.Lawful)
    (hP : 0 < w.P) (hrho : 0 < rho) (hl : p.hydro.lim = .constant)
    (hgeom : p.hydro.geom = .cartesian) (hb : ∀ a f, p.hydro.bcs a f = .periodic)
    (h0 : ∀ W C a, Gr W C a = 0) (hfix : p.fix = none) (hs : p.step ≠ .heatNickel)
    (hh : ∀ a, 0 < h a) (hX : ∀ a i, X a (i + 1) - X a i = h a) (hc0 : 0 ≤ p.loop.cfl) (hc1 : p.loop.cfl ≤ 1) (ht : p.tIni ≤ p.loop.tEnd)
    (hM : 0 ≤ M) (hr : ∀ x y, |r y - r x - ∑ a, D x a * (y a - x a)| ≤ M * ∑ a, (y a - x a) ^ 2)
    (hper : ∀ x (k : Fin d → ℤ), r (fun a => x a + k a * (nx (ax a) * h (ax a))) = r x)
    (hrg : ∀ x, 0 ≤ r x ∧ r x ≤ 1) (hS : ∀ g, inBox 0 nx g → S g = ⟨rho, w.u, w.P⟩ ∧ Fx g i = r (cellCentre X (g + nghostOf d ng))) (k : ℕ) :
    ∃ z, progRun p nx (nghostOf d ng) (borderOf A.dims) A clock (progFresh p nx (nghostOf d ng) (borderOf A.dims) A X U up) k = some z ∧
      (∀ rank, inBox 0 A.dims rank → ∀ c, inExt (localExt nx A.dims (nghostOf d ng) rank) c = true →
        |(z.s.h.val rank c).fx i - r (fun a => cellCentre X (c + startCell nx A.dims rank) a - (z.s.t - p.tIni) * w.u a)| ≤ 2 * M * (z.s.t - p.tIni) * ∑ a, |w.u a| * h (ax a)) ∧
      ∀ f ∈ z.files, ∀ g, inBox 0 nx g →
        |(f.h.fx i).at g - r (fun a => cellCentre X (g + nghostOf d ng) a - (f.t - p.tIni) * w.u a)| ≤ 2 * M * (f.t - p.tIni) * ∑ a, |w.u a| * h (ax a) := by
  obtain ⟨z0, e0, f0⟩ := progFresh_follows (X := X) hd3 (fun a => (hpos a).le) hng hp hA hI
  obtain ⟨z, e, hz⟩ := progRun_follows hd3 (fun a => (hpos a).le) hng hp hA clock e0 f0 k
  have htt : ∀ W, (freshRun p.loop p.tIni W : RunState (Cell → Fields d n ℝ) ℝ).s.t = p.tIni := fun W => by unfold freshRun; split <;> rfl
  set Q : Fields d n ℝ → Prop := fun s => s.cons = toCons p.hydro.eos ⟨rho, w.u, w.P⟩ ∧ 0 ≤ s.fx i ∧ s.fx i ≤ 1 with hQ
  set J : (Cell → Fields d n ℝ) → ℝ → Prop := fun W t => (∀ C, Q (W C)) ∧
    ErrorAt X r w.u (t - p.tIni) (2 * M * (t - p.tIni) * ∑ a, |w.u a| * h (ax a)) fun c => (W c).fx i with hJ
  have hinit : J (bcGlob p.hydro.bcs nx (nghostOf d ng) order (fun g => consFields p.hydro.eos (S g) (Fx g))) p.tIni := by
    rw [bcGlob_wrap hb]
    have hval : ∀ C, S (wrap nx (C - nghostOf d ng)) = ⟨rho, w.u, w.P⟩ ∧ Fx (wrap nx (C - nghostOf d ng)) i = r (cellCentre X (wrap nx (C - nghostOf d ng) + nghostOf d ng)) := fun C =>
      hS _ fun a => ⟨Int.emod_nonneg _ (hpos a).ne', Int.emod_lt_of_pos _ (hpos a)⟩
    refine ⟨fun C => ?_, fun C => ?_⟩
    · refine ⟨?_, ?_⟩
      · dsimp only
        rw [(hval C).1]
        rfl
      · show 0 ≤ Fx _ i ∧ Fx _ i ≤ 1
        rw [(hval C).2]
        exact hrg _
    · dsimp only
      show |Fx _ i - _| ≤ _
      rw [(hval C).2, sub_self, mul_zero, zero_mul, ← errorAt_wrap hX hper (nghostOf d ng)]
      refine le_of_eq (abs_eq_zero.2 (sub_eq_zero.2 ?_))
      show r _ = r _
      congr 1
      funext a
      rw [zero_mul, sub_zero]
  have hadm : ∀ W : Cell → Fields d n ℝ, (∀ C, Q (W C)) → ∀ C, (W C).cons.Adm p.hydro.eos := fun W hW C => by
    rw [(hW C).1]
    exact adm_toCons he hrho hP
  have hX' : ∀ a i, 0 ≤ i → i < nx a + 2 * nghostOf d ng a → X a i < X a (i + 1) := fun a i _ _ => sub_pos.1 (by rw [hX]; exact hh a)
  have h0in : inExt (globExt nx (nghostOf d ng)) 0 = true := inExt_iff.2 fun a => by
    have := hpos a
    have h3 : 0 ≤ nghostOf d ng a := by unfold nghostOf; split <;> omega
    simp only [globExt, Pi.zero_apply]
    omega
  have hprim : ∀ W : Cell → Fields d n ℝ, (∀ C, Q (W C)) → ∀ C, primGlob p.hydro.eos W C = w := fun W hW C => by
    rw [primGlob_toPrim, (hW C).1, toPrim_toCons he hrho]
  have key := runN_inv_dt (q := p.loop) (hy := globHydro p nx ng X Gr order) (clock := clock)
    (r := freshRun p.loop p.tIni (bcGlob p.hydro.bcs nx (nghostOf d ng) order fun g => consFields p.hydro.eos (S g) (Fx g))) (I := J)
    (by unfold freshRun; split <;> exact hinit)
    (fun o ho => by
      unfold freshRun at ho
      split at ho
      · rw [List.mem_singleton.1 ho]
        exact hinit
      · exact absurd ho List.not_mem_nil) (by rw [htt]; exact ht)
    (fun W t hW => mul_nonneg hc0 (glob_dt_sum (Gr := Gr) (order := order) hd hpos hng he hgeom hX' hc1 (hadm W hW.1)).1.le)
    (fun W t dt hW q1 q2 => by
      have hcs := (glob_dt_sum (Gr := Gr) (order := order) hd hpos hng he hgeom hX' hc1 (hadm W hW.1)).2 dt q1 q2 0 h0in
      rw [hprim W hW.1] at hcs
      simp only [hX] at hcs
      rw [advance_plain hd3 hgeom hfix hs]
      have hk : (plainKernels p).k = exactKernels .constant p.hydro.sol p.hydro.eos p.hydro.tr .cartesian none := by rw [← hl]; rfl
      refine ⟨minmod_fx_iter (p := plainKernels p) (lim := .constant) (tr := p.hydro.tr) hd3 hk (Or.inl rfl) rfl he hP hrho hpos hng (fun a f => Or.inl (hb a f)) hh hX h0 le_rfl le_rfl hW.1 q1 hcs, ?_⟩
      have := constant_fx_iter_error (p := plainKernels p) (order := order) hd3 hk rfl he hP hrho hpos hng hb hh hX h0 hM hr hper hW.1 hW.2 q1 hcs
      rw [show t + dt - p.tIni = t - p.tIni + dt by ring]
      refine fun C => (this C).trans (le_of_eq ?_)
      ring) k
  refine ⟨z, e, fun r hr c hc => ?_, fun f hf g hg => ?_⟩
  · have ht : z.s.t = (runN p.loop (globHydro p nx ng X Gr order) clock (freshRun p.loop p.tIni (bcGlob p.hydro.bcs nx (nghostOf d ng) order fun g => consFields p.hydro.eos (S g) (Fx g))) k).s.t :=
      congrArg LoopState.t hz.s
    rw [hz.h.val r hr c hc, ht]
    exact key.1.2 _
  · obtain ⟨o, ho, hfo, hfo'⟩ := forall₂_mem hz.files hf
    have ht : f.t = o.t := congrArg LoopState.t hfo'
    rw [FileOf.at (hfo.fx i) hg, ht]
    exact (key.2.2 o ho).2 _

/-- The sine is smooth. -/
theorem sin_smooth (x y : ℝ) : |Real.sin y - Real.sin x - Real.cos x * (y - x)| ≤ 3 / 2 * (y - x) ^ 2 := by
  obtain ⟨e, rfl⟩ : ∃ e, y = x + e := ⟨y - x, by ring⟩
  rw [Real.sin_add, add_sub_cancel_left]
  have h1 : |Real.cos e - 1| ≤ e ^ 2 / 2 := by
    rw [abs_le]
    have := Real.one_sub_sq_div_two_le_cos (x := e)
    have := Real.cos_le_one e
    constructor <;> nlinarith
  have key : ∀ e : ℝ, 0 ≤ e → |Real.sin e - e| ≤ e ^ 2 := by
    intro e he
    rw [abs_of_nonpos (sub_nonpos.2 (Real.sin_le he)), neg_sub]
    rcases he.eq_or_lt with rfl | hp
    · simp
    rcases le_total e 1 with h | h
    · have := Real.sin_gt_sub_cube hp
      nlinarith [mul_le_mul_of_nonneg_left h (sq_nonneg e)]
    rcases le_total e 2 with h2 | h2
    · have := Real.sin_nonneg_of_nonneg_of_le_pi he (h2.trans Real.two_le_pi)
      nlinarith
    · have := Real.neg_one_le_sin e
      nlinarith
  have h2 : |Real.sin e - e| ≤ e ^ 2 := by
    rcases le_total 0 e with h | h
    · exact key e h
    · have := key (-e) (neg_nonneg.2 h)
      rw [Real.sin_neg, neg_sq] at this
      rw [← abs_neg]
      calc |-(Real.sin e - e)| = |-Real.sin e - -e| := by ring_nf
        _ ≤ _ := this
  calc |Real.sin x * Real.cos e + Real.cos x * Real.sin e - Real.sin x - Real.cos x * e|
      = |Real.sin x * (Real.cos e - 1) + Real.cos x * (Real.sin e - e)| := by ring_nf
    _ ≤ |Real.sin x * (Real.cos e - 1)| + |Real.cos x * (Real.sin e - e)| := abs_add_le _ _
    _ ≤ 1 * (e ^ 2 / 2) + 1 * e ^ 2 := by
        rw [abs_mul, abs_mul]
        exact add_le_add (mul_le_mul (Real.abs_sin_le_one _) h1 (abs_nonneg _) zero_le_one) (mul_le_mul (Real.abs_cos_le_one _) h2 (abs_nonneg _) zero_le_one)
    _ = 3 / 2 * e ^ 2 := by ring

/-- The hypotheses hold for a sine wave of density in the tube `[0, 1]` of `2 m` cells on two processes, perfect gas, Courant number 0.8: after 100 iterations the densities of all files are
within `12 π² (t - tIni) |v| / (2 m)` of the exact wave, a bound as small as one wants when `m` is large. -/
example (p : ProgParams 1 0) (hb : p.hydro.bcs = fun _ _ => .periodic)
    (hpo : p.hydro.order = [some 0, some 1]) (hs : p.step = .off) (hf : p.fix = none) (ht : p.top = 10 ^ 308) {g : Gas} (hg : g.Physical)
    (he : p.hydro.eos = PerfectGas.toEoS g) (hge : p.hydro.geom = .cartesian) (hl : p.hydro.lim = .constant) (hsol : p.hydro.sol = .hllc)
    (hc : p.loop.cfl = 8 / 10) (h0 : p.tIni = 0) (h1 : p.loop.tEnd = 1) (v : ℝ) (clock : ℕ → Bool) (m : ℕ) (hm : 2 ≤ m) :
    ∃ (A : Machine 1 0) (IA : (Cell → View Cell (Fields 1 0 ℝ)) × (Cell → View Cell (VelPres 1 ℝ))) (z : ProgState 1 0), A.dims = ![2, 1, 1] ∧
      progRun p ![2 * m, 1, 1] (nghostOf 1 2) (borderOf A.dims) A clock
        (progFresh p ![2 * m, 1, 1] (nghostOf 1 2) (borderOf A.dims) A (fun _ i => (i - 2 : ℝ) / (2 * m)) IA.1 IA.2) 100 = some z ∧
      ∀ f ∈ z.files, ∀ i : ℤ, 0 ≤ i → i < 2 * m →
        |f.h.rho.at ![i, 0, 0] - (2 + Real.sin (2 * Real.pi * ((i + 1 / 2) / (2 * m) - f.t * v)))| ≤ 12 * Real.pi ^ 2 * f.t * |v| / (2 * m) := by
  have hm0 : (0 : ℝ) < m := by exact_mod_cast (by omega : 0 < m)
  have hN : ∀ a, 0 ≤ (![2 * m, 1, 1] : Cell) a := by
    intro a
    fin_cases a <;> simp
  have hpos : ∀ a, 0 < (![2 * m, 1, 1] : Cell) a := by
    intro a
    fin_cases a
    · show (0 : ℤ) < 2 * m
      omega
    · exact one_pos
    · exact one_pos
  have hp : ParamsOk p [0, 1] := ⟨by rw [hb]; simp, by decide, hpo, by rw [hs]; simp, by rw [ht]; norm_num⟩
  have hA := mkMachine_ok (d := 1) (n := 0) (ng := 2) hN (dims := ![2, 1, 1]) (by decide) 0 (by norm_num) (by
    intro a ha r h0 h1
    rw [localSize_eq (hN a) (lt_of_le_of_lt h0 h1)]
    fin_cases a
    · have e1 : (2 * (m : ℤ)) % 2 = 0 := by omega
      have e2 : (2 * (m : ℤ)) / 2 = m := by omega
      simp only [Matrix.cons_val_zero, Fin.zero_eta, Fin.isValue, e1, e2]
      simp [not_lt.2 h0]
      omega
    · simp at ha
    · simp at ha)
  set r : (Fin 1 → ℝ) → ℝ := fun x => 2 + Real.sin (2 * Real.pi * x 0) with hr
  have hi := initArrays_ok (nx := ![2 * m, 1, 1]) (ng := 2) (A := mkMachine 1 0 ![2 * m, 1, 1] 2 hN ![2, 1, 1] (by decide) 0)
    (fun c => ⟨r (cellCentre (fun _ i => (i - 2 : ℝ) / (2 * m)) (c + nghostOf 1 2)), fun _ => v, 7⟩) (fun _ => Fin.elim0)
  obtain ⟨z, e, -, h2⟩ := C105_density_partial (p := p) (w := ⟨fun _ => v, 7⟩) (h := fun _ => 1 / (2 * m)) (lo := 1) (hi := 3) (M := 3 / 2 * (2 * Real.pi) ^ 2)
    (D := fun x _ => 2 * Real.pi * Real.cos (2 * Real.pi * x 0)) (r := r) one_pos (by norm_num) hpos (by norm_num) hp hA hi clock
    (by rw [he]; exact PerfectGas.lawful hg) (e := 7 / g.gammaM1) (fun r hr => by rw [he]; exact perfectGas_evol hg 7 hr) (by norm_num) hl hsol hge
    (fun a f => by rw [hb]) (fun _ _ _ => rfl) hf (by rw [hs]; simp) (fun _ => by positivity) (X := fun _ i => (i - 2 : ℝ) / (2 * m)) (fun a i => by push_cast; ring) (by rw [hc]; norm_num) (by rw [hc]; norm_num)
    (by rw [h0, h1]; norm_num) (by positivity)
    (fun x y => by
      have := sin_smooth (2 * Real.pi * x 0) (2 * Real.pi * y 0)
      simp only [Fin.sum_univ_one, hr]
      calc _ = |Real.sin (2 * Real.pi * y 0) - Real.sin (2 * Real.pi * x 0) - Real.cos (2 * Real.pi * x 0) * (2 * Real.pi * y 0 - 2 * Real.pi * x 0)| := by ring_nf
        _ ≤ _ := this
        _ = _ := by ring)
    (fun x k => by
      simp only [hr]
      have : 2 * Real.pi * (x 0 + (k 0 : ℝ) * ((((![2 * m, 1, 1] : Cell) (ax (0 : Fin 1)) : ℤ) : ℝ) * (1 / (2 * m)))) = 2 * Real.pi * x 0 + (k 0 : ℝ) * (2 * Real.pi) := by
        have e : (((![2 * m, 1, 1] : Cell) (ax (0 : Fin 1)) : ℤ) : ℝ) = 2 * m := by
          show (((2 * m : ℤ)) : ℝ) = _
          push_cast
          ring
        rw [e]
        field_simp
      rw [this, Real.sin_add_int_mul_two_pi])
    one_pos (fun x => by
      have := Real.neg_one_le_sin (2 * Real.pi * x 0)
      have := Real.sin_le_one (2 * Real.pi * x 0)
      constructor <;> simp only [hr] <;> linarith) (fun g _ => rfl) 100
  refine ⟨_, _, z, rfl, e, fun f hf i hi0 hi1 => ?_⟩
  have := h2 f hf ![i, 0, 0] (by
    intro a
    fin_cases a
    · exact ⟨hi0, hi1⟩
    · exact ⟨le_rfl, one_pos⟩
    · exact ⟨le_rfl, one_pos⟩)
  simp only [hr, Fin.sum_univ_one, h0, sub_zero] at this
  have ec : cellCentre (d := 1) (fun _ i => (i - 2 : ℝ) / (2 * m)) (![i, 0, 0] + nghostOf 1 2) 0 = (i + 1 / 2) / (2 * m) := by
    have : (![i, 0, 0] + nghostOf 1 2) (ax (0 : Fin 1)) = i + 2 := rfl
    unfold cellCentre
    rw [this]
    push_cast
    field_simp
    ring
  rw [ec] at this
  refine this.trans (le_of_eq ?_)
  ring

end Heracles

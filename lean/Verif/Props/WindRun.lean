import Verif.Props.TotalVariation
import Verif.Props.WindRange
import Verif.Props.MaxPrincipleRun

/-!
# C102 over whole runs of the program

The time step is the one the program computes.
-/

namespace Heracles

variable {d n : ℕ} {p : ProgParams d n} {nx : Cell} {ng : ℤ} {X : Fin 3 → ℤ → ℝ} {Gr : (Cell → Fields d n ℝ) → Cell → Fin d → ℝ} {A : Machine d n}
  {order : List ℕ} {S : Cell → Prim d ℝ} {Fx : Cell → Fin n → ℝ} {U : Cell → View Cell (Fields d n ℝ)} {up : Cell → View Cell (VelPres d ℝ)}

/-- The kernels of a program without pressure fix. -/
noncomputable def plainKernels (p : ProgParams d n) : KernelParams d n ℝ where
  k := exactKernels p.hydro.lim p.hydro.sol p.hydro.eos p.hydro.tr .cartesian none
  geom := .cartesian
  lo := 0
  policy := fun _ => 0
  user := fun _ _ v => some v
  bcs := p.hydro.bcs
  order := []

/-- An iteration of the program is one of the kernels. -/
theorem advance_plain (hd3 : d ≤ 3) (hgeom : p.hydro.geom = .cartesian) (hfix : p.fix = none) (hs : p.step ≠ .heatNickel) (W : Cell → Fields d n ℝ) (t dt : ℝ) :
    (globHydro p nx ng X Gr order).advance W t dt = kIterGlob (plainKernels p) nx ng X Gr order dt W := by
  rw [globHydro_advance, kIterGlob]
  refine congrArg (bcGlob p.hydro.bcs nx (nghostOf d ng) order) ?_
  funext g
  have hG : kGrid (plainKernels p).k (plainKernels p).geom X (Gr W) = globGrid p.hydro.tr .cartesian X (Gr W) := rfl
  have hU : kPrimGlob (plainKernels p).k W = primGlob p.hydro.eos W := by
    funext C
    rw [primGlob_toPrim]
    rfl
  rw [progVal_plain hfix hs, hgeom, hG, hU]
  show _ = kStepVal (exactKernels p.hydro.lim p.hydro.sol p.hydro.eos p.hydro.tr .cartesian none) .cartesian _ dt W _ _
  rw [kStepVal_exact hd3]

/-- The time step of the loop keeps the sum over the axes of the numbers of cells crossed below the Courant number. -/
theorem glob_dt_sum (hd : 0 < d) (hpos : ∀ a, 0 < nx a) (hng : 2 ≤ ng) (he : p.hydro.eos.Lawful) (hgeom : p.hydro.geom = .cartesian)
    (hX : ∀ a i, 0 ≤ i → i < nx a + 2 * nghostOf d ng a → X a i < X a (i + 1)) (hc1 : p.loop.cfl ≤ 1)
    {W : Cell → Fields d n ℝ} (hW : ∀ C, (W C).cons.Adm p.hydro.eos) :
    0 < (globHydro p nx ng X Gr order).timeStep W ∧
    ∀ dt, 0 ≤ dt → dt ≤ p.loop.cfl * (globHydro p nx ng X Gr order).timeStep W → ∀ C, inExt (globExt nx (nghostOf d ng)) C = true →
      ∑ a : Fin d, dt * |(primGlob p.hydro.eos W C).u a| / (X (ax a) (C (ax a) + 1) - X (ax a) (C (ax a))) ≤ 1 := by
  obtain ⟨m, hm⟩ := isRate_exists p.hydro.lo p.hydro.eos p.hydro.tr p.hydro.geom nx (nghostOf d ng) X W
  have hexp : ∀ (C : Cell), inExt (globExt nx (nghostOf d ng)) C = true → ∀ a : Fin 3, 0 ≤ C a ∧ C a < nx a + 2 * nghostOf d ng a := fun C hC a => by
    have := inExt_iff.1 hC a
    simpa [globExt] using this
  have hpr : ∀ C, primGlob p.hydro.eos W C = ⟨(W C).cons.vel, (W C).cons.pressure p.hydro.eos⟩ := fun C => by rw [primGlob_toPrim, toPrim_eq]
  have hsp : ∀ C, 0 < p.hydro.eos.sound (W C).rho (primGlob p.hydro.eos W C).P := fun C => by
    rw [hpr]
    exact ((hW C).sound he).1
  have hlen : ∀ C, inExt (globExt nx (nghostOf d ng)) C = true → ∀ a : Fin d, 0 < X (ax a) (C (ax a) + 1) - X (ax a) (C (ax a)) := fun C hC a =>
    sub_pos.2 (hX _ _ (hexp C hC _).1 (hexp C hC _).2)
  have hrate : ∀ C, inExt (globExt nx (nghostOf d ng)) C = true →
      ∑ a : Fin d, (|(primGlob p.hydro.eos W C).u a| + p.hydro.eos.sound (W C).rho (primGlob p.hydro.eos W C).P) / (X (ax a) (C (ax a) + 1) - X (ax a) (C (ax a))) ≤ m := by
    intro C hC
    refine le_trans (le_of_eq ?_) (hm.le C hC)
    unfold RankData.rate globRank
    simp only [hgeom, cellLength]
    rfl
  have h0in : inExt (globExt nx (nghostOf d ng)) 0 = true := inExt_iff.2 fun a => by
    have := hpos a
    have h3 : 0 ≤ nghostOf d ng a := by unfold nghostOf; split <;> omega
    simp only [globExt, Pi.zero_apply]
    omega
  have hm0 : 0 < m := by
    refine lt_of_lt_of_le (Finset.sum_pos (fun a _ => div_pos ?_ (hlen 0 h0in a)) ⟨⟨0, hd⟩, Finset.mem_univ _⟩) (hrate 0 h0in)
    exact add_pos_of_nonneg_of_pos (abs_nonneg _) (hsp 0)
  rw [globHydro_timeStep (Gr := Gr) (order := order) hm]
  refine ⟨by positivity, fun dt h1 h2 C hC => ?_⟩
  have hdm : dt * m ≤ 1 := by
    rw [mul_one_div, le_div_iff₀ hm0] at h2
    exact h2.trans hc1
  calc ∑ a : Fin d, dt * |(primGlob p.hydro.eos W C).u a| / (X (ax a) (C (ax a) + 1) - X (ax a) (C (ax a)))
      ≤ ∑ a : Fin d, dt * ((|(primGlob p.hydro.eos W C).u a| + p.hydro.eos.sound (W C).rho (primGlob p.hydro.eos W C).P) / (X (ax a) (C (ax a) + 1) - X (ax a) (C (ax a)))) := by
        refine Finset.sum_le_sum fun a _ => ?_
        rw [mul_div_assoc]
        refine mul_le_mul_of_nonneg_left (div_le_div_of_nonneg_right ?_ (hlen C hC a).le) h1
        have := hsp C
        linarith
    _ = dt * ∑ a : Fin d, (|(primGlob p.hydro.eos W C).u a| + p.hydro.eos.sound (W C).rho (primGlob p.hydro.eos W C).P) / (X (ax a) (C (ax a) + 1) - X (ax a) (C (ax a))) := by
        rw [Finset.mul_sum]
    _ ≤ dt * m := mul_le_mul_of_nonneg_left (hrate C hC) h1
    _ ≤ 1 := hdm

/-- A state with given density, velocity and pressure is physical. -/
theorem adm_toCons {eos : EoS ℝ} (he : eos.Lawful) {q : Prim d ℝ} (hr : 0 < q.rho) (hP : 0 < q.P) : (toCons eos q).Adm eos := by
  have e1 := toPrim_toCons he (p := q) hr
  refine ⟨hr, ?_⟩
  have := congrArg Prim.P e1
  rw [toPrim_eq] at this
  dsimp only at this
  rw [this]
  exact hP

theorem primGlob_toCons {eos : EoS ℝ} (he : eos.Lawful) {W : Cell → Fields d n ℝ} {C : Cell} {q : Prim d ℝ} (hr : 0 < q.rho) (h : (W C).cons = toCons eos q) :
    (primGlob eos W C).u = q.u := by
  rw [primGlob_toPrim, h, toPrim_toCons he hr]

section
variable {h : Fin 3 → ℝ} {w : VelPres d ℝ} {lo hi : ℝ}

/-- **C102, whole runs in one, two and three dimensions without slopes or with MinMod.** The program with HLLC on equal cells, Courant number at most 1, every boundary periodic or open, no gravity, no pressure
fix, no heating, a gas whose energy per volume depends on pressure only, any process grid. If velocity and pressure are uniform at the start and the densities lie between `lo > 0` and
`hi`, then at every turn this is so in all cells of the arrays, ghosts included, and in all files. -/
theorem C102_minmod_run_partial (hd : 0 < d) (hd3 : d ≤ 3) (hpos : ∀ a, 0 < nx a) (hng : 2 ≤ ng) (hp : ParamsOk p order) (hA : MachineOk nx ng Gr A)
    (hI : InitOf nx ng A S Fx U up) (clock : ℕ → Bool) (he : p.hydro.eos.Lawful) {e : ℝ} (hev : ∀ r, 0 < r → p.hydro.eos.evolFromPres r w.P = e)
    (hP : 0 < w.P) (hl : p.hydro.lim = .constant ∨ p.hydro.lim = .minmod) (hsol : p.hydro.sol = .hllc)
    (hgeom : p.hydro.geom = .cartesian) (hb : ∀ a f, p.hydro.bcs a f = .periodic ∨ p.hydro.bcs a f = .nullGradient)
    (h0 : ∀ W C a, Gr W C a = 0) (hfix : p.fix = none) (hs : p.step ≠ .heatNickel)
    (hh : ∀ a, 0 < h a) (hX : ∀ a i, X a (i + 1) - X a i = h a) (hc0 : 0 ≤ p.loop.cfl) (hc1 : p.loop.cfl ≤ 1) (ht : p.tIni ≤ p.loop.tEnd)
    (hlo : 0 < lo) (hS : ∀ g, inBox 0 nx g → (S g).u = w.u ∧ (S g).P = w.P ∧ lo ≤ (S g).rho ∧ (S g).rho ≤ hi) (k : ℕ) :
    ∃ z, progRun p nx (nghostOf d ng) (borderOf A.dims) A clock (progFresh p nx (nghostOf d ng) (borderOf A.dims) A X U up) k = some z ∧
      (∀ r, inBox 0 A.dims r → ∀ c, inExt (localExt nx A.dims (nghostOf d ng) r) c = true → InWind p.hydro.eos w lo hi (z.s.h.val r c)) ∧
      (∀ f ∈ z.files, ∀ g, inBox 0 nx g → lo ≤ f.h.rho.at g ∧ f.h.rho.at g ≤ hi ∧ (∀ a, (f.h.u a).at g = w.u a) ∧ f.h.P.at g = w.P) := by
  obtain ⟨z0, e0, f0⟩ := progFresh_follows (X := X) hd3 (fun a => (hpos a).le) hng hp hA hI
  obtain ⟨z, e, hz⟩ := progRun_follows hd3 (fun a => (hpos a).le) hng hp hA clock e0 f0 k
  have htt : ∀ W, (freshRun p.loop p.tIni W : RunState (Cell → Fields d n ℝ) ℝ).s.t = p.tIni := fun W => by unfold freshRun; split <;> rfl
  have hb2 : ∀ a f, p.hydro.bcs a f ≠ .reflexive := fun a f => by rcases hb a f with h | h <;> rw [h] <;> decide
  have hinit : ∀ C, InWind p.hydro.eos w lo hi (bcGlob p.hydro.bcs nx (nghostOf d ng) order (fun g => consFields p.hydro.eos (S g) (Fx g)) C) := fun C => by
    refine bcGlob_copies (P := InWind p.hydro.eos w lo hi) hb2 hpos (fun g hg => ?_) C
    obtain ⟨s1, s2, s3⟩ := hS g hg
    refine ⟨?_, s3⟩
    show toCons p.hydro.eos (S g) = toCons p.hydro.eos ⟨(S g).rho, w.u, w.P⟩
    rw [← s1, ← s2]
  have hadm : ∀ W : Cell → Fields d n ℝ, (∀ C, InWind p.hydro.eos w lo hi (W C)) → ∀ C, (W C).cons.Adm p.hydro.eos := fun W hW C => by
    rw [(hW C).1]
    exact adm_toCons he (hlo.trans_le (hW C).2.1) hP
  have hX' : ∀ a i, 0 ≤ i → i < nx a + 2 * nghostOf d ng a → X a i < X a (i + 1) := fun a i _ _ => sub_pos.1 (by rw [hX]; exact hh a)
  have h0in : inExt (globExt nx (nghostOf d ng)) 0 = true := inExt_iff.2 fun a => by
    have := hpos a
    have h3 : 0 ≤ nghostOf d ng a := by unfold nghostOf; split <;> omega
    simp only [globExt, Pi.zero_apply]
    omega
  have hprim : ∀ W : Cell → Fields d n ℝ, (∀ C, InWind p.hydro.eos w lo hi (W C)) → ∀ C, primGlob p.hydro.eos W C = w := fun W hW C => by
    rw [primGlob_toPrim, (hW C).1, toPrim_toCons he (hlo.trans_le (hW C).2.1)]
  have h1 := freshRun_invariant (q := p.loop) (t := p.tIni) (I := fun (W : Cell → Fields d n ℝ) => ∀ C, InWind p.hydro.eos w lo hi (W C)) hinit
  have key := runN_invariant_dt (q := p.loop) (hy := globHydro p nx ng X Gr order) (clock := clock)
    (I := fun (W : Cell → Fields d n ℝ) => ∀ C, InWind p.hydro.eos w lo hi (W C)) h1.1 h1.2 (by rw [htt]; exact ht)
    (fun W hW => mul_nonneg hc0 (glob_dt_sum (Gr := Gr) (order := order) hd hpos hng he hgeom hX' hc1 (hadm W hW)).1.le)
    (fun W t dt hW q1 q2 => by
      rw [advance_plain hd3 hgeom hfix hs]
      refine minmod_iter (p := plainKernels p) (lim := p.hydro.lim) (tr := p.hydro.tr) hd3 (by rw [← hsol]; rfl) hl rfl he hev hP hpos hng hb hh hX h0 hlo hW q1 ?_
      have := (glob_dt_sum (Gr := Gr) (order := order) hd hpos hng he hgeom hX' hc1 (hadm W hW)).2 dt q1 q2 0 h0in
      rw [hprim W hW] at this
      simpa only [hX] using this) k
  refine ⟨z, e, fun r hr c hc => ?_, fun f hf' g hg => ?_⟩
  · rw [hz.h.val r hr c hc]
    exact key.1 _
  · obtain ⟨o, ho, hfo, -⟩ := forall₂_mem hz.files hf'
    have ho' := key.2.2 o ho
    rw [FileOf.at hfo.rho hg, FileOf.at hfo.P hg, hprim _ ho']
    refine ⟨(ho' _).2.1, (ho' _).2.2, fun a => ?_, rfl⟩
    rw [FileOf.at (hfo.u a) hg, hprim _ ho']

/-- **C102, whole runs: a mass fraction in one, two and three dimensions without slopes or with MinMod.** As `C102_minmod_run_partial`, with any solver and any equation of state that inverts, for a mass fraction
in a fluid of uniform density, velocity and pressure. -/
theorem C102_minmod_fraction_run_partial {f : Fin n} {rho : ℝ} (hd : 0 < d) (hd3 : d ≤ 3) (hpos : ∀ a, 0 < nx a) (hng : 2 ≤ ng) (hp : ParamsOk p order) (hA : MachineOk nx ng Gr A)
    (hI : InitOf nx ng A S Fx U up) (clock : ℕ → Bool) (he : p.hydro.eos.Lawful)
    (hP : 0 < w.P) (hrho : 0 < rho) (hl : p.hydro.lim = .constant ∨ p.hydro.lim = .minmod)
    (hgeom : p.hydro.geom = .cartesian) (hb : ∀ a f, p.hydro.bcs a f = .periodic ∨ p.hydro.bcs a f = .nullGradient)
    (h0 : ∀ W C a, Gr W C a = 0) (hfix : p.fix = none) (hs : p.step ≠ .heatNickel)
    (hh : ∀ a, 0 < h a) (hX : ∀ a i, X a (i + 1) - X a i = h a) (hc0 : 0 ≤ p.loop.cfl) (hc1 : p.loop.cfl ≤ 1) (ht : p.tIni ≤ p.loop.tEnd)
    (hlo : 0 ≤ lo) (hhi : hi ≤ 1) (hS : ∀ g, inBox 0 nx g → S g = ⟨rho, w.u, w.P⟩ ∧ lo ≤ Fx g f ∧ Fx g f ≤ hi) (k : ℕ) :
    ∃ z, progRun p nx (nghostOf d ng) (borderOf A.dims) A clock (progFresh p nx (nghostOf d ng) (borderOf A.dims) A X U up) k = some z ∧
      (∀ r, inBox 0 A.dims r → ∀ c, inExt (localExt nx A.dims (nghostOf d ng) r) c = true → (z.s.h.val r c).cons = toCons p.hydro.eos ⟨rho, w.u, w.P⟩ ∧
        lo ≤ (z.s.h.val r c).fx f ∧ (z.s.h.val r c).fx f ≤ hi) ∧
      (∀ q ∈ z.files, ∀ g, inBox 0 nx g → q.h.rho.at g = rho ∧ lo ≤ (q.h.fx f).at g ∧ (q.h.fx f).at g ≤ hi) := by
  set Q : Fields d n ℝ → Prop := fun s => s.cons = toCons p.hydro.eos ⟨rho, w.u, w.P⟩ ∧ lo ≤ s.fx f ∧ s.fx f ≤ hi with hQ
  obtain ⟨z0, e0, f0⟩ := progFresh_follows (X := X) hd3 (fun a => (hpos a).le) hng hp hA hI
  obtain ⟨z, e, hz⟩ := progRun_follows hd3 (fun a => (hpos a).le) hng hp hA clock e0 f0 k
  have htt : ∀ W, (freshRun p.loop p.tIni W : RunState (Cell → Fields d n ℝ) ℝ).s.t = p.tIni := fun W => by unfold freshRun; split <;> rfl
  have hb2 : ∀ a f, p.hydro.bcs a f ≠ .reflexive := fun a f => by rcases hb a f with h | h <;> rw [h] <;> decide
  have hinit : ∀ C, Q (bcGlob p.hydro.bcs nx (nghostOf d ng) order (fun g => consFields p.hydro.eos (S g) (Fx g)) C) := fun C => by
    refine bcGlob_copies (P := Q) hb2 hpos (fun g hg => ?_) C
    obtain ⟨s1, s3⟩ := hS g hg
    refine ⟨?_, s3⟩
    show toCons p.hydro.eos (S g) = toCons p.hydro.eos ⟨rho, w.u, w.P⟩
    rw [s1]
  have hadm : ∀ W : Cell → Fields d n ℝ, (∀ C, Q (W C)) → ∀ C, (W C).cons.Adm p.hydro.eos := fun W hW C => by
    rw [(hW C).1]
    exact adm_toCons he hrho hP
  have hX' : ∀ a i, 0 ≤ i → i < nx a + 2 * nghostOf d ng a → X a i < X a (i + 1) := fun a i _ _ => sub_pos.1 (by rw [hX]; exact hh a)
  have h0in : inExt (globExt nx (nghostOf d ng)) 0 = true := inExt_iff.2 fun a => by
    have := hpos a
    have h3 : 0 ≤ nghostOf d ng a := by unfold nghostOf; split <;> omega
    simp only [globExt, Pi.zero_apply]
    omega
  have hprim : ∀ W : Cell → Fields d n ℝ, (∀ C, Q (W C)) → ∀ C, primGlob p.hydro.eos W C = w := fun W hW C => by
    rw [primGlob_toPrim, (hW C).1, toPrim_toCons he hrho]
  have h1 := freshRun_invariant (q := p.loop) (t := p.tIni) (I := fun (W : Cell → Fields d n ℝ) => ∀ C, Q (W C)) hinit
  have key := runN_invariant_dt (q := p.loop) (hy := globHydro p nx ng X Gr order) (clock := clock)
    (I := fun (W : Cell → Fields d n ℝ) => ∀ C, Q (W C)) h1.1 h1.2 (by rw [htt]; exact ht)
    (fun W hW => mul_nonneg hc0 (glob_dt_sum (Gr := Gr) (order := order) hd hpos hng he hgeom hX' hc1 (hadm W hW)).1.le)
    (fun W t dt hW q1 q2 => by
      rw [advance_plain hd3 hgeom hfix hs]
      refine minmod_fx_iter (p := plainKernels p) (lim := p.hydro.lim) (sol := p.hydro.sol) (tr := p.hydro.tr) hd3 rfl hl rfl he hP hrho hpos hng hb hh hX h0 hlo hhi hW q1 ?_
      have := (glob_dt_sum (Gr := Gr) (order := order) hd hpos hng he hgeom hX' hc1 (hadm W hW)).2 dt q1 q2 0 h0in
      rw [hprim W hW] at this
      simpa only [hX] using this) k
  refine ⟨z, e, fun r hr c hc => ?_, fun q hf' g hg => ?_⟩
  · rw [hz.h.val r hr c hc]
    exact key.1 _
  · obtain ⟨o, ho, hfo, -⟩ := forall₂_mem hz.files hf'
    have ho' := key.2.2 o ho
    rw [FileOf.at hfo.rho hg, FileOf.at (hfo.fx f) hg]
    exact ⟨congrArg Cons.rho (ho' _).1, (ho' _).2⟩

end

section
variable {n : ℕ} {p : ProgParams 1 n} {Gr : (Cell → Fields 1 n ℝ) → Cell → Fin 1 → ℝ} {A : Machine 1 n}
  {S : Cell → Prim 1 ℝ} {Fx : Cell → Fin n → ℝ} {U : Cell → View Cell (Fields 1 n ℝ)} {up : Cell → View Cell (VelPres 1 ℝ)} {h : Fin 3 → ℝ} {w : VelPres 1 ℝ} {lo hi : ℝ}

/-- The velocity of the wind and the time step of the loop. -/
theorem glob_dt_row (hpos : ∀ a, 0 < nx a) (hng : 2 ≤ ng) (he : p.hydro.eos.Lawful) (hgeom : p.hydro.geom = .cartesian)
    (hh : ∀ a, 0 < h a) (hX : ∀ a i, X a (i + 1) - X a i = h a) (hc1 : p.loop.cfl ≤ 1)
    {W : Cell → Fields 1 n ℝ} (hW : ∀ C, ∃ r, 0 < r ∧ (W C).cons = toCons p.hydro.eos ⟨r, w.u, w.P⟩) (hP : 0 < w.P) :
    0 < (globHydro p nx ng X Gr order).timeStep W ∧
    ∀ dt, 0 ≤ dt → dt ≤ p.loop.cfl * (globHydro p nx ng X Gr order).timeStep W → dt * |w.u 0| ≤ h 0 := by
  have hX' : ∀ a i, 0 ≤ i → i < nx a + 2 * nghostOf 1 ng a → X a i < X a (i + 1) := fun a i _ _ => sub_pos.1 (by rw [hX]; exact hh a)
  have h0in : inExt (globExt nx (nghostOf 1 ng)) 0 = true := inExt_iff.2 fun a => by
    have := hpos a
    have h3 : 0 ≤ nghostOf 1 ng a := by unfold nghostOf; split <;> omega
    simp only [globExt, Pi.zero_apply]
    omega
  obtain ⟨t1, t2⟩ := glob_dt_sum (p := p) (Gr := Gr) (order := order) one_pos hpos hng he hgeom hX' hc1 (W := W) (fun C => by
    obtain ⟨r, hr, e⟩ := hW C
    rw [e]
    exact adm_toCons he hr hP)
  refine ⟨t1, fun dt q1 q2 => ?_⟩
  have := t2 dt q1 q2 0 h0in
  obtain ⟨r, hr, e⟩ := hW 0
  rw [primGlob_toPrim, e, toPrim_toCons he hr] at this
  simp only [Finset.univ_unique, Fin.default_eq_zero, Finset.sum_singleton, hX] at this
  rw [div_le_one (hh _)] at this
  exact this

/-- The values of a row of `N` cells, repeated: same jumps. -/
theorem circleVar_emod {N : ℕ} (hN : (0 : ℤ) < N) (r : ℤ → ℝ) : circleVar N (fun k => r (k % N)) = circleVar N r := by
  unfold circleVar
  refine Finset.sum_congr rfl fun k hk => ?_
  have hk := Finset.mem_range.1 hk
  dsimp only
  rw [Int.emod_emod, Int.emod_eq_of_lt (a := (k : ℤ)) (by omega) (by omega)]

/-- **C102, whole runs of a contact wave.** The program in one dimension with HLLC and any limiter, periodic, equal cells, Courant number at most 1, no gravity, no pressure fix, no heating, a gas whose energy
per volume depends on pressure only, any process grid. If velocity and pressure are uniform at the start and the densities `r` lie between `lo > 0` and `hi` (with VanLeer and VanAlbada: `hi < 2 lo`), then at every turn and
in all files velocity and pressure are exactly what they were, the densities lie between `lo` and `hi`, and the sum of their jumps is at most that of the start. -/
theorem C102_contact_run_partial (hpos : ∀ a, 0 < nx a) (hng : 2 ≤ ng) (hp : ParamsOk p order) (hA : MachineOk nx ng Gr A)
    (hI : InitOf nx ng A S Fx U up) (clock : ℕ → Bool) (he : p.hydro.eos.Lawful) {e : ℝ} (hev : ∀ r, 0 < r → p.hydro.eos.evolFromPres r w.P = e)
    (hP : 0 < w.P) (hl : p.hydro.lim = .constant ∨ p.hydro.lim = .minmod ∨ hi < 2 * lo) (hsol : p.hydro.sol = .hllc)
    (hgeom : p.hydro.geom = .cartesian) (hb : ∀ a f, p.hydro.bcs a f = .periodic)
    (h0 : ∀ W C a, Gr W C a = 0) (hfix : p.fix = none) (hs : p.step ≠ .heatNickel)
    (hh : ∀ a, 0 < h a) (hX : ∀ a i, X a (i + 1) - X a i = h a) (hc0 : 0 ≤ p.loop.cfl) (hc1 : p.loop.cfl ≤ 1) (ht : p.tIni ≤ p.loop.tEnd)
    {N : ℕ} (hNx : nx 0 = N) {r : ℤ → ℝ} (hlo : 0 < lo) (hbd : ∀ i : ℤ, 0 ≤ i → i < N → lo ≤ r i ∧ r i ≤ hi) (hS : ∀ g, inBox 0 nx g → S g = ⟨r (g 0), w.u, w.P⟩) (k : ℕ) :
    ∃ z, progRun p nx (nghostOf 1 ng) (borderOf A.dims) A clock (progFresh p nx (nghostOf 1 ng) (borderOf A.dims) A X U up) k = some z ∧
      (∃ q : ℤ → ℝ, (∀ i, lo ≤ q i ∧ q i ≤ hi) ∧ circleVar N q ≤ circleVar N r ∧
        ∀ rank, inBox 0 A.dims rank → ∀ c, inExt (localExt nx A.dims (nghostOf 1 ng) rank) c = true →
          (z.s.h.val rank c).cons = toCons p.hydro.eos ⟨q (globalOf nx A.dims (nghostOf 1 ng) rank c 0), w.u, w.P⟩) ∧
      (∀ f ∈ z.files, ∃ q : ℤ → ℝ, (∀ i, lo ≤ q i ∧ q i ≤ hi) ∧ circleVar N q ≤ circleVar N r ∧
        ∀ g, inBox 0 nx g → f.h.rho.at g = q (g 0) ∧ (f.h.u 0).at g = w.u 0 ∧ f.h.P.at g = w.P) := by
  obtain ⟨z0, e0, f0⟩ := progFresh_follows (X := X) (by norm_num) (fun a => (hpos a).le) hng hp hA hI
  obtain ⟨z, e, hz⟩ := progRun_follows (by norm_num) (fun a => (hpos a).le) hng hp hA clock e0 f0 k
  have htt : ∀ W, (freshRun p.loop p.tIni W : RunState (Cell → Fields 1 n ℝ) ℝ).s.t = p.tIni := fun W => by unfold freshRun; split <;> rfl
  have hgh : nghostOf 1 ng 0 = ng := by simp [nghostOf]
  have hNp : (0 : ℤ) < N := hNx ▸ hpos 0
  set I : (Cell → Fields 1 n ℝ) → Prop := fun W => ∃ q : ℤ → ℝ, (∀ i, q (i + nx 0) = q i) ∧ (∀ i, lo ≤ q i ∧ q i ≤ hi) ∧ circleVar N q ≤ circleVar N r ∧
    ∀ C, (W C).cons = toCons p.hydro.eos ⟨q (C 0 - ng), w.u, w.P⟩ with hIdef
  have hinit : I (bcGlob p.hydro.bcs nx (nghostOf 1 ng) order fun g => consFields p.hydro.eos (S g) (Fx g)) := by
    refine ⟨fun i => r (i % N), fun i => by dsimp only; rw [hNx, Int.add_emod_right], fun i => hbd _ (Int.emod_nonneg _ hNp.ne') (Int.emod_lt_of_pos _ hNp),
      (circleVar_emod hNp r).le, fun C => ?_⟩
    rw [bcGlob_wrap hb]
    show toCons p.hydro.eos (S (wrap nx (C - nghostOf 1 ng))) = _
    rw [hS _ (wrap_add_inside hpos _)]
    simp only [wrap, Pi.sub_apply, hgh, hNx]
  have hrow : ∀ W, I W → ∀ C, ∃ r, 0 < r ∧ (W C).cons = toCons p.hydro.eos ⟨r, w.u, w.P⟩ := by
    rintro W ⟨q, -, q2, -, q4⟩ C
    exact ⟨_, hlo.trans_le (q2 _).1, q4 C⟩
  have h1 := freshRun_invariant (q := p.loop) (t := p.tIni) (I := I) hinit
  have key := runN_invariant_dt (q := p.loop) (hy := globHydro p nx ng X Gr order) (clock := clock) (I := I) h1.1 h1.2 (by rw [htt]; exact ht)
    (fun W hW => mul_nonneg hc0 (glob_dt_row (Gr := Gr) (order := order) hpos hng he hgeom hh hX hc1 (hrow W hW) hP).1.le)
    (fun W t dt hW q1 q2 => by
      have hd := (glob_dt_row (Gr := Gr) (order := order) hpos hng he hgeom hh hX hc1 (hrow W hW) hP).2 dt q1 q2
      obtain ⟨q, w1, w2, w3, w4⟩ := hW
      have hc : |dt * w.u 0 / h 0| ≤ 1 := by
        rw [abs_div, abs_mul, abs_of_nonneg q1, abs_of_pos (hh 0), div_le_one (hh 0)]
        exact hd
      rw [advance_plain (by norm_num) hgeom hfix hs]
      refine ⟨rowStep p.hydro.lim q (dt * w.u 0 / h 0), rowStep_periodic _ w1 _, rowStep_bounds _ w2 hc,
        (circleVar_step _ (by rw [← hNx]; exact w1) hc).trans w3, fun C => ?_⟩
      exact row_iter (p := plainKernels p) (lim := p.hydro.lim) (tr := p.hydro.tr) (by rw [← hsol]; rfl) rfl he hev hP hpos hng hb (hh 0) (fun i _ _ => hX 0 i)
        (fun a i _ _ => sub_pos.1 (by rw [hX]; exact hh a)) h0 w1 hlo w2 hl w4 q1 hd C) k
  refine ⟨z, e, ?_, fun f hf' => ?_⟩
  · obtain ⟨q, -, w2, w3, w4⟩ := key.1
    refine ⟨q, w2, w3, fun rank hr c hc => ?_⟩
    rw [hz.h.val rank hr c hc, w4]
    congr 2
    simp only [Pi.add_apply, globalOf, startCell, hgh]
    ring_nf
  · obtain ⟨o, ho, hfo, -⟩ := forall₂_mem hz.files hf'
    obtain ⟨q, -, w2, w3, w4⟩ := key.2.2 o ho
    refine ⟨q, w2, w3, fun g hg => ?_⟩
    have e2 : primGlob p.hydro.eos o.h (g + nghostOf 1 ng) = w := by
      rw [primGlob_toPrim, w4, toPrim_toCons he (hlo.trans_le (w2 _).1)]
    rw [FileOf.at hfo.rho hg, FileOf.at (hfo.u 0) hg, FileOf.at hfo.P hg, e2]
    refine ⟨?_, rfl, rfl⟩
    have := congrArg Cons.rho (w4 (g + nghostOf 1 ng))
    refine Eq.trans this ?_
    simp [hgh, toCons]

/-- **C102, whole runs of a mass fraction.** The program in one dimension with any solver and any limiter, periodic, equal cells, Courant number at most 1, no gravity, no pressure fix, no heating, any equation of
state that inverts, any process grid. If density, velocity and pressure are uniform at the start and the mass fractions `r` lie between `lo ≥ 0` and `hi ≤ 1`, then at every turn and in all files the fluid is exactly what
it was, the fractions lie between `lo` and `hi`, and the sum of their jumps is at most that of the start. -/
theorem C102_fraction_run_partial {f : Fin n} {rho : ℝ} (hpos : ∀ a, 0 < nx a) (hng : 2 ≤ ng) (hp : ParamsOk p order) (hA : MachineOk nx ng Gr A)
    (hI : InitOf nx ng A S Fx U up) (clock : ℕ → Bool) (he : p.hydro.eos.Lawful)
    (hP : 0 < w.P) (hrho : 0 < rho)
    (hgeom : p.hydro.geom = .cartesian) (hb : ∀ a f, p.hydro.bcs a f = .periodic)
    (h0 : ∀ W C a, Gr W C a = 0) (hfix : p.fix = none) (hs : p.step ≠ .heatNickel)
    (hh : ∀ a, 0 < h a) (hX : ∀ a i, X a (i + 1) - X a i = h a) (hc0 : 0 ≤ p.loop.cfl) (hc1 : p.loop.cfl ≤ 1) (ht : p.tIni ≤ p.loop.tEnd)
    {N : ℕ} (hNx : nx 0 = N) {r : ℤ → ℝ} (hlo : 0 ≤ lo) (hhi : hi ≤ 1) (hbd : ∀ i : ℤ, 0 ≤ i → i < N → lo ≤ r i ∧ r i ≤ hi) (hS : ∀ g, inBox 0 nx g → S g = ⟨rho, w.u, w.P⟩ ∧ Fx g f = r (g 0)) (k : ℕ) :
    ∃ z, progRun p nx (nghostOf 1 ng) (borderOf A.dims) A clock (progFresh p nx (nghostOf 1 ng) (borderOf A.dims) A X U up) k = some z ∧
      (∃ q : ℤ → ℝ, (∀ i, lo ≤ q i ∧ q i ≤ hi) ∧ circleVar N q ≤ circleVar N r ∧
        ∀ rank, inBox 0 A.dims rank → ∀ c, inExt (localExt nx A.dims (nghostOf 1 ng) rank) c = true →
          (z.s.h.val rank c).cons = toCons p.hydro.eos ⟨rho, w.u, w.P⟩ ∧ (z.s.h.val rank c).fx f = q (globalOf nx A.dims (nghostOf 1 ng) rank c 0)) ∧
      (∀ o ∈ z.files, ∃ q : ℤ → ℝ, (∀ i, lo ≤ q i ∧ q i ≤ hi) ∧ circleVar N q ≤ circleVar N r ∧
        ∀ g, inBox 0 nx g → (o.h.fx f).at g = q (g 0) ∧ o.h.rho.at g = rho ∧ (o.h.u 0).at g = w.u 0 ∧ o.h.P.at g = w.P) := by
  obtain ⟨z0, e0, f0⟩ := progFresh_follows (X := X) (by norm_num) (fun a => (hpos a).le) hng hp hA hI
  obtain ⟨z, e, hz⟩ := progRun_follows (by norm_num) (fun a => (hpos a).le) hng hp hA clock e0 f0 k
  have htt : ∀ W, (freshRun p.loop p.tIni W : RunState (Cell → Fields 1 n ℝ) ℝ).s.t = p.tIni := fun W => by unfold freshRun; split <;> rfl
  have hgh : nghostOf 1 ng 0 = ng := by simp [nghostOf]
  have hNp : (0 : ℤ) < N := hNx ▸ hpos 0
  set I : (Cell → Fields 1 n ℝ) → Prop := fun W => ∃ q : ℤ → ℝ, (∀ i, q (i + nx 0) = q i) ∧ (∀ i, lo ≤ q i ∧ q i ≤ hi) ∧ circleVar N q ≤ circleVar N r ∧
    ∀ C, (W C).cons = toCons p.hydro.eos ⟨rho, w.u, w.P⟩ ∧ (W C).fx f = q (C 0 - ng) with hIdef
  have hinit : I (bcGlob p.hydro.bcs nx (nghostOf 1 ng) order fun g => consFields p.hydro.eos (S g) (Fx g)) := by
    refine ⟨fun i => r (i % N), fun i => by dsimp only; rw [hNx, Int.add_emod_right], fun i => hbd _ (Int.emod_nonneg _ hNp.ne') (Int.emod_lt_of_pos _ hNp),
      (circleVar_emod hNp r).le, fun C => ?_⟩
    rw [bcGlob_wrap hb]
    obtain ⟨s1, s2⟩ := hS _ (wrap_add_inside hpos (C - nghostOf 1 ng))
    refine ⟨?_, ?_⟩
    · show toCons p.hydro.eos (S (wrap nx (C - nghostOf 1 ng))) = _
      rw [s1]
    · show Fx (wrap nx (C - nghostOf 1 ng)) f = _
      rw [s2]
      simp only [wrap, Pi.sub_apply, hgh, hNx]
  have hrow : ∀ W, I W → ∀ C, ∃ r, 0 < r ∧ (W C).cons = toCons p.hydro.eos ⟨r, w.u, w.P⟩ := by
    rintro W ⟨q, -, -, -, q4⟩ C
    exact ⟨_, hrho, (q4 C).1⟩
  have h1 := freshRun_invariant (q := p.loop) (t := p.tIni) (I := I) hinit
  have key := runN_invariant_dt (q := p.loop) (hy := globHydro p nx ng X Gr order) (clock := clock) (I := I) h1.1 h1.2 (by rw [htt]; exact ht)
    (fun W hW => mul_nonneg hc0 (glob_dt_row (Gr := Gr) (order := order) hpos hng he hgeom hh hX hc1 (hrow W hW) hP).1.le)
    (fun W t dt hW q1 q2 => by
      have hd := (glob_dt_row (Gr := Gr) (order := order) hpos hng he hgeom hh hX hc1 (hrow W hW) hP).2 dt q1 q2
      obtain ⟨q, w1, w2, w3, w4⟩ := hW
      have hc : |dt * w.u 0 / h 0| ≤ 1 := by
        rw [abs_div, abs_mul, abs_of_nonneg q1, abs_of_pos (hh 0), div_le_one (hh 0)]
        exact hd
      rw [advance_plain (by norm_num) hgeom hfix hs]
      refine ⟨rowStep p.hydro.lim q (dt * w.u 0 / h 0), rowStep_periodic _ w1 _, rowStep_bounds _ w2 hc,
        (circleVar_step _ (by rw [← hNx]; exact w1) hc).trans w3, fun C => ?_⟩
      exact row_fx_iter (p := plainKernels p) (lim := p.hydro.lim) (sol := p.hydro.sol) (tr := p.hydro.tr) rfl rfl he hP hrho hpos hng hb (hh 0) (fun i _ _ => hX 0 i)
        (fun a i _ _ => sub_pos.1 (by rw [hX]; exact hh a)) h0 w1 hlo hhi w2 w4 q1 hd C) k
  refine ⟨z, e, ?_, fun o hf' => ?_⟩
  · obtain ⟨q, -, w2, w3, w4⟩ := key.1
    refine ⟨q, w2, w3, fun rank hr c hc => ?_⟩
    rw [hz.h.val rank hr c hc]
    refine ⟨(w4 _).1, (w4 _).2.trans ?_⟩
    congr 1
    simp only [Pi.add_apply, globalOf, startCell, hgh]
    ring_nf
  · obtain ⟨o', ho, hfo, -⟩ := forall₂_mem hz.files hf'
    obtain ⟨q, -, w2, w3, w4⟩ := key.2.2 o' ho
    refine ⟨q, w2, w3, fun g hg => ?_⟩
    have e2 : primGlob p.hydro.eos o'.h (g + nghostOf 1 ng) = w := by
      rw [primGlob_toPrim, (w4 _).1, toPrim_toCons he hrho]
    rw [FileOf.at hfo.rho hg, FileOf.at (hfo.u 0) hg, FileOf.at hfo.P hg, FileOf.at (hfo.fx f) hg, e2]
    refine ⟨(w4 _).2.trans ?_, congrArg Cons.rho (w4 _).1, rfl, rfl⟩
    simp [hgh]

end

/-- A periodic tube of 8 cells on 2 ranks with VanLeer and HLLC, Courant number 0.8, perfect gas: a density of 1 or 3/2 in each cell carried by a wind. In the files of a hundred iterations the densities lie between
1 and 3/2 and velocity and pressure are those of the start. -/
example (p : ProgParams 1 0) (hb : p.hydro.bcs = fun _ _ => .periodic)
    (hpo : p.hydro.order = [some 0, some 1]) (hs : p.step = .off) (hf : p.fix = none) (ht : p.top = 10 ^ 308) {g : Gas} (hg : g.Physical)
    (he : p.hydro.eos = PerfectGas.toEoS g) (hge : p.hydro.geom = .cartesian) (hl : p.hydro.lim = .vanLeer) (hsol : p.hydro.sol = .hllc)
    (hc : p.loop.cfl = 8 / 10) (h0 : p.tIni = 0) (h1 : p.loop.tEnd = 1) (r : ℤ → ℝ) (hr : ∀ i, r i = 1 ∨ r i = 3 / 2) (v : ℝ) (clock : ℕ → Bool) :
    ∃ (A : Machine 1 0) (IA : (Cell → View Cell (Fields 1 0 ℝ)) × (Cell → View Cell (VelPres 1 ℝ))) (z : ProgState 1 0), A.dims = ![2, 1, 1] ∧
      progRun p ![8, 1, 1] (nghostOf 1 2) (borderOf A.dims) A clock
        (progFresh p ![8, 1, 1] (nghostOf 1 2) (borderOf A.dims) A (fun _ i => (i : ℝ) / 10) IA.1 IA.2) 100 = some z ∧
      ∀ f ∈ z.files, ∃ q : ℤ → ℝ, (∀ i, 1 ≤ q i ∧ q i ≤ 3 / 2) ∧ circleVar 8 q ≤ circleVar 8 r ∧
        ∀ g, inBox 0 ![8, 1, 1] g → f.h.rho.at g = q (g 0) ∧ (f.h.u 0).at g = v ∧ f.h.P.at g = 7 := by
  have hpos : ∀ a, 0 < (![8, 1, 1] : Cell) a := by decide
  have hN : ∀ a, 0 ≤ (![8, 1, 1] : Cell) a := by decide
  have hp : ParamsOk p [0, 1] := ⟨by rw [hb]; simp, by decide, hpo, by rw [hs]; simp, by rw [ht]; norm_num⟩
  have hA := mkMachine_ok (d := 1) (n := 0) (ng := 2) hN (dims := ![2, 1, 1]) (by decide) 0 (by norm_num) (by
    intro a ha r h0 h1
    rw [localSize_eq (hN a) (lt_of_le_of_lt h0 h1)]
    fin_cases a
    · simp [not_lt.2 h0]
    · simp at ha
    · simp at ha)
  have hi := initArrays_ok (nx := ![8, 1, 1]) (ng := 2) (A := mkMachine 1 0 ![8, 1, 1] 2 hN ![2, 1, 1] (by decide) 0) (fun c => ⟨r (c 0), fun _ => v, 7⟩) (fun _ => Fin.elim0)
  obtain ⟨z, e, -, h2⟩ := C102_contact_run_partial (p := p) (w := ⟨fun _ => v, 7⟩) (h := fun _ => 1 / 10) (lo := 1) (hi := 3 / 2) hpos (by norm_num) hp hA hi clock
    (by rw [he]; exact PerfectGas.lawful hg) (e := 7 / g.gammaM1) (fun r hr => by rw [he]; exact perfectGas_evol hg 7 hr) (by norm_num) (.inr (.inr (by norm_num))) hsol hge
    (fun a f => by rw [hb]) (fun _ _ _ => rfl) hf (by rw [hs]; simp) (fun _ => by norm_num) (X := fun _ i => (i : ℝ) / 10) (fun a i => by push_cast; ring) (by rw [hc]; norm_num) (by rw [hc]; norm_num)
    (by rw [h0, h1]; norm_num) (N := 8) rfl (r := r) one_pos (fun i _ _ => by rcases hr i with h | h <;> rw [h] <;> norm_num) (fun _ _ => rfl) 100
  exact ⟨_, _, z, rfl, e, h2⟩

end Heracles

import Verif.Lemmas.TotalVariation
import Verif.Lemmas.MaxPrinciple
import Verif.Props.Locality
import Verif.Props.NanRun
import Verif.Props.MirrorLost
import Verif.Props.Ramp

/-!
# C102: what a uniform wind carries does not start to oscillate
-/

namespace Heracles

variable {n : ℕ} {K : Type} [Field K] [LinearOrder K] [IsStrictOrderedRing K]

omit [Field K] [LinearOrder K] [IsStrictOrderedRing K] in
theorem periodic_emod {r : ℤ → K} {N : ℤ} (hr : ∀ i, r (i + N) = r i) (k : ℤ) : r (k % N) = r k := by
  have h1 : ∀ (j : ℕ) (i : ℤ), r (i + j * N) = r i := by
    intro j
    induction j with
    | zero => intro i; simp
    | succ j ih => intro i; rw [show i + ((j + 1 : ℕ) : ℤ) * N = (i + j * N) + N by push_cast; ring, hr, ih]
  have h2 : ∀ (j : ℤ) (i : ℤ), r (i + j * N) = r i := by
    intro j i
    rcases Int.eq_nat_or_neg j with ⟨m, rfl | rfl⟩
    · exact h1 m i
    · rw [← h1 m (i + -(m : ℤ) * N)]; congr 1; ring
  rw [← h2 (k / N) (k % N), mul_comm, Int.emod_add_mul_ediv]

/-- The cells within two of an interior cell are in the array. -/
theorem inExt_two {nx : Cell} {ng : ℤ} (hng : 2 ≤ ng) {g : Cell} (hg : inBox 0 nx g) {i j : ℤ} (h1 : -1 ≤ i) (h2 : i ≤ 1) (h3 : -1 ≤ j) (h4 : j ≤ 1)
    (a b : Fin 1) : inExt (globExt nx (nghostOf 1 ng)) (nb (nb (g + nghostOf 1 ng) (ax a) i) (ax b) j) = true := by
  rw [inExt_iff]
  intro e
  have hh : (0 : ℤ) ≤ g e ∧ g e < nx e := hg e
  have ea : ax a = 0 := by rw [Fin.fin_one_eq_zero a]; rfl
  have eb : ax b = 0 := by rw [Fin.fin_one_eq_zero b]; rfl
  rw [ea, eb]
  by_cases he : e = 0
  · subst he
    have : nghostOf 1 ng 0 = ng := by simp [nghostOf]
    simp only [nb, Function.update_self, globExt, Pi.add_apply, this]
    omega
  · have : 0 ≤ nghostOf 1 ng e := by unfold nghostOf; split <;> omega
    simp only [nb, Function.update_of_ne he, globExt, Pi.add_apply]
    omega

theorem inExt_one {nx : Cell} {ng : ℤ} (hng : 2 ≤ ng) {g : Cell} (hg : inBox 0 nx g) {i : ℤ} (h1 : -1 ≤ i) (h2 : i ≤ 1)
    (a : Fin 1) : inExt (globExt nx (nghostOf 1 ng)) (nb (g + nghostOf 1 ng) (ax a) i) = true := by
  have := inExt_two hng hg h1 h2 (j := 0) (by norm_num) (by norm_num) a a
  rwa [show nb (nb (g + nghostOf 1 ng) (ax a) i) (ax a) 0 = nb (g + nghostOf 1 ng) (ax a) i by simp [nb]] at this

/-- What the row of a global array holds upstream of a face. -/
theorem upstream_row {lim : Limiter} {p : PGrid 1 K} {v : Cell → K} {r : ℤ → K} {m : ℤ} (hv : ∀ c, v c = r (c 0 - m)) {h : K} (hh : 0 < h) {c : Cell}
    (hdx : ∀ i : ℤ, -2 ≤ i → i ≤ 1 → p.dx 0 (c 0 + i) = h) (dt : K) (hdt : 0 < dt) (w : Fin 1 → K) :
    upstream lim p v dt w c 0 = rowUp lim r (dt * w 0 / h) (c 0 - m) := by
  unfold upstream rowUp
  have hs : 0 < dt * w 0 / h ↔ 0 < w 0 := by
    rw [div_pos_iff_of_pos_right hh, mul_pos_iff_of_pos_left hdt]
  have e0 : ax (0 : Fin 1) = 0 := rfl
  have e1 : nb c 0 (-1) 0 = c 0 - 1 := by rw [nb_self]; ring
  by_cases hw : 0 < w 0
  · rw [if_pos hw, if_pos (hs.2 hw), e0, profile_row hv hh (fun i h1 h2 => by
      rw [e1, show c 0 - 1 + i = c 0 + (i - 1) by ring]; exact hdx _ (by omega) (by omega)), e1, if_neg (by decide),
      show c 0 - 1 - m = c 0 - m - 1 by ring]
    ring
  · rw [if_neg hw, if_neg (fun q => hw (hs.1 q)), profile_row hv hh (fun i h1 h2 => hdx i (by omega) h2), if_pos rfl]
    ring

section
variable {p : KernelParams 1 n K} {lim : Limiter} {sol : Solver} {eos : EoS K} {tr : Trig K} {w : VelPres 1 K} {nx : Cell} {ng : ℤ} {X : Fin 3 → ℤ → K}
  {order : List ℕ} {Gr : (Cell → Fields 1 n K) → Cell → Fin 1 → K} {dims : Cell} {sched : Cell → Cell → List Cell}
  {grav : DistView (Fields 1 n K) → Cell → GravField 1 K} {M : ℕ → Cell → RankMem 1 n K} {lf : ℕ → Cell → List Cell}
  {G : Cell → Fields 1 n K} {D : DistView (Fields 1 n K)} {h : K}

omit [IsStrictOrderedRing K] in
theorem wrap_add_inside {nx : Cell} (hN : ∀ a, 0 < nx a) (C : Cell) : inBox 0 nx (wrap nx C) := fun a =>
  ⟨Int.emod_nonneg _ (hN a).ne', Int.emod_lt_of_pos _ (hN a)⟩

/-- An iteration on a row of densities. -/
theorem row_iter (hk : p.k = exactKernels lim .hllc eos tr .cartesian none) (hgeom : p.geom = .cartesian) (he : eos.Lawful)
    {e : K} (hev : ∀ r, 0 < r → eos.evolFromPres r w.P = e) (hP : 0 < w.P) (hN : ∀ a, 0 < nx a) (hng : 2 ≤ ng)
    (hb : ∀ a f, p.bcs a f = .periodic) (hh : 0 < h) (hX0 : ∀ i, 0 ≤ i → i < nx 0 + 2 * ng → X 0 (i + 1) - X 0 i = h)
    (hX : ∀ a i, 0 ≤ i → i < nx a + 2 * nghostOf 1 ng a → X a i < X a (i + 1)) (hGr : ∀ W c a, Gr W c a = 0)
    {W : Cell → Fields 1 n K} {r : ℤ → K} (hr : ∀ i, r (i + nx 0) = r i) {lo hi : K} (hlo : 0 < lo) (hbd : ∀ i, lo ≤ r i ∧ r i ≤ hi)
    (hl : lim = .constant ∨ lim = .minmod ∨ hi < 2 * lo) (hW : ∀ c, (W c).cons = toCons eos ⟨r (c 0 - ng), w.u, w.P⟩)
    {dt : K} (hdt : 0 ≤ dt) (hcfl : dt * |w.u 0| ≤ h) (C : Cell) :
    (kIterGlob p nx ng X Gr order dt W C).cons = toCons eos ⟨rowStep lim r (dt * w.u 0 / h) (C 0 - ng), w.u, w.P⟩ := by
  have hc : |dt * w.u 0 / h| ≤ 1 := by
    rw [abs_div, abs_mul, abs_of_nonneg hdt, abs_of_pos hh, div_le_one hh]
    exact hcfl
  have hgh : nghostOf 1 ng 0 = ng := by simp [nghostOf]
  unfold kIterGlob
  rw [bcGlob_wrap hb, hk, hgeom]
  have hg := wrap_add_inside hN (C - nghostOf 1 ng)
  have hg0 : wrap nx (C - nghostOf 1 ng) 0 = (C 0 - ng) % nx 0 := by simp [wrap, hgh]
  have fin : rowStep lim r (dt * w.u 0 / h) (C 0 - ng) = rowStep lim r (dt * w.u 0 / h) (wrap nx (C - nghostOf 1 ng) 0) := by
    rw [hg0, periodic_emod (rowStep_periodic lim hr _)]
  rw [fin]
  dsimp only
  generalize wrap nx (C - nghostOf 1 ng) = g at hg ⊢
  rw [kStepVal_exact (by norm_num)]
  set pg : PGrid 1 K := kGrid (exactKernels (n := n) lim .hllc eos tr .cartesian none) .cartesian X (Gr W) with hpg
  have hdx : ∀ a i, pg.dx a i = X a (i + 1) - X a i := fun _ _ => rfl
  have hrho : ∀ c, (fun c : Cell => r (c 0 - ng)) c = r (c 0 - ng) := fun _ => rfl
  have hdx0 : ∀ c, inExt (globExt nx (nghostOf 1 ng)) c = true → pg.dx 0 (c 0) = h := fun c hc => by
    have := inExt_iff.1 hc 0
    rw [hdx]
    refine hX0 _ this.1 ?_
    simpa [globExt, hgh] using this.2
  have hpos : ∀ c, ∀ t, t = 0 ∨ t = dt / 2 → ∀ side a, inExt (globExt nx (nghostOf 1 ng)) c = true →
      (∀ i : ℤ, -1 ≤ i → i ≤ 1 → inExt (globExt nx (nghostOf 1 ng)) (nb c (ax a) i) = true) →
      0 < profile lim pg (fun c : Cell => r (c 0 - ng)) c (footPoint pg c t w.u side a) := by
    intro c t ht side a _ hn
    rw [Fin.fin_one_eq_zero a] at hn ⊢
    rw [profile_row hrho hh fun i h1 h2 => ?_]
    · refine row_faces_pos hlo hbd hl ?_ _
      have e2 : dt / 2 * w.u 0 / h = dt * w.u 0 / h / 2 := by ring
      rcases ht with rfl | rfl
      · rw [abs_le]
        constructor <;> split_ifs <;> norm_num
      · rw [e2]
        have hc' := abs_le.1 hc
        rw [abs_le]
        constructor <;> split_ifs <;> linarith
    · have := hdx0 _ (hn i h1 h2)
      rwa [show (ax (0 : Fin 1)) = 0 from rfl, nb_self] at this
  have hcell : ∀ i : ℤ, -2 ≤ i → i ≤ 2 → pg.dx 0 ((g + nghostOf 1 ng) 0 + i) = h := by
    intro i h1 h2
    have := hg 0
    rw [hdx]
    refine hX0 _ ?_ ?_ <;> simp only [Pi.add_apply, hgh] <;> (have q : (0:ℤ) ≤ g 0 ∧ g 0 < nx 0 := this) <;> omega
  have hd0 : pg.dx 0 ((g + nghostOf 1 ng) 0) = h := by simpa using hcell 0 (by norm_num) (by norm_num)
  have hsum : r ((g + nghostOf 1 ng) 0 - ng) + ∑ a : Fin 1, dt / pg.dx (ax a) ((g + nghostOf 1 ng) (ax a)) *
      (w.u a * (upstream lim pg (fun c : Cell => r (c 0 - ng)) dt w.u (g + nghostOf 1 ng) a -
        upstream lim pg (fun c : Cell => r (c 0 - ng)) dt w.u (nb (g + nghostOf 1 ng) (ax a) 1) a)) = rowStep lim r (dt * w.u 0 / h) (g 0) := by
    have e0 : ax (0 : Fin 1) = 0 := rfl
    simp only [Finset.univ_unique, Fin.default_eq_zero, Finset.sum_singleton, e0, hd0]
    rcases hdt.eq_or_lt with rfl | hdt
    · simp [rowStep, hgh]
    rw [upstream_row hrho hh (fun i h1 h2 => hcell i h1 (by omega)) dt hdt, upstream_row hrho hh (fun i h1 h2 => ?_) dt hdt]
    · rw [nb_self]
      have a1 : (g + nghostOf 1 ng) 0 - ng = g 0 := by simp [hgh]
      have a2 : (g + nghostOf 1 ng) 0 + 1 - ng = g 0 + 1 := by simp only [Pi.add_apply, hgh]; ring
      rw [a1, a2]
      unfold rowStep
      ring
    · rw [nb_self, add_assoc]
      exact hcell _ (by omega) (by omega)
  have step := wind_step (ext := globExt nx (nghostOf 1 ng)) (p := pg) (lim := lim) (tr := tr) (rho := fun c : Cell => r (c 0 - ng)) (W := W)
    (up := kPrimGlob (exactKernels lim .hllc eos tr .cartesian none) W) (C := g + nghostOf 1 ng) (dt := dt) (by norm_num) (kGrid_geo (n := n) _ _ _ _ _)
    (fun c hc b => by
      have q := inExt_iff.1 hc b
      rw [hdx]
      exact (sub_pos.2 (hX b _ q.1 q.2)).ne') (fun c a => hGr _ c a) he hev hP hW (fun c => by
      have hr0 : 0 < r (c 0 - ng) := hlo.trans_le (hbd _).1
      have q := toPrim_toCons he (p := (⟨r (c 0 - ng), w.u, w.P⟩ : Prim 1 K)) hr0
      show VelPres.mk (toPrim eos (W c).cons).u (toPrim eos (W c).cons).P = w
      rw [hW, q]) (fun c => hlo.trans_le (hbd _).1) hpos
    (fun a i h1 h2 => inExt_one hng hg h1 h2 a) (inExt_glob_add (by omega) hg) (fun a b i j h1 h2 h3 h4 => inExt_two hng hg h1 h2 h3 h4 a b)
    (by rw [hsum]; exact hlo.trans_le (rowStep_bounds lim hbd hc _).1)
  rw [step, hsum]

/-- An iteration on a row of mass fractions. -/
theorem row_fx_iter (hk : p.k = exactKernels lim sol eos tr .cartesian none) (hgeom : p.geom = .cartesian) (he : eos.Lawful)
    (hP : 0 < w.P) {rho : K} (hrho : 0 < rho) (hN : ∀ a, 0 < nx a) (hng : 2 ≤ ng)
    (hb : ∀ a f, p.bcs a f = .periodic) (hh : 0 < h) (hX0 : ∀ i, 0 ≤ i → i < nx 0 + 2 * ng → X 0 (i + 1) - X 0 i = h)
    (hX : ∀ a i, 0 ≤ i → i < nx a + 2 * nghostOf 1 ng a → X a i < X a (i + 1)) (hGr : ∀ W c a, Gr W c a = 0) {f : Fin n}
    {W : Cell → Fields 1 n K} {r : ℤ → K} (hr : ∀ i, r (i + nx 0) = r i) {lo hi : K} (hlo : 0 ≤ lo) (hhi : hi ≤ 1) (hbd : ∀ i, lo ≤ r i ∧ r i ≤ hi)
    (hW : ∀ c, (W c).cons = toCons eos ⟨rho, w.u, w.P⟩ ∧ (W c).fx f = r (c 0 - ng))
    {dt : K} (hdt : 0 ≤ dt) (hcfl : dt * |w.u 0| ≤ h) (C : Cell) :
    (kIterGlob p nx ng X Gr order dt W C).cons = toCons eos ⟨rho, w.u, w.P⟩ ∧
      (kIterGlob p nx ng X Gr order dt W C).fx f = rowStep lim r (dt * w.u 0 / h) (C 0 - ng) := by
  have hc : |dt * w.u 0 / h| ≤ 1 := by
    rw [abs_div, abs_mul, abs_of_nonneg hdt, abs_of_pos hh, div_le_one hh]
    exact hcfl
  have hgh : nghostOf 1 ng 0 = ng := by simp [nghostOf]
  unfold kIterGlob
  rw [bcGlob_wrap hb, hk, hgeom]
  have hg := wrap_add_inside hN (C - nghostOf 1 ng)
  have hg0 : wrap nx (C - nghostOf 1 ng) 0 = (C 0 - ng) % nx 0 := by simp [wrap, hgh]
  have fin : rowStep lim r (dt * w.u 0 / h) (C 0 - ng) = rowStep lim r (dt * w.u 0 / h) (wrap nx (C - nghostOf 1 ng) 0) := by
    rw [hg0, periodic_emod (rowStep_periodic lim hr _)]
  rw [fin]
  dsimp only
  generalize wrap nx (C - nghostOf 1 ng) = g at hg ⊢
  rw [kStepVal_exact (by norm_num)]
  set pg : PGrid 1 K := kGrid (exactKernels (n := n) lim sol eos tr .cartesian none) .cartesian X (Gr W) with hpg
  have hdx : ∀ a i, pg.dx a i = X a (i + 1) - X a i := fun _ _ => rfl
  have hrw : ∀ c, (fun c : Cell => (W c).fx f) c = r (c 0 - ng) := fun c => (hW c).2
  have hcell : ∀ i : ℤ, -2 ≤ i → i ≤ 2 → pg.dx 0 ((g + nghostOf 1 ng) 0 + i) = h := by
    intro i h1 h2
    have := hg 0
    rw [hdx]
    refine hX0 _ ?_ ?_ <;> simp only [Pi.add_apply, hgh] <;> (have q : (0:ℤ) ≤ g 0 ∧ g 0 < nx 0 := this) <;> omega
  have hd0 : pg.dx 0 ((g + nghostOf 1 ng) 0) = h := by simpa using hcell 0 (by norm_num) (by norm_num)
  have hsum : (W (g + nghostOf 1 ng)).fx f + ∑ a : Fin 1, dt / pg.dx (ax a) ((g + nghostOf 1 ng) (ax a)) *
      (w.u a * (upstream lim pg (fun c : Cell => (W c).fx f) dt w.u (g + nghostOf 1 ng) a -
        upstream lim pg (fun c : Cell => (W c).fx f) dt w.u (nb (g + nghostOf 1 ng) (ax a) 1) a)) = rowStep lim r (dt * w.u 0 / h) (g 0) := by
    have e0 : ax (0 : Fin 1) = 0 := rfl
    simp only [Finset.univ_unique, Fin.default_eq_zero, Finset.sum_singleton, e0, hd0]
    rcases hdt.eq_or_lt with rfl | hdt
    · simp [rowStep, hgh, (hW _).2]
    rw [upstream_row hrw hh (fun i h1 h2 => hcell i h1 (by omega)) dt hdt, upstream_row hrw hh (fun i h1 h2 => ?_) dt hdt, (hW _).2]
    · rw [nb_self]
      have a1 : (g + nghostOf 1 ng) 0 - ng = g 0 := by simp [hgh]
      have a2 : (g + nghostOf 1 ng) 0 + 1 - ng = g 0 + 1 := by simp only [Pi.add_apply, hgh]; ring
      rw [a1, a2]
      unfold rowStep
      ring
    · rw [nb_self, add_assoc]
      exact hcell _ (by omega) (by omega)
  have step := wind_fx_step (ext := globExt nx (nghostOf 1 ng)) (p := pg) (lim := lim) (sol := sol) (tr := tr) (W := W) (f := f)
    (up := kPrimGlob (exactKernels lim sol eos tr .cartesian none) W) (C := g + nghostOf 1 ng) (dt := dt) (by norm_num) (kGrid_geo (n := n) _ _ _ _ _)
    (fun c hc b => by
      have q := inExt_iff.1 hc b
      rw [hdx]
      exact (sub_pos.2 (hX b _ q.1 q.2)).ne') (fun c a => hGr _ c a) he hP hrho (fun c => by
      have q := toPrim_toCons he (p := (⟨rho, w.u, w.P⟩ : Prim 1 K)) hrho
      refine ⟨?_, ?_⟩
      · have := congrArg (fun s : Cons 1 K => s.rho) (hW c).1
        exact this
      · show VelPres.mk (toPrim eos (W c).cons).u (toPrim eos (W c).cons).P = w
        rw [(hW c).1, q])
    (fun a i h1 h2 => inExt_one hng hg h1 h2 a) (inExt_glob_add (by omega) hg) (fun a b i j h1 h2 h3 h4 => inExt_two hng hg h1 h2 h3 h4 a b)
  refine ⟨step.1.trans (hW _).1, ?_⟩
  rw [step.2, hsum, clamp_within hlo hhi (rowStep_bounds lim hbd hc _)]

/-- **C102.** A contact wave. Exact arithmetic over any ordered field, one dimension, periodic, cells of equal size `h`, solver HLLC, any limiter, no gravity, no
pressure fix, a gas whose energy per volume depends on pressure only (perfect gas), any decomposition and any number of iterations. The initial state has a
uniform velocity and pressure and the densities `r`, between `lo > 0` and `hi`. As long as the wind crosses at most one cell per step: velocity and pressure
stay exactly uniform, all densities stay between `lo` and `hi`, and the sum of the jumps between neighbours does not increase. Partial: with VanLeer and VanAlbada it is
asked that `hi < 2 lo`; otherwise the density extrapolated to the lee side of a cell can be negative (`C102_lee_violated`), and its speed of sound is not a number; the time step
is a hypothesis (it is weaker than the condition of the code, which has the speed of sound added to the wind); in two dimensions the range is left (`C102_diagonal_violated`). -/
theorem C102_contact_partial (hk : p.k = exactKernels lim .hllc eos tr .cartesian none) (hgeom : p.geom = .cartesian) (he : eos.Lawful)
    {e : K} (hev : ∀ r, 0 < r → eos.evolFromPres r w.P = e) (hP : 0 < w.P) (hN : ∀ a, 0 < nx a) (hng : 2 ≤ ng)
    (hb : ∀ a f, p.bcs a f = .periodic) (ho : ∀ id ∈ order, id < 2 * 1) (hpo : p.order = order.map some)
    (hh : 0 < h) (hX0 : ∀ i, 0 ≤ i → i < nx 0 + 2 * ng → X 0 (i + 1) - X 0 i = h)
    (hX : ∀ a i, 0 ≤ i → i < nx a + 2 * nghostOf 1 ng a → X a i < X a (i + 1)) (hGr : ∀ W c a, Gr W c a = 0)
    (hM : KDecomposition p nx ng X Gr dims sched grav M lf) {N : ℕ} (hNx : nx 0 = N) {r : ℤ → K} {lo hi : K} (hlo : 0 < lo)
    (hbd : ∀ i : ℤ, 0 ≤ i → i < N → lo ≤ r i ∧ r i ≤ hi) (hl : lim = .constant ∨ lim = .minmod ∨ hi < 2 * lo)
    (hG : ∀ g, inBox 0 nx g → (G g).cons = toCons eos ⟨r (g 0), w.u, w.P⟩)
    (hext : ∀ rank, inBox 0 dims rank → D.ext rank = localExt nx dims (nghostOf 1 ng) rank)
    (hint : ∀ rank, inBox 0 dims rank → ∀ c, inBox (nghostOf 1 ng) (fun a => D.ext rank a - nghostOf 1 ng a) c →
      D.val rank c = G (globalOf nx dims (nghostOf 1 ng) rank c)) (i : ℕ) :
    ∃ R hist, kRun p sched (borderOf dims) (nghostOf 1 ng) dims grav M lf D i = some (R, hist) ∧ hist.length = i ∧
      ((∀ j < i, 0 < p.policy (hist.drop j) ∧ p.policy (hist.drop j) * |w.u 0| ≤ h) →
        ∃ r' : ℤ → K, (∀ rank c, inBox 0 dims rank → inBox (nghostOf 1 ng) (fun a => D.ext rank a - nghostOf 1 ng a) c →
            (R.val rank c).cons = toCons eos ⟨r' (globalOf nx dims (nghostOf 1 ng) rank c 0), w.u, w.P⟩) ∧
          (∀ k, lo ≤ r' k ∧ r' k ≤ hi) ∧ circleVar N r' ≤ circleVar N r) := by
  obtain ⟨W, R, hist, e1, elen, e2, e3, e4⟩ := kRun_global (by norm_num) (fun a => (hN a).le) hng (fun a f => by rw [hb]; decide) ho hpo hM hext hint i
  refine ⟨R, hist, e1, elen, fun hdt => ?_⟩
  have hgh : nghostOf 1 ng 0 = ng := by simp [nghostOf]
  have hNp : (0 : ℤ) < N := hNx ▸ hN 0
  have key : ∀ j ≤ i, ∃ q : ℤ → K, (∀ k, q (k + nx 0) = q k) ∧ (∀ k, lo ≤ q k ∧ q k ≤ hi) ∧ circleVar N q ≤ circleVar N r ∧
      ∀ c, (W j c).cons = toCons eos ⟨q (c 0 - ng), w.u, w.P⟩ := by
    intro j
    induction j with
    | zero =>
      intro _
      refine ⟨fun k => r (k % N), fun k => by dsimp only; rw [hNx, Int.add_emod_right], fun k => hbd _ (Int.emod_nonneg _ hNp.ne') (Int.emod_lt_of_pos _ hNp), le_of_eq ?_, fun c => ?_⟩
      · unfold circleVar
        refine Finset.sum_congr rfl fun k hk => ?_
        have hk := Finset.mem_range.1 hk
        dsimp only
        rw [Int.emod_emod, Int.emod_eq_of_lt (a := (k : ℤ)) (by omega) (by omega)]
      · rw [e3, bcGlob_wrap hb, hG _ (wrap_add_inside hN _)]
        simp only [wrap, Pi.sub_apply, hgh, hNx]
    | succ j ih =>
      intro hj
      obtain ⟨q, q1, q2, q3, q4⟩ := ih (by omega)
      obtain ⟨d1, d2⟩ := hdt (i - (j + 1)) (by omega)
      have hc : |p.policy (hist.drop (i - (j + 1))) * w.u 0 / h| ≤ 1 := by
        rw [abs_div, abs_mul, abs_of_pos d1, abs_of_pos hh, div_le_one hh]
        exact d2
      refine ⟨rowStep lim q (p.policy (hist.drop (i - (j + 1))) * w.u 0 / h), rowStep_periodic lim q1 _, rowStep_bounds lim q2 hc,
        (circleVar_step lim (by rw [← hNx]; exact q1) hc).trans q3, fun c => ?_⟩
      rw [e4 j (by omega)]
      exact row_iter hk hgeom he hev hP hN hng hb hh hX0 hX hGr q1 hlo q2 hl q4 d1.le d2 c
  obtain ⟨q, -, q2, q3, q4⟩ := key i le_rfl
  refine ⟨q, fun rank c hr hc => ?_, q2, q3⟩
  have hcE : inExt (localExt nx dims (nghostOf 1 ng) rank) c = true := by
    rw [inExt_iff]
    intro a
    have := hc a
    rw [hext rank hr] at this
    have : nghostOf 1 ng a ≤ c a ∧ c a < localExt nx dims (nghostOf 1 ng) rank a - nghostOf 1 ng a := this
    have h2 : 0 ≤ nghostOf 1 ng a := by unfold nghostOf; split <;> omega
    omega
  rw [e2.val rank hr c hcE, q4]
  congr 2
  simp only [Pi.add_apply, globalOf, startCell, hgh]
  ring_nf

/-- **C102.** A mass fraction in a uniform stream. Exact arithmetic over any ordered field, one dimension, periodic, cells of equal size `h`, any solver, any limiter, no
gravity, no pressure fix, any equation of state that inverts, any decomposition and any number of iterations. The fluid has the same density, velocity and pressure in all cells
and the mass fraction `f` has the values `r`, between `lo ≥ 0` and `hi ≤ 1`. As long as the wind crosses at most one cell per step: the fluid does not change at all,
the fraction stays between `lo` and `hi`, and the sum of its jumps between neighbours does not increase. Partial: the time step is a hypothesis (weaker than the condition of the code); in two dimensions
the range is left (`C102_diagonal_violated`). -/
theorem C102_fraction_partial (hk : p.k = exactKernels lim sol eos tr .cartesian none) (hgeom : p.geom = .cartesian) (he : eos.Lawful)
    (hP : 0 < w.P) {rho : K} (hrho : 0 < rho) (hN : ∀ a, 0 < nx a) (hng : 2 ≤ ng)
    (hb : ∀ a f, p.bcs a f = .periodic) (ho : ∀ id ∈ order, id < 2 * 1) (hpo : p.order = order.map some)
    (hh : 0 < h) (hX0 : ∀ i, 0 ≤ i → i < nx 0 + 2 * ng → X 0 (i + 1) - X 0 i = h)
    (hX : ∀ a i, 0 ≤ i → i < nx a + 2 * nghostOf 1 ng a → X a i < X a (i + 1)) (hGr : ∀ W c a, Gr W c a = 0)
    (hM : KDecomposition p nx ng X Gr dims sched grav M lf) {N : ℕ} (hNx : nx 0 = N) {f : Fin n} {r : ℤ → K} {lo hi : K} (hlo : 0 ≤ lo) (hhi : hi ≤ 1)
    (hbd : ∀ i : ℤ, 0 ≤ i → i < N → lo ≤ r i ∧ r i ≤ hi)
    (hG : ∀ g, inBox 0 nx g → (G g).cons = toCons eos ⟨rho, w.u, w.P⟩ ∧ (G g).fx f = r (g 0))
    (hext : ∀ rank, inBox 0 dims rank → D.ext rank = localExt nx dims (nghostOf 1 ng) rank)
    (hint : ∀ rank, inBox 0 dims rank → ∀ c, inBox (nghostOf 1 ng) (fun a => D.ext rank a - nghostOf 1 ng a) c →
      D.val rank c = G (globalOf nx dims (nghostOf 1 ng) rank c)) (i : ℕ) :
    ∃ R hist, kRun p sched (borderOf dims) (nghostOf 1 ng) dims grav M lf D i = some (R, hist) ∧ hist.length = i ∧
      ((∀ j < i, 0 < p.policy (hist.drop j) ∧ p.policy (hist.drop j) * |w.u 0| ≤ h) →
        ∃ r' : ℤ → K, (∀ rank c, inBox 0 dims rank → inBox (nghostOf 1 ng) (fun a => D.ext rank a - nghostOf 1 ng a) c →
            (R.val rank c).cons = toCons eos ⟨rho, w.u, w.P⟩ ∧ (R.val rank c).fx f = r' (globalOf nx dims (nghostOf 1 ng) rank c 0)) ∧
          (∀ k, lo ≤ r' k ∧ r' k ≤ hi) ∧ circleVar N r' ≤ circleVar N r) := by
  obtain ⟨W, R, hist, e1, elen, e2, e3, e4⟩ := kRun_global (by norm_num) (fun a => (hN a).le) hng (fun a f => by rw [hb]; decide) ho hpo hM hext hint i
  refine ⟨R, hist, e1, elen, fun hdt => ?_⟩
  have hgh : nghostOf 1 ng 0 = ng := by simp [nghostOf]
  have hNp : (0 : ℤ) < N := hNx ▸ hN 0
  have key : ∀ j ≤ i, ∃ q : ℤ → K, (∀ k, q (k + nx 0) = q k) ∧ (∀ k, lo ≤ q k ∧ q k ≤ hi) ∧ circleVar N q ≤ circleVar N r ∧
      ∀ c, (W j c).cons = toCons eos ⟨rho, w.u, w.P⟩ ∧ (W j c).fx f = q (c 0 - ng) := by
    intro j
    induction j with
    | zero =>
      intro _
      refine ⟨fun k => r (k % N), fun k => by dsimp only; rw [hNx, Int.add_emod_right], fun k => hbd _ (Int.emod_nonneg _ hNp.ne') (Int.emod_lt_of_pos _ hNp), le_of_eq ?_, fun c => ?_⟩
      · unfold circleVar
        refine Finset.sum_congr rfl fun k hk => ?_
        have hk := Finset.mem_range.1 hk
        dsimp only
        rw [Int.emod_emod, Int.emod_eq_of_lt (a := (k : ℤ)) (by omega) (by omega)]
      · rw [e3, bcGlob_wrap hb]
        have q := hG _ (wrap_add_inside hN (c - nghostOf 1 ng))
        refine ⟨q.1, q.2.trans ?_⟩
        simp only [wrap, Pi.sub_apply, hgh, hNx]
    | succ j ih =>
      intro hj
      obtain ⟨q, q1, q2, q3, q4⟩ := ih (by omega)
      obtain ⟨d1, d2⟩ := hdt (i - (j + 1)) (by omega)
      have hc : |p.policy (hist.drop (i - (j + 1))) * w.u 0 / h| ≤ 1 := by
        rw [abs_div, abs_mul, abs_of_pos d1, abs_of_pos hh, div_le_one hh]
        exact d2
      refine ⟨rowStep lim q (p.policy (hist.drop (i - (j + 1))) * w.u 0 / h), rowStep_periodic lim q1 _, rowStep_bounds lim q2 hc,
        (circleVar_step lim (by rw [← hNx]; exact q1) hc).trans q3, fun c => ?_⟩
      rw [e4 j (by omega)]
      exact row_fx_iter hk hgeom he hP hrho hN hng hb hh hX0 hX hGr q1 hlo hhi q2 q4 d1.le d2 c
  obtain ⟨q, -, q2, q3, q4⟩ := key i le_rfl
  refine ⟨q, fun rank c hr hc => ?_, q2, q3⟩
  have hcE : inExt (localExt nx dims (nghostOf 1 ng) rank) c = true := by
    rw [inExt_iff]
    intro a
    have := hc a
    rw [hext rank hr] at this
    have : nghostOf 1 ng a ≤ c a ∧ c a < localExt nx dims (nghostOf 1 ng) rank a - nghostOf 1 ng a := this
    have h2 : 0 ≤ nghostOf 1 ng a := by unfold nghostOf; split <;> omega
    omega
  rw [e2.val rank hr c hcE]
  refine ⟨(q4 _).1, (q4 _).2.trans ?_⟩
  congr 1
  simp only [Pi.add_apply, globalOf, startCell, hgh]
  ring_nf

end

/-- A periodic tube in which a uniform wind of velocity 2 blows; time step 1/4. -/
noncomputable def contactTube {n : ℕ} (lim : Limiter) (sol : Solver) (tr : Trig ℝ) : KernelParams 1 n ℝ where
  k := exactKernels lim sol (PerfectGas.toEoS ⟨2, 2 - 1, 1⟩) tr .cartesian none
  geom := .cartesian
  lo := 0
  policy := fun _ => 1 / 4
  user := fun _ _ v => some v
  bcs := fun _ _ => .periodic
  order := [0, 1].map some

theorem contactTube_decomposition (lim : Limiter) (sol : Solver) (tr : Trig ℝ) :
    ∃ M lf, KDecomposition (contactTube (n := n) lim sol tr) ![6, 1, 1] 2 (fun _ i => i) (fun _ _ _ => 0) ![2, 1, 1] boxList (fun _ _ _ _ => some 0) M lf := by
  have hN : ∀ a : Fin 3, (0 : ℤ) ≤ (![6, 1, 1] : Cell) a := by decide
  refine exists_kDecomposition _ hN (by decide) (by norm_num) (fun a ha r h0 h1 => ?_) _
  rw [localSize_eq (hN a) (lt_of_le_of_lt h0 h1)]
  fin_cases a
  · simp [not_lt.2 h0]
  · simp at ha
  · simp at ha

/-- Densities: 100 in the first three cells, 1 in the last three. -/
noncomputable def contactRow (i : ℤ) : ℝ := if i < 3 then 100 else 1

/-- C102 for a contact between densities 100 and 1, on six cells and two ranks, with MinMod, after seven iterations: the jumps sum up to at most 198. -/
example (tr : Trig ℝ) : ∃ M lf R hist r',
    kRun (contactTube (n := 0) .minmod .hllc tr) boxList (borderOf ![2, 1, 1]) (nghostOf 1 2) ![2, 1, 1] (fun _ _ _ _ => some 0) M lf
      ⟨fun r => localExt ![6, 1, 1] ![2, 1, 1] (nghostOf 1 2) r, fun r c => uniformFields (PerfectGas.toEoS ⟨2, 2 - 1, 1⟩) (contactRow (globalOf ![6, 1, 1] ![2, 1, 1] (nghostOf 1 2) r c 0))
        ⟨fun _ => 2, 5⟩ Fin.elim0⟩ 7 = some (R, hist) ∧
    (∀ rank c, inBox 0 ![2, 1, 1] rank → inBox (nghostOf 1 2) (fun a => localExt ![6, 1, 1] ![2, 1, 1] (nghostOf 1 2) rank a - nghostOf 1 2 a) c →
      (R.val rank c).cons = toCons (PerfectGas.toEoS ⟨2, 2 - 1, 1⟩) ⟨r' (globalOf ![6, 1, 1] ![2, 1, 1] (nghostOf 1 2) rank c 0), fun _ => 2, 5⟩) ∧
    (∀ k, 1 ≤ r' k ∧ r' k ≤ 100) ∧ circleVar 6 r' ≤ 198 := by
  obtain ⟨M, lf, hM⟩ := contactTube_decomposition (n := 0) .minmod .hllc tr
  obtain ⟨R, hist, h1, h2, h3⟩ := C102_contact_partial (p := contactTube (n := 0) .minmod .hllc tr) rfl rfl (PerfectGas.lawful sampleGas_physical)
    (w := ⟨fun _ => 2, 5⟩) (e := 5) (fun r hr => by rw [perfectGas_evol sampleGas_physical 5 hr]; norm_num) (by norm_num) (by decide) (by norm_num)
    (fun _ _ => rfl) (order := [0, 1]) (by decide) rfl one_pos (fun i _ _ => by push_cast; ring) (fun a i _ _ => by push_cast; linarith) (fun _ _ _ => rfl) hM (N := 6) rfl
    (r := contactRow) (lo := 1) (hi := 100) one_pos (fun i _ _ => by unfold contactRow; split_ifs <;> norm_num) (.inr (.inl rfl))
    (G := fun g => uniformFields (PerfectGas.toEoS ⟨2, 2 - 1, 1⟩) (contactRow (g 0)) ⟨fun _ => 2, 5⟩ Fin.elim0) (fun _ _ => rfl)
    (D := ⟨fun r => localExt ![6, 1, 1] ![2, 1, 1] (nghostOf 1 2) r, fun r c => uniformFields (PerfectGas.toEoS ⟨2, 2 - 1, 1⟩) (contactRow (globalOf ![6, 1, 1] ![2, 1, 1] (nghostOf 1 2) r c 0))
        ⟨fun _ => 2, 5⟩ Fin.elim0⟩) (fun _ _ => rfl) (fun _ _ _ _ => rfl) 7
  obtain ⟨r', q1, q2, q3⟩ := h3 fun j _ => by simp only [contactTube]; norm_num
  refine ⟨M, lf, R, hist, r', h1, q1, q2, q3.trans (le_of_eq ?_)⟩
  simp only [circleVar, Finset.sum_range_succ, Finset.sum_range_zero, contactRow]
  norm_num

/-- C102 for a mass fraction that jumps from 3/4 to 1/4, in the same tube, with any limiter and any solver. -/
example (lim : Limiter) (sol : Solver) (tr : Trig ℝ) : ∃ M lf R hist r',
    kRun (contactTube (n := 1) lim sol tr) boxList (borderOf ![2, 1, 1]) (nghostOf 1 2) ![2, 1, 1] (fun _ _ _ _ => some 0) M lf
      ⟨fun r => localExt ![6, 1, 1] ![2, 1, 1] (nghostOf 1 2) r, fun r c => uniformFields (PerfectGas.toEoS ⟨2, 2 - 1, 1⟩) 1
        ⟨fun _ => 2, 5⟩ fun _ => if globalOf ![6, 1, 1] ![2, 1, 1] (nghostOf 1 2) r c 0 < 3 then 3 / 4 else 1 / 4⟩ 7 = some (R, hist) ∧
    (∀ rank c, inBox 0 ![2, 1, 1] rank → inBox (nghostOf 1 2) (fun a => localExt ![6, 1, 1] ![2, 1, 1] (nghostOf 1 2) rank a - nghostOf 1 2 a) c →
      (R.val rank c).fx 0 = r' (globalOf ![6, 1, 1] ![2, 1, 1] (nghostOf 1 2) rank c 0)) ∧
    (∀ k, 1 / 4 ≤ r' k ∧ r' k ≤ 3 / 4) ∧ circleVar 6 r' ≤ 1 := by
  obtain ⟨M, lf, hM⟩ := contactTube_decomposition (n := 1) lim sol tr
  obtain ⟨R, hist, h1, h2, h3⟩ := C102_fraction_partial (p := contactTube (n := 1) lim sol tr) rfl rfl (PerfectGas.lawful sampleGas_physical)
    (w := ⟨fun _ => 2, 5⟩) (by norm_num) one_pos (by decide) (by norm_num)
    (fun _ _ => rfl) (order := [0, 1]) (by decide) rfl one_pos (fun i _ _ => by push_cast; ring) (fun a i _ _ => by push_cast; linarith) (fun _ _ _ => rfl) hM (N := 6) rfl
    (f := 0) (r := fun i => if i < 3 then 3 / 4 else 1 / 4) (lo := 1 / 4) (hi := 3 / 4) (by norm_num) (by norm_num) (fun i _ _ => by split_ifs <;> norm_num)
    (G := fun g => uniformFields (PerfectGas.toEoS ⟨2, 2 - 1, 1⟩) 1 ⟨fun _ => 2, 5⟩ fun _ => if g 0 < 3 then 3 / 4 else 1 / 4) (fun _ _ => ⟨rfl, rfl⟩)
    (D := ⟨fun r => localExt ![6, 1, 1] ![2, 1, 1] (nghostOf 1 2) r, fun r c => uniformFields (PerfectGas.toEoS ⟨2, 2 - 1, 1⟩) 1
        ⟨fun _ => 2, 5⟩ fun _ => if globalOf ![6, 1, 1] ![2, 1, 1] (nghostOf 1 2) r c 0 < 3 then 3 / 4 else 1 / 4⟩) (fun _ _ => rfl) (fun _ _ _ _ => rfl) 7
  obtain ⟨r', q1, q2, q3⟩ := h3 fun j _ => by simp only [contactTube]; norm_num
  refine ⟨M, lf, R, hist, r', h1, fun rank c hr hc => (q1 rank c hr hc).2, q2, q3.trans (le_of_eq ?_)⟩
  simp only [circleVar, Finset.sum_range_succ, Finset.sum_range_zero]
  norm_num

end Heracles

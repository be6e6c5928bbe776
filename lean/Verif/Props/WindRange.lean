import Verif.Lemmas.WindRange
import Verif.Lemmas.MaxPrinciple
import Verif.Props.Locality
import Verif.Props.Ramp

/-!
# C102: in several dimensions with MinMod the range is kept
-/

namespace Heracles

variable {d n : ℕ} {K : Type} [Field K] [LinearOrder K] [IsStrictOrderedRing K]

section
variable {p : KernelParams d n K} {lim : Limiter} {sol : Solver} {eos : EoS K} {tr : Trig K} {w : VelPres d K} {nx : Cell} {ng : ℤ} {X : Fin 3 → ℤ → K}
  {order : List ℕ} {Gr : (Cell → Fields d n K) → Cell → Fin d → K} {dims : Cell} {sched : Cell → Cell → List Cell}
  {grav : DistView (Fields d n K) → Cell → GravField d K} {M : ℕ → Cell → RankMem d n K} {lf : ℕ → Cell → List Cell}
  {G : Cell → Fields d n K} {D : DistView (Fields d n K)} {h : Fin 3 → K}

/-- A fluid of pressure and velocity `w` whose density lies in a range. -/
def InWind (eos : EoS K) (w : VelPres d K) (lo hi : K) (s : Fields d n K) : Prop :=
  s.cons = toCons eos ⟨s.rho, w.u, w.P⟩ ∧ lo ≤ s.rho ∧ s.rho ≤ hi

/-- An iteration on densities in a wind. -/
theorem minmod_iter (hd3 : d ≤ 3) (hk : p.k = exactKernels lim .hllc eos tr .cartesian none) (hl : lim = .constant ∨ lim = .minmod)
    (hgeom : p.geom = .cartesian) (he : eos.Lawful)
    {e : K} (hev : ∀ r, 0 < r → eos.evolFromPres r w.P = e) (hP : 0 < w.P) (hN : ∀ a, 0 < nx a) (hng : 2 ≤ ng)
    (hb : ∀ a f, p.bcs a f = .periodic ∨ p.bcs a f = .nullGradient) (hh : ∀ a, 0 < h a) (hX : ∀ a i, X a (i + 1) - X a i = h a) (hGr : ∀ W c a, Gr W c a = 0)
    {lo hi : K} (hlo : 0 < lo) {W : Cell → Fields d n K} (ih : ∀ C, InWind eos w lo hi (W C)) {dt : K} (d1 : 0 ≤ dt)
    (d2 : ∑ a, dt * |w.u a| / h (ax a) ≤ 1) (C : Cell) : InWind eos w lo hi (kIterGlob p nx ng X Gr order dt W C) := by
  have hb2 : ∀ a f, p.bcs a f ≠ .reflexive := fun a f => by rcases hb a f with h | h <;> rw [h] <;> decide
  unfold kIterGlob
  refine bcGlob_copies (P := InWind eos w lo hi) hb2 hN (fun g hg => ?_) C
  rw [hk, hgeom, kStepVal_exact hd3]
  set pg : PGrid d K := kGrid (exactKernels (n := n) lim .hllc eos tr .cartesian none) .cartesian X (Gr W) with hpg
  have hdx : ∀ a i, pg.dx a i = h a := fun a i => hX a i
  have hr : ∀ c, lo ≤ (fun c => (W c).rho) c ∧ (fun c => (W c).rho) c ≤ hi := fun c => (ih c).2
  have rng := wind_range (lim := lim) (p := pg) hl hr (h := fun a : Fin d => h (ax a)) (fun a => hh _) (fun a i => hdx _ i) d1 d2 (g + nghostOf d ng)
  have hpos : ∀ c, 0 < (W c).rho := fun c => hlo.trans_le (ih c).2.1
  have step := wind_step (ext := globExt nx (nghostOf d ng)) (p := pg) (lim := lim) (tr := tr) (rho := fun c : Cell => (W c).rho) (W := W)
    (up := kPrimGlob (exactKernels lim .hllc eos tr .cartesian none) W) (C := g + nghostOf d ng) (dt := dt) hd3 (kGrid_geo (n := n) _ _ _ _ _)
    (fun c _ b => by rw [hdx]; exact (hh b).ne') (fun c a => hGr _ c a) he hev hP (fun c => (ih c).1) (fun c => by
      have q := toPrim_toCons he (p := (⟨(W c).rho, w.u, w.P⟩ : Prim d K)) (hpos c)
      show VelPres.mk (toPrim eos (W c).cons).u (toPrim eos (W c).cons).P = w
      rw [(ih c).1, q]) hpos
    (fun c t ht side a _ _ => hlo.trans_le (profile_range hl hr (h := fun a : Fin d => h (ax a)) (fun a => hh _) (fun a i => hdx _ i) c
      (footPoint_near (fun a => hh _) (fun a i => hdx _ i) d1 d2 ht c side a)).1)
    (fun a i h1 h2 => inExt_beside hd3 hng hg h1 h2 a) (inExt_glob_add (by omega) hg) (fun a b i j h1 h2 h3 h4 => inExt_around hd3 hng hg h1 h2 h3 h4 a b)
    (hlo.trans_le rng.1)
  have er := congrArg Cons.rho step
  change (stepVal lim .hllc eos tr .cartesian pg dt W _ (g + nghostOf d ng)).rho = _ at er
  refine ⟨?_, ?_, ?_⟩
  · rw [step, er]; rfl
  · rw [er]; exact rng.1
  · rw [er]; exact rng.2

/-- **C102.** In one, two and three dimensions, without slopes or with MinMod. Exact arithmetic over any ordered field, equal cells of sizes `h`, every boundary
periodic or open (null gradient), solver HLLC, no gravity, no pressure fix, a gas whose energy per volume depends on pressure only (perfect gas), any decomposition and any number of
iterations. If velocity and pressure are uniform at the start they stay exactly so, and the densities stay between `lo > 0` and `hi`, as long as
`dt * ∑ |u_a| / h_a ≤ 1` (weaker than the condition of the code, in which the speed of sound is added to each velocity). Partial: the time step is a hypothesis; with VanLeer and VanAlbada the
statement is false in two dimensions (`C102_diagonal_violated`). -/
theorem C102_minmod_partial (hd3 : d ≤ 3) (hk : p.k = exactKernels lim .hllc eos tr .cartesian none) (hl : lim = .constant ∨ lim = .minmod)
    (hgeom : p.geom = .cartesian) (he : eos.Lawful)
    {e : K} (hev : ∀ r, 0 < r → eos.evolFromPres r w.P = e) (hP : 0 < w.P) (hN : ∀ a, 0 < nx a) (hng : 2 ≤ ng)
    (hb : ∀ a f, p.bcs a f = .periodic ∨ p.bcs a f = .nullGradient) (ho : ∀ id ∈ order, id < 2 * d) (hpo : p.order = order.map some)
    (hh : ∀ a, 0 < h a) (hX : ∀ a i, X a (i + 1) - X a i = h a) (hGr : ∀ W c a, Gr W c a = 0)
    (hM : KDecomposition p nx ng X Gr dims sched grav M lf) {lo hi : K} (hlo : 0 < lo)
    (hG : ∀ g, inBox 0 nx g → InWind eos w lo hi (G g))
    (hext : ∀ rank, inBox 0 dims rank → D.ext rank = localExt nx dims (nghostOf d ng) rank)
    (hint : ∀ rank, inBox 0 dims rank → ∀ c, inBox (nghostOf d ng) (fun a => D.ext rank a - nghostOf d ng a) c →
      D.val rank c = G (globalOf nx dims (nghostOf d ng) rank c)) (i : ℕ) :
    ∃ R hist, kRun p sched (borderOf dims) (nghostOf d ng) dims grav M lf D i = some (R, hist) ∧ hist.length = i ∧
      ((∀ j < i, 0 < p.policy (hist.drop j) ∧ ∑ a, p.policy (hist.drop j) * |w.u a| / h (ax a) ≤ 1) →
        ∀ rank c, inBox 0 dims rank → inExt (localExt nx dims (nghostOf d ng) rank) c = true → InWind eos w lo hi (R.val rank c)) := by
  have hb1 : ∀ a f, p.bcs a f ≠ .userDefined := fun a f => by rcases hb a f with h | h <;> rw [h] <;> decide
  have hb2 : ∀ a f, p.bcs a f ≠ .reflexive := fun a f => by rcases hb a f with h | h <;> rw [h] <;> decide
  obtain ⟨W, R, hist, e1, elen, e2, e3, e4⟩ := kRun_global hd3 (fun a => (hN a).le) hng hb1 ho hpo hM hext hint i
  refine ⟨R, hist, e1, elen, fun hdt => ?_⟩
  have key : ∀ j ≤ i, ∀ C, InWind eos w lo hi (W j C) := by
    intro j
    induction j with
    | zero => exact fun _ C => by rw [e3]; exact bcGlob_copies (P := InWind eos w lo hi) hb2 hN hG C
    | succ j ih =>
      intro hj C
      have ih := ih (by omega)
      obtain ⟨d1, d2⟩ := hdt (i - (j + 1)) (by omega)
      rw [e4 j (by omega)]
      exact minmod_iter hd3 hk hl hgeom he hev hP hN hng hb hh hX hGr hlo ih d1.le d2 C
  intro rank c hr hc
  rw [e2.val rank hr c hc]
  exact key i le_rfl _

/-- An iteration on a mass fraction in a uniform stream. -/
theorem minmod_fx_iter (hd3 : d ≤ 3) (hk : p.k = exactKernels lim sol eos tr .cartesian none) (hl : lim = .constant ∨ lim = .minmod)
    (hgeom : p.geom = .cartesian) (he : eos.Lawful) (hP : 0 < w.P) {rho : K} (hrho : 0 < rho) (hN : ∀ a, 0 < nx a) (hng : 2 ≤ ng)
    (hb : ∀ a f, p.bcs a f = .periodic ∨ p.bcs a f = .nullGradient) (hh : ∀ a, 0 < h a) (hX : ∀ a i, X a (i + 1) - X a i = h a) (hGr : ∀ W c a, Gr W c a = 0)
    {f : Fin n} {lo hi : K} (hlo : 0 ≤ lo) (hhi : hi ≤ 1) {W : Cell → Fields d n K}
    (ih : ∀ C, (W C).cons = toCons eos ⟨rho, w.u, w.P⟩ ∧ lo ≤ (W C).fx f ∧ (W C).fx f ≤ hi) {dt : K} (d1 : 0 ≤ dt)
    (d2 : ∑ a, dt * |w.u a| / h (ax a) ≤ 1) (C : Cell) : (kIterGlob p nx ng X Gr order dt W C).cons = toCons eos ⟨rho, w.u, w.P⟩ ∧
      lo ≤ (kIterGlob p nx ng X Gr order dt W C).fx f ∧ (kIterGlob p nx ng X Gr order dt W C).fx f ≤ hi := by
  have hb2 : ∀ a f, p.bcs a f ≠ .reflexive := fun a f => by rcases hb a f with h | h <;> rw [h] <;> decide
  unfold kIterGlob
  refine bcGlob_copies (P := fun s : Fields d n K => s.cons = toCons eos ⟨rho, w.u, w.P⟩ ∧ lo ≤ s.fx f ∧ s.fx f ≤ hi) hb2 hN (fun g hg => ?_) C
  rw [hk, hgeom, kStepVal_exact hd3]
  set pg : PGrid d K := kGrid (exactKernels (n := n) lim sol eos tr .cartesian none) .cartesian X (Gr W) with hpg
  have hdx : ∀ a i, pg.dx a i = h a := fun a i => hX a i
  have hr : ∀ c, lo ≤ (fun c => (W c).fx f) c ∧ (fun c => (W c).fx f) c ≤ hi := fun c => (ih c).2
  have rng := wind_range (lim := lim) (p := pg) hl hr (h := fun a : Fin d => h (ax a)) (fun a => hh _) (fun a i => hdx _ i) d1 d2 (g + nghostOf d ng)
  have step := wind_fx_step (ext := globExt nx (nghostOf d ng)) (p := pg) (lim := lim) (sol := sol) (tr := tr) (W := W) (f := f)
    (up := kPrimGlob (exactKernels lim sol eos tr .cartesian none) W) (C := g + nghostOf d ng) (dt := dt) hd3 (kGrid_geo (n := n) _ _ _ _ _)
    (fun c _ b => by rw [hdx]; exact (hh b).ne') (fun c a => hGr _ c a) he hP hrho (fun c => by
      have q := toPrim_toCons he (p := (⟨rho, w.u, w.P⟩ : Prim d K)) hrho
      refine ⟨congrArg Cons.rho (ih c).1, ?_⟩
      show VelPres.mk (toPrim eos (W c).cons).u (toPrim eos (W c).cons).P = w
      rw [(ih c).1, q])
    (fun a i h1 h2 => inExt_beside hd3 hng hg h1 h2 a) (inExt_glob_add (by omega) hg) (fun a b i j h1 h2 h3 h4 => inExt_around hd3 hng hg h1 h2 h3 h4 a b)
  refine ⟨step.1.trans (ih _).1, ?_⟩
  rw [step.2, clamp_within hlo hhi rng]
  exact rng

/-- **C102.** The same for a mass fraction in a fluid that is uniform at the start, with every solver. -/
theorem C102_minmod_fraction_partial (hd3 : d ≤ 3) (hk : p.k = exactKernels lim sol eos tr .cartesian none) (hl : lim = .constant ∨ lim = .minmod)
    (hgeom : p.geom = .cartesian) (he : eos.Lawful) (hP : 0 < w.P) {rho : K} (hrho : 0 < rho) (hN : ∀ a, 0 < nx a) (hng : 2 ≤ ng)
    (hb : ∀ a f, p.bcs a f = .periodic ∨ p.bcs a f = .nullGradient) (ho : ∀ id ∈ order, id < 2 * d) (hpo : p.order = order.map some)
    (hh : ∀ a, 0 < h a) (hX : ∀ a i, X a (i + 1) - X a i = h a) (hGr : ∀ W c a, Gr W c a = 0)
    (hM : KDecomposition p nx ng X Gr dims sched grav M lf) {f : Fin n} {lo hi : K} (hlo : 0 ≤ lo) (hhi : hi ≤ 1)
    (hG : ∀ g, inBox 0 nx g → (G g).cons = toCons eos ⟨rho, w.u, w.P⟩ ∧ lo ≤ (G g).fx f ∧ (G g).fx f ≤ hi)
    (hext : ∀ rank, inBox 0 dims rank → D.ext rank = localExt nx dims (nghostOf d ng) rank)
    (hint : ∀ rank, inBox 0 dims rank → ∀ c, inBox (nghostOf d ng) (fun a => D.ext rank a - nghostOf d ng a) c →
      D.val rank c = G (globalOf nx dims (nghostOf d ng) rank c)) (i : ℕ) :
    ∃ R hist, kRun p sched (borderOf dims) (nghostOf d ng) dims grav M lf D i = some (R, hist) ∧ hist.length = i ∧
      ((∀ j < i, 0 < p.policy (hist.drop j) ∧ ∑ a, p.policy (hist.drop j) * |w.u a| / h (ax a) ≤ 1) →
        ∀ rank c, inBox 0 dims rank → inExt (localExt nx dims (nghostOf d ng) rank) c = true →
          (R.val rank c).cons = toCons eos ⟨rho, w.u, w.P⟩ ∧ lo ≤ (R.val rank c).fx f ∧ (R.val rank c).fx f ≤ hi) := by
  have hb1 : ∀ a f, p.bcs a f ≠ .userDefined := fun a f => by rcases hb a f with h | h <;> rw [h] <;> decide
  have hb2 : ∀ a f, p.bcs a f ≠ .reflexive := fun a f => by rcases hb a f with h | h <;> rw [h] <;> decide
  obtain ⟨W, R, hist, e1, elen, e2, e3, e4⟩ := kRun_global hd3 (fun a => (hN a).le) hng hb1 ho hpo hM hext hint i
  refine ⟨R, hist, e1, elen, fun hdt => ?_⟩
  have key : ∀ j ≤ i, ∀ C, (W j C).cons = toCons eos ⟨rho, w.u, w.P⟩ ∧ lo ≤ (W j C).fx f ∧ (W j C).fx f ≤ hi := by
    intro j
    induction j with
    | zero =>
      intro _ C
      rw [e3]
      exact bcGlob_copies (P := fun s : Fields d n K => s.cons = toCons eos ⟨rho, w.u, w.P⟩ ∧ lo ≤ s.fx f ∧ s.fx f ≤ hi) hb2 hN hG C
    | succ j ih =>
      intro hj C
      have ih := ih (by omega)
      obtain ⟨d1, d2⟩ := hdt (i - (j + 1)) (by omega)
      rw [e4 j (by omega)]
      exact minmod_fx_iter hd3 hk hl hgeom he hP hrho hN hng hb hh hX hGr hlo hhi ih d1.le d2 C
  intro rank c hr hc
  rw [e2.val rank hr c hc]
  exact key i le_rfl _

end

/-- A tube in three dimensions, periodic along the first axis and open along the others. -/
noncomputable def openTube {n : ℕ} (lim : Limiter) (sol : Solver) (tr : Trig ℝ) : KernelParams 3 n ℝ where
  k := exactKernels lim sol (PerfectGas.toEoS ⟨2, 2 - 1, 1⟩) tr .cartesian none
  geom := .cartesian
  lo := 0
  policy := fun _ => 1 / 4
  user := fun _ _ v => some v
  bcs := ![![.periodic, .periodic], ![.nullGradient, .nullGradient], ![.nullGradient, .nullGradient]]
  order := [0, 1, 2, 3, 4, 5].map some

/-- C102 in three dimensions: any densities between 1 and 100 in a wind (1, -1/2, 2), cells of size 1, two ranks, nine iterations. -/
example (tr : Trig ℝ) (r : Cell → ℝ) (hr : ∀ g, 1 ≤ r g ∧ r g ≤ 100) : ∃ M lf R hist,
    kRun (openTube (n := 0) .minmod .hllc tr) boxList (borderOf ![2, 1, 1]) (nghostOf 3 2) ![2, 1, 1] (fun _ _ _ _ => some 0) M lf
      ⟨fun q => localExt ![6, 4, 4] ![2, 1, 1] (nghostOf 3 2) q, fun q c => uniformFields (PerfectGas.toEoS ⟨2, 2 - 1, 1⟩) (r (globalOf ![6, 4, 4] ![2, 1, 1] (nghostOf 3 2) q c))
        ⟨![1, -1 / 2, 2], 5⟩ Fin.elim0⟩ 9 = some (R, hist) ∧
    ∀ rank c, inBox 0 ![2, 1, 1] rank → inExt (localExt ![6, 4, 4] ![2, 1, 1] (nghostOf 3 2) rank) c = true →
      InWind (PerfectGas.toEoS ⟨2, 2 - 1, 1⟩) ⟨![1, -1 / 2, 2], 5⟩ 1 100 (R.val rank c) := by
  obtain ⟨M, lf, hM⟩ : ∃ M lf, KDecomposition (openTube (n := 0) .minmod .hllc tr) ![6, 4, 4] 2 (fun _ i => i) (fun _ _ _ => 0) ![2, 1, 1] boxList (fun _ _ _ _ => some 0) M lf := by
    have hN : ∀ a : Fin 3, (0 : ℤ) ≤ (![6, 4, 4] : Cell) a := by decide
    refine exists_kDecomposition _ hN (by decide) (by norm_num) (fun a ha r h0 h1 => ?_) _
    rw [localSize_eq (hN a) (lt_of_le_of_lt h0 h1)]
    fin_cases a
    · simp [not_lt.2 h0]
    · simp [not_lt.2 h0]
    · simp [not_lt.2 h0]
  obtain ⟨R, hist, h1, h2, h3⟩ := C102_minmod_partial (p := openTube (n := 0) .minmod .hllc tr) le_rfl rfl (.inr rfl) rfl (PerfectGas.lawful sampleGas_physical)
    (w := ⟨![1, -1 / 2, 2], 5⟩) (e := 5) (fun r hr => by rw [perfectGas_evol sampleGas_physical 5 hr]; norm_num) (by norm_num) (by decide) (by norm_num)
    (fun a f => by fin_cases a <;> fin_cases f <;> simp [openTube]) (order := [0, 1, 2, 3, 4, 5]) (by decide) rfl (h := fun _ => 1) (fun _ => one_pos) (fun a i => by push_cast; ring)
    (fun _ _ _ => rfl) hM (lo := 1) (hi := 100) one_pos (G := fun g => uniformFields (PerfectGas.toEoS ⟨2, 2 - 1, 1⟩) (r g) ⟨![1, -1 / 2, 2], 5⟩ Fin.elim0)
    (fun g _ => ⟨rfl, hr g⟩)
    (D := ⟨fun q => localExt ![6, 4, 4] ![2, 1, 1] (nghostOf 3 2) q, fun q c => uniformFields (PerfectGas.toEoS ⟨2, 2 - 1, 1⟩) (r (globalOf ![6, 4, 4] ![2, 1, 1] (nghostOf 3 2) q c))
        ⟨![1, -1 / 2, 2], 5⟩ Fin.elim0⟩) (fun _ _ => rfl) (fun _ _ _ _ => rfl) 9
  refine ⟨M, lf, R, hist, h1, h3 fun j _ => ⟨by simp only [openTube]; norm_num, ?_⟩⟩
  simp only [openTube, Fin.sum_univ_three, Matrix.cons_val_zero, Matrix.cons_val_one, Matrix.cons_val]
  rw [abs_of_pos (by norm_num : (0 : ℝ) < 1), abs_of_pos (by norm_num : (0 : ℝ) < 2), abs_of_neg (by norm_num : (-1 / 2 : ℝ) < 0)]
  norm_num

end Heracles

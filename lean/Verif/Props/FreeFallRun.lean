import Verif.Props.FreeFall
import Verif.Props.WindRange
import Verif.Props.Runs
import Mathlib.Algebra.Order.Archimedean.Basic

/-!
# C73 over any number of iterations
-/

namespace Heracles

variable {d n : ℕ} {K : Type} [Field K] [LinearOrder K] [IsStrictOrderedRing K]

section
variable {p : KernelParams d n K} {lim : Limiter} {sol : Solver} {eos : EoS K} {tr : Trig K} {nx : Cell} {ng : ℤ} {X : Fin 3 → ℤ → K}
  {order : List ℕ} {Gr : (Cell → Fields d n K) → Cell → Fin d → K} {dims : Cell} {sched : Cell → Cell → List Cell}
  {grav : DistView (Fields d n K) → Cell → GravField d K} {M : ℕ → Cell → RankMem d n K} {lf : ℕ → Cell → List Cell}
  {G : Cell → Fields d n K} {D : DistView (Fields d n K)} {force : Fin d → K}

/-- An iteration on a uniform state in a uniform gravity field. -/
theorem fall_iter (hd3 : d ≤ 3) (hk : p.k = exactKernels lim sol eos tr .cartesian none) (hgeom : p.geom = .cartesian) (hN : ∀ a, 0 < nx a) (hng : 2 ≤ ng)
    (hb : ∀ a f, p.bcs a f = .periodic ∨ p.bcs a f = .nullGradient) (hGr : ∀ W c a, Gr W c a = force a) {s : Fields d n K} (hr : s.rho ≠ 0)
    (hfx : ∀ i, 0 ≤ s.fx i ∧ s.fx i ≤ 1) {W : Cell → Fields d n K} (hW : ∀ C, W C = s) (dt : K) (C : Cell) :
    kIterGlob p nx ng X Gr order dt W C = s.pushed dt force := by
  have hb2 : ∀ a f, p.bcs a f ≠ .reflexive := fun a f => by rcases hb a f with h | h <;> rw [h] <;> decide
  unfold kIterGlob
  refine bcGlob_copies (P := fun q => q = s.pushed dt force) hb2 hN (fun g hg => ?_) C
  rw [hk, hgeom, kStepVal_exact hd3]
  have hl : layer d (globExt nx (nghostOf d ng)) ng (g + nghostOf d ng) := layer_glob.2 (by rw [add_sub_cancel_right]; exact hg)
  set pg : PGrid d K := kGrid (exactKernels (n := n) lim sol eos tr .cartesian none) .cartesian X (Gr W) with hpg
  have hG : GeoOf tr .cartesian (globExt nx (nghostOf d ng)) pg := kGrid_geo (n := n) _ _ _ _ _
  have hdiff : ∀ c, layer d (globExt nx (nghostOf d ng)) 1 c → ∀ (a : Fin d) (k f : K), fluxDiff (pg.dirGeo .cartesian a c) k f f = 0 := by
    intro c hc a k f
    have : (pg.dirGeo .cartesian a c).dsR = (pg.dirGeo .cartesian a c).dsL :=
      hG.cartesian_ds hd3 a (layer_inExt hc (by omega)) (layer_inExt (layer_nb hd3 hc a (by norm_num) (by norm_num)) (by norm_num))
    unfold fluxDiff
    rw [this, sub_self, mul_zero]
  have hup : ∀ c, kPrimGlob (exactKernels (n := n) lim sol eos tr .cartesian none) W c = ⟨(toPrim eos s.cons).u, (toPrim eos s.cons).P⟩ := fun c => by
    show VelPres.mk (toPrim eos (W c).cons).u (toPrim eos (W c).cons).P = _
    rw [hW]
  have hrec : ∀ c, layer d (globExt nx (nghostOf d ng)) 1 c → recVal lim eos tr .cartesian pg (dt / 2) W (kPrimGlob (exactKernels (n := n) lim sol eos tr .cartesian none) W) c =
      fun _ _ => (uniformFields eos s.rho ⟨(toPrim eos s.cons).u, (toPrim eos s.cons).P⟩ s.fx).pushed (dt / 2) force := fun c hc =>
    recVal_fall (fun a t _ _ => hW _) (fun a t _ _ => hup _) hr (fun a => hGr _ c a) (hdiff c hc)
  have hc1 := layer_mono hl (show (1 : ℤ) ≤ ng by omega)
  unfold stepVal
  rw [hW]
  exact godVal_fall (hrec _ hc1) (fun a t h1 h2 => hrec _ (layer_mono (layer_nb hd3 hl a h1 h2) (by omega))) hr rfl hfx (fun a => hGr _ _ a) (hdiff _ hc1)

/-- The internal energy after a push. -/
theorem pushed_eint (s : Fields d n K) (hr : s.rho ≠ 0) (dt : K) (force : Fin d → K) :
    (s.pushed dt force).cons.eint = s.cons.eint - s.rho * (∑ i, force i ^ 2) * dt ^ 2 / 2 := by
  have h2 : (2 : K) * s.rho ≠ 0 := mul_ne_zero two_ne_zero hr
  show s.E + ∑ a, dt * force a * s.rhou a - (∑ i, (s.rhou i + dt * force i * s.rho) ^ 2) / (2 * s.rho) = s.E - (∑ i, s.rhou i ^ 2) / (2 * s.rho) - _
  have e1 : ∑ i, (s.rhou i + dt * force i * s.rho) ^ 2 = ∑ i, s.rhou i ^ 2 + 2 * s.rho * (∑ i, dt * force i * s.rhou i) + (dt * s.rho) ^ 2 * ∑ i, force i ^ 2 := by
    rw [Finset.mul_sum, Finset.mul_sum, ← Finset.sum_add_distrib, ← Finset.sum_add_distrib]
    exact Finset.sum_congr rfl fun i _ => by ring
  rw [e1]
  field_simp
  ring

/-- **C73 over whole runs.** Exact arithmetic over any ordered field, Cartesian grid, uniform gravity, every boundary periodic or open, any mesh, limiter, solver, gas law, decomposition, any rule for the
time step. A gas that is uniform at the start is uniform after any number of iterations, ghosts included; with `dt j` the time step of iteration `j`: density and mass fractions are those of the start, the velocity is that of the
start plus gravity times the elapsed time `∑ dt j` (free fall, exactly), and the internal energy is that of the start less `rho |g|² / 2 * ∑ (dt j)²`. Partial: the full property has the internal energy of the start. -/
theorem C73_run_partial (hd3 : d ≤ 3) (hk : p.k = exactKernels lim sol eos tr .cartesian none) (hgeom : p.geom = .cartesian) (hN : ∀ a, 0 < nx a) (hng : 2 ≤ ng)
    (hb : ∀ a f, p.bcs a f = .periodic ∨ p.bcs a f = .nullGradient) (ho : ∀ id ∈ order, id < 2 * d) (hpo : p.order = order.map some)
    (hGr : ∀ W c a, Gr W c a = force a) (hM : KDecomposition p nx ng X Gr dims sched grav M lf) {s : Fields d n K} (hr : s.rho ≠ 0)
    (hfx : ∀ i, 0 ≤ s.fx i ∧ s.fx i ≤ 1) (hG : ∀ g, inBox 0 nx g → G g = s)
    (hext : ∀ rank, inBox 0 dims rank → D.ext rank = localExt nx dims (nghostOf d ng) rank)
    (hint : ∀ rank, inBox 0 dims rank → ∀ c, inBox (nghostOf d ng) (fun a => D.ext rank a - nghostOf d ng a) c →
      D.val rank c = G (globalOf nx dims (nghostOf d ng) rank c)) (i : ℕ) :
    ∃ R hist, kRun p sched (borderOf dims) (nghostOf d ng) dims grav M lf D i = some (R, hist) ∧ hist.length = i ∧
      ∀ rank c, inBox 0 dims rank → inExt (localExt nx dims (nghostOf d ng) rank) c = true →
        (R.val rank c).rho = s.rho ∧ (R.val rank c).fx = s.fx ∧
        (∀ a, (R.val rank c).rhou a / (R.val rank c).rho = s.rhou a / s.rho + force a * ∑ j ∈ Finset.range i, p.policy (hist.drop j)) ∧
        (R.val rank c).cons.eint = s.cons.eint - s.rho * (∑ a, force a ^ 2) / 2 * ∑ j ∈ Finset.range i, p.policy (hist.drop j) ^ 2 := by
  have hb1 : ∀ a f, p.bcs a f ≠ .userDefined := fun a f => by rcases hb a f with h | h <;> rw [h] <;> decide
  have hb2 : ∀ a f, p.bcs a f ≠ .reflexive := fun a f => by rcases hb a f with h | h <;> rw [h] <;> decide
  obtain ⟨W, R, hist, e1, elen, e2, e3, e4⟩ := kRun_global hd3 (fun a => (hN a).le) hng hb1 ho hpo hM hext hint i
  refine ⟨R, hist, e1, elen, fun rank c hrk hc => ?_⟩
  set dt : ℕ → K := fun j => p.policy (hist.drop (i - (j + 1))) with hdt
  have key : ∀ j ≤ i, ∃ q : Fields d n K, (∀ C, W j C = q) ∧ q.rho = s.rho ∧ q.fx = s.fx ∧
      (∀ a, q.rhou a = s.rhou a + s.rho * (force a * ∑ l ∈ Finset.range j, dt l)) ∧
      q.cons.eint = s.cons.eint - s.rho * (∑ a, force a ^ 2) / 2 * ∑ l ∈ Finset.range j, dt l ^ 2 := by
    intro j
    induction j with
    | zero =>
      intro _
      refine ⟨s, fun C => ?_, rfl, rfl, fun a => by simp, by simp⟩
      rw [e3]
      exact bcGlob_copies (P := fun q => q = s) hb2 hN hG C
    | succ j ih =>
      intro hj
      obtain ⟨q, q1, q2, q3, q4, q5⟩ := ih (by omega)
      refine ⟨q.pushed (dt j) force, fun C => ?_, q2, q3, fun a => ?_, ?_⟩
      · rw [e4 j (by omega)]
        exact fall_iter hd3 hk hgeom hN hng hb hGr (by rw [q2]; exact hr) (by rw [q3]; exact hfx) q1 _ C
      · show q.rhou a + dt j * force a * q.rho = _
        rw [q2, q4, Finset.sum_range_succ]
        ring
      · rw [pushed_eint q (by rw [q2]; exact hr), q5, q2, Finset.sum_range_succ]
        ring
  obtain ⟨q, q1, q2, q3, q4, q5⟩ := key i le_rfl
  have flip : ∀ f : K → K, ∑ l ∈ Finset.range i, f (dt l) = ∑ j ∈ Finset.range i, f (p.policy (hist.drop j)) := fun f => by
    rw [← Finset.sum_range_reflect]
    refine Finset.sum_congr rfl fun j hj => ?_
    have := Finset.mem_range.1 hj
    rw [hdt]
    dsimp only
    congr 3
    omega
  rw [e2.val rank hrk c hc, q1]
  refine ⟨q2, q3, fun a => ?_, ?_⟩
  · rw [q4, q2, add_div, mul_div_cancel_left₀ _ hr, flip fun x => x]
  · rw [q5, flip fun x => x ^ 2]

/-- **C73, violated over whole runs.** In the situation of `C73_run_partial` let the field not be zero and the time step be the same number `dt ≠ 0` at each iteration. However hot the gas is at the start, it has a negative internal energy in all cells after some number of
iterations. -/
theorem C73_run_violated [Archimedean K] (hd3 : d ≤ 3) (hk : p.k = exactKernels lim sol eos tr .cartesian none) (hgeom : p.geom = .cartesian) (hN : ∀ a, 0 < nx a) (hng : 2 ≤ ng)
    (hb : ∀ a f, p.bcs a f = .periodic ∨ p.bcs a f = .nullGradient) (ho : ∀ id ∈ order, id < 2 * d) (hpo : p.order = order.map some)
    (hGr : ∀ W c a, Gr W c a = force a) (hM : KDecomposition p nx ng X Gr dims sched grav M lf) {s : Fields d n K} (hr : 0 < s.rho)
    (hfx : ∀ i, 0 ≤ s.fx i ∧ s.fx i ≤ 1) (hG : ∀ g, inBox 0 nx g → G g = s)
    (hext : ∀ rank, inBox 0 dims rank → D.ext rank = localExt nx dims (nghostOf d ng) rank)
    (hint : ∀ rank, inBox 0 dims rank → ∀ c, inBox (nghostOf d ng) (fun a => D.ext rank a - nghostOf d ng a) c →
      D.val rank c = G (globalOf nx dims (nghostOf d ng) rank c)) {a : Fin d} (ha : force a ≠ 0) {dt : K} (hdt : dt ≠ 0) (hpol : ∀ h, p.policy h = dt) :
    ∃ i R hist, kRun p sched (borderOf dims) (nghostOf d ng) dims grav M lf D i = some (R, hist) ∧
      ∀ rank c, inBox 0 dims rank → inExt (localExt nx dims (nghostOf d ng) rank) c = true → (R.val rank c).cons.eint < 0 := by
  have hf : 0 < ∑ a, force a ^ 2 :=
    lt_of_lt_of_le (by positivity) (Finset.single_le_sum (f := fun a => force a ^ 2) (fun b _ => sq_nonneg _) (Finset.mem_univ a))
  have hloss : 0 < s.rho * (∑ a, force a ^ 2) / 2 * dt ^ 2 := by positivity
  obtain ⟨i, hi⟩ := exists_lt_nsmul hloss s.cons.eint
  obtain ⟨R, hist, h1, -, h2⟩ := C73_run_partial hd3 hk hgeom hN hng hb ho hpo hGr hM hr.ne' hfx hG hext hint i
  refine ⟨i, R, hist, h1, fun rank c hrk hc => ?_⟩
  rw [(h2 rank c hrk hc).2.2.2]
  simp only [hpol, Finset.sum_const, Finset.card_range]
  rw [nsmul_eq_mul] at hi ⊢
  linarith

end

/-- Any process grid with uniform gravity. -/
theorem exists_kDecomposition_fall {F : Type} [Zero F] (p : KernelParams d n F) {nx dims : Cell} {ng : ℤ} (hN : ∀ a, 0 ≤ nx a)
    (hdm : ∀ a, 0 < dims a) (hng : 0 ≤ ng) (hsz : ∀ a : Fin 3, a.val < d → ∀ r, 0 ≤ r → r < dims a → ng ≤ localSize (nx a) (dims a) r)
    (X : Fin 3 → ℤ → F) (force : Fin d → F) :
    ∃ M lf, KDecomposition p nx ng X (fun _ _ => force) dims boxList (fun _ _ _ a => some (force a)) M lf := by
  obtain ⟨M, lf, h⟩ := exists_kDecomposition p hN hdm hng hsz X
  exact ⟨M, lf, h.pos, h.size, h.order, fun _ _ _ _ _ _ _ _ => rfl, h.mem⟩

/-- A gas at rest of density 2 and internal energy 100 in a box 6 x 4 x 4 on two ranks, gravity (0, 1, -3), time steps 1/4: free fall for 2 time units, 5 of the internal energy are lost by then; in the end it is negative. -/
example (tr : Trig ℝ) : ∃ M lf,
    (∃ R hist, kRun (openTube (n := 0) .vanLeer .hllc tr) boxList (borderOf ![2, 1, 1]) (nghostOf 3 2) ![2, 1, 1] (fun _ _ _ a => some (![0, 1, -3] a)) M lf
      ⟨fun q => localExt ![6, 4, 4] ![2, 1, 1] (nghostOf 3 2) q, fun _ _ => ⟨2, 0, 100, Fin.elim0⟩⟩ 8 = some (R, hist) ∧
      ∀ rank c, inBox 0 ![2, 1, 1] rank → inExt (localExt ![6, 4, 4] ![2, 1, 1] (nghostOf 3 2) rank) c = true →
        (R.val rank c).rho = 2 ∧ (R.val rank c).rhou 2 / (R.val rank c).rho = -6 ∧ (R.val rank c).cons.eint = 95) ∧
    ∃ i R hist, kRun (openTube (n := 0) .vanLeer .hllc tr) boxList (borderOf ![2, 1, 1]) (nghostOf 3 2) ![2, 1, 1] (fun _ _ _ a => some (![0, 1, -3] a)) M lf
      ⟨fun q => localExt ![6, 4, 4] ![2, 1, 1] (nghostOf 3 2) q, fun _ _ => ⟨2, 0, 100, Fin.elim0⟩⟩ i = some (R, hist) ∧
      ∀ rank c, inBox 0 ![2, 1, 1] rank → inExt (localExt ![6, 4, 4] ![2, 1, 1] (nghostOf 3 2) rank) c = true → (R.val rank c).cons.eint < 0 := by
  obtain ⟨M, lf, hM⟩ : ∃ M lf, KDecomposition (openTube (n := 0) .vanLeer .hllc tr) ![6, 4, 4] 2 (fun _ i => i) (fun _ _ => ![0, 1, -3]) ![2, 1, 1] boxList
      (fun _ _ _ a => some (![0, 1, -3] a)) M lf := by
    have hN : ∀ a : Fin 3, (0 : ℤ) ≤ (![6, 4, 4] : Cell) a := by decide
    refine exists_kDecomposition_fall _ hN (by decide) (by norm_num) (fun a ha r h0 h1 => ?_) _ _
    rw [localSize_eq (hN a) (lt_of_le_of_lt h0 h1)]
    fin_cases a
    · simp [not_lt.2 h0]
    · simp [not_lt.2 h0]
    · simp [not_lt.2 h0]
  have hb : ∀ (a : Fin 3) (f : Fin 2), (openTube (n := 0) .vanLeer .hllc tr).bcs a f = .periodic ∨ (openTube (n := 0) .vanLeer .hllc tr).bcs a f = .nullGradient :=
    fun a f => by fin_cases a <;> fin_cases f <;> simp [openTube]
  have hpol : ∀ h, (openTube (n := 0) .vanLeer .hllc tr).policy h = 1 / 4 := fun _ => rfl
  refine ⟨M, lf, ?_, ?_⟩
  · obtain ⟨R, hist, h1, -, h2⟩ := C73_run_partial (p := openTube (n := 0) .vanLeer .hllc tr) le_rfl rfl rfl (by decide) (by norm_num) hb (order := [0, 1, 2, 3, 4, 5]) (by decide) rfl
      (force := ![0, 1, -3]) (fun _ _ _ => rfl) hM (s := ⟨2, 0, 100, Fin.elim0⟩) (by norm_num) (fun i => i.elim0) (G := fun _ => ⟨2, 0, 100, Fin.elim0⟩) (fun _ _ => rfl)
      (D := ⟨fun q => localExt ![6, 4, 4] ![2, 1, 1] (nghostOf 3 2) q, fun _ _ => ⟨2, 0, 100, Fin.elim0⟩⟩) (fun _ _ => rfl) (fun _ _ _ _ => rfl) 8
    refine ⟨R, hist, h1, fun rank c hrk hc => ?_⟩
    obtain ⟨q1, -, q3, q4⟩ := h2 rank c hrk hc
    refine ⟨q1, ?_, ?_⟩
    · rw [q3]
      simp [hpol]
      norm_num
    · rw [q4]
      simp [hpol, Cons.eint, Fields.cons, Fin.sum_univ_three]
      norm_num
  · exact C73_run_violated (p := openTube (n := 0) .vanLeer .hllc tr) le_rfl rfl rfl (by decide) (by norm_num) hb (order := [0, 1, 2, 3, 4, 5]) (by decide) rfl
      (force := ![0, 1, -3]) (fun _ _ _ => rfl) hM (s := ⟨2, 0, 100, Fin.elim0⟩) (by norm_num) (fun i => i.elim0) (G := fun _ => ⟨2, 0, 100, Fin.elim0⟩) (fun _ _ => rfl)
      (D := ⟨fun q => localExt ![6, 4, 4] ![2, 1, 1] (nghostOf 3 2) q, fun _ _ => ⟨2, 0, 100, Fin.elim0⟩⟩) (fun _ _ => rfl) (fun _ _ _ _ => rfl) (a := 1) (by norm_num) (dt := 1 / 4) (by norm_num) hpol

end Heracles

import Verif.Lemmas.Fractions
import Verif.Props.Locality
import Verif.Props.NanRun
import Verif.Props.MirrorLost

/-!
# C97: mass fractions that add up to one

Full statement: mass fractions `S` that add up to one in all cells at the start do after any number of iterations, for any set `S` and any
limiter. It does not hold: `C97_three_violated` (FractionsLost.lean). What holds is two fractions with any limiter, and any number of them
without slopes and without the clamp.
-/

namespace Heracles

variable {d n : ℕ} {K : Type} [Field K] [LinearOrder K] [IsStrictOrderedRing K]

/-- No density is zero in an iteration from `W`: neither on the faces of the cells of the domain and of their neighbours after the predictor, nor in
the cells of the domain after the update. -/
structure NoVacuum (p : KernelParams d n K) (nx : Cell) (ng : ℤ) (X : Fin 3 → ℤ → K) (Gr : (Cell → Fields d n K) → Cell → Fin d → K) (dt : K)
    (W : Cell → Fields d n K) : Prop where
  faces : ∀ g, inBox 0 nx g → ∀ (a : Fin d) (t : ℤ), -1 ≤ t → t ≤ 1 → ∀ side b,
    (kRecVal p.k p.geom (kGrid p.k p.geom X (Gr W)) (p.k.half dt) W (kPrimGlob p.k W) (nb (g + nghostOf d ng) (ax a) t) side b).rho ≠ 0
  cells : ∀ g, inBox 0 nx g → (kStepVal p.k p.geom (kGrid p.k p.geom X (Gr W)) dt W (kPrimGlob p.k W) (g + nghostOf d ng)).rho ≠ 0

/-- No fraction of `S` has to be brought back between 0 and 1 (src/hydro/godunov_scheme.hpp 299) in an iteration from `W`. -/
def NoClamp (p : KernelParams d n K) (nx : Cell) (ng : ℤ) (X : Fin 3 → ℤ → K) (Gr : (Cell → Fields d n K) → Cell → Fin d → K) (dt : K)
    (W : Cell → Fields d n K) (S : Finset (Fin n)) : Prop :=
  ∀ g, inBox 0 nx g → ∀ i ∈ S,
    0 ≤ rawFraction p.k p.geom (kGrid p.k p.geom X (Gr W)) dt W (kPrimGlob p.k W) (g + nghostOf d ng) i ∧
    rawFraction p.k p.geom (kGrid p.k p.geom X (Gr W)) dt W (kPrimGlob p.k W) (g + nghostOf d ng) i ≤ 1

/-- The common part of the two theorems. -/
theorem whole_run (hd3 : d ≤ 3) {p : KernelParams d n K} {lim : Limiter} {sol : Solver} {eos : EoS K} {tr : Trig K} {fix : Option K}
    (hk : p.k = exactKernels lim sol eos tr p.geom fix) {S : Finset (Fin n)} (hS : SumKept lim S) {nx : Cell} {ng : ℤ} (hpos : ∀ a, 0 < nx a) (hng : 2 ≤ ng)
    (hb : ∀ a f, p.bcs a f ≠ .userDefined) {order : List ℕ} (ho : ∀ id ∈ order, id < 2 * d) (hpo : p.order = order.map some)
    {X : Fin 3 → ℤ → K} {Gr : (Cell → Fields d n K) → Cell → Fin d → K} {dims : Cell} {sched : Cell → Cell → List Cell}
    {grav : DistView (Fields d n K) → Cell → GravField d K} {M : ℕ → Cell → RankMem d n K} {lf : ℕ → Cell → List Cell}
    (h : KDecomposition p nx ng X Gr dims sched grav M lf) {G : Cell → Fields d n K} (hG : ∀ g, inBox 0 nx g → (G g).Whole S)
    {D : DistView (Fields d n K)} (hext : ∀ rank, inBox 0 dims rank → D.ext rank = localExt nx dims (nghostOf d ng) rank)
    (hint : ∀ rank, inBox 0 dims rank → ∀ c, inBox (nghostOf d ng) (fun a => D.ext rank a - nghostOf d ng a) c →
      D.val rank c = G (globalOf nx dims (nghostOf d ng) rank c)) (i : ℕ) :
    ∃ (W : ℕ → Cell → Fields d n K) (R : DistView (Fields d n K)) (hist : List K),
      kRun p sched (borderOf dims) (nghostOf d ng) dims grav M lf D i = some (R, hist) ∧ hist.length = i ∧
      W 0 = bcGlob p.bcs nx (nghostOf d ng) order G ∧
      (∀ j < i, W (j + 1) = kIterGlob p nx ng X Gr order (p.policy (hist.drop (i - (j + 1)))) (W j)) ∧
      ((∀ j < i, NoVacuum p nx ng X Gr (p.policy (hist.drop (i - (j + 1)))) (W j)) →
        (S.card = 2 ∨ ∀ j < i, NoClamp p nx ng X Gr (p.policy (hist.drop (i - (j + 1)))) (W j) S) →
        ∀ rank c, inBox 0 dims rank → inExt (localExt nx dims (nghostOf d ng) rank) c = true → (R.val rank c).Whole S) := by
  obtain ⟨W, R, hist, e1, elen, e2, e3, e4⟩ := kRun_global hd3 (fun a => (hpos a).le) hng hb ho hpo h hext hint i
  refine ⟨W, R, hist, e1, elen, e3, e4, fun hv hc rank c hr hcin => ?_⟩
  rw [e2.val rank hr c hcin]
  have key : ∀ j ≤ i, ∀ C, (W j C).Whole S := by
    intro j
    induction j with
    | zero => exact fun _ C => by rw [e3]; exact bcGlob_all (P := fun f => f.Whole S) p.bcs hpos (fun s a hs => hs) hG C
    | succ j ih =>
      intro hj C
      rw [e4 j (by omega)]
      refine bcGlob_all (P := fun f => f.Whole S) p.bcs hpos (fun s a hs => hs) (fun g hg => ?_) C
      have hv' := hv j (by omega)
      have q1 := hv'.faces g hg
      have q2 := hv'.cells g hg
      have q3 : S.card = 2 ∨ ∀ i' ∈ S, 0 ≤ rawFraction p.k p.geom (kGrid p.k p.geom X (Gr (W j))) (p.policy (hist.drop (i - (j + 1)))) (W j) (kPrimGlob p.k (W j)) (g + nghostOf d ng) i' ∧
          rawFraction p.k p.geom (kGrid p.k p.geom X (Gr (W j))) (p.policy (hist.drop (i - (j + 1)))) (W j) (kPrimGlob p.k (W j)) (g + nghostOf d ng) i' ≤ 1 :=
        hc.imp id fun hc => hc j (by omega) g hg
      generalize kGrid p.k p.geom X (Gr (W j)) = pg at q1 q2 q3 ⊢
      generalize kPrimGlob p.k (W j) = UP at q1 q2 q3 ⊢
      rw [hk] at q1 q2 q3 ⊢
      exact whole_step hS pg _ (ih (by omega)) UP _ q1 q2 q3
  exact key i le_rfl _

/-- **C97.** Exact arithmetic over any ordered field, any limiter, solver, equation of state, geometry, mesh, gravity, boundary conditions and
decomposition, with or without pressure fix. Two mass fractions that add up to one in all cells at the start still do in all cells, ghosts
included, after any number of iterations, as long as no density came out as zero. -/
theorem C97_two_fractions_partial (hd3 : d ≤ 3) {p : KernelParams d n K} {lim : Limiter} {sol : Solver} {eos : EoS K} {tr : Trig K} {fix : Option K}
    (hk : p.k = exactKernels lim sol eos tr p.geom fix) {a b : Fin n} (hab : a ≠ b) {nx : Cell} {ng : ℤ} (hpos : ∀ a, 0 < nx a) (hng : 2 ≤ ng)
    (hb : ∀ a f, p.bcs a f ≠ .userDefined) {order : List ℕ} (ho : ∀ id ∈ order, id < 2 * d) (hpo : p.order = order.map some)
    {X : Fin 3 → ℤ → K} {Gr : (Cell → Fields d n K) → Cell → Fin d → K} {dims : Cell} {sched : Cell → Cell → List Cell}
    {grav : DistView (Fields d n K) → Cell → GravField d K} {M : ℕ → Cell → RankMem d n K} {lf : ℕ → Cell → List Cell}
    (h : KDecomposition p nx ng X Gr dims sched grav M lf) {G : Cell → Fields d n K} (hG : ∀ g, inBox 0 nx g → (G g).fx a + (G g).fx b = 1)
    {D : DistView (Fields d n K)} (hext : ∀ rank, inBox 0 dims rank → D.ext rank = localExt nx dims (nghostOf d ng) rank)
    (hint : ∀ rank, inBox 0 dims rank → ∀ c, inBox (nghostOf d ng) (fun a => D.ext rank a - nghostOf d ng a) c →
      D.val rank c = G (globalOf nx dims (nghostOf d ng) rank c)) (i : ℕ) :
    ∃ (W : ℕ → Cell → Fields d n K) (R : DistView (Fields d n K)) (hist : List K),
      kRun p sched (borderOf dims) (nghostOf d ng) dims grav M lf D i = some (R, hist) ∧ hist.length = i ∧
      W 0 = bcGlob p.bcs nx (nghostOf d ng) order G ∧
      (∀ j < i, W (j + 1) = kIterGlob p nx ng X Gr order (p.policy (hist.drop (i - (j + 1)))) (W j)) ∧
      ((∀ j < i, NoVacuum p nx ng X Gr (p.policy (hist.drop (i - (j + 1)))) (W j)) →
        ∀ rank c, inBox 0 dims rank → inExt (localExt nx dims (nghostOf d ng) rank) c = true →
          (R.val rank c).fx a + (R.val rank c).fx b = 1) := by
  have h2 : ({a, b} : Finset (Fin n)).card = 2 := Finset.card_pair hab
  obtain ⟨W, R, hist, e1, e2, e3, e4, e5⟩ := whole_run hd3 hk (S := {a, b}) (Or.inl h2) hpos hng hb ho hpo h
    (fun g hg => (Finset.sum_pair hab).trans (hG g hg)) hext hint i
  exact ⟨W, R, hist, e1, e2, e3, e4, fun hv rank c hr hc => (Finset.sum_pair hab).symm.trans (e5 hv (Or.inl h2) rank c hr hc)⟩

/-- **C97, first order.** With the reconstruction `Constant`, any number of mass fractions that add up to one still do after any number of
iterations, as long as no density came out as zero and no fraction had to be brought back between 0 and 1. -/
theorem C97_first_order_partial (hd3 : d ≤ 3) {p : KernelParams d n K} {sol : Solver} {eos : EoS K} {tr : Trig K} {fix : Option K}
    (hk : p.k = exactKernels .constant sol eos tr p.geom fix) (S : Finset (Fin n)) {nx : Cell} {ng : ℤ} (hpos : ∀ a, 0 < nx a) (hng : 2 ≤ ng)
    (hb : ∀ a f, p.bcs a f ≠ .userDefined) {order : List ℕ} (ho : ∀ id ∈ order, id < 2 * d) (hpo : p.order = order.map some)
    {X : Fin 3 → ℤ → K} {Gr : (Cell → Fields d n K) → Cell → Fin d → K} {dims : Cell} {sched : Cell → Cell → List Cell}
    {grav : DistView (Fields d n K) → Cell → GravField d K} {M : ℕ → Cell → RankMem d n K} {lf : ℕ → Cell → List Cell}
    (h : KDecomposition p nx ng X Gr dims sched grav M lf) {G : Cell → Fields d n K} (hG : ∀ g, inBox 0 nx g → (G g).Whole S)
    {D : DistView (Fields d n K)} (hext : ∀ rank, inBox 0 dims rank → D.ext rank = localExt nx dims (nghostOf d ng) rank)
    (hint : ∀ rank, inBox 0 dims rank → ∀ c, inBox (nghostOf d ng) (fun a => D.ext rank a - nghostOf d ng a) c →
      D.val rank c = G (globalOf nx dims (nghostOf d ng) rank c)) (i : ℕ) :
    ∃ (W : ℕ → Cell → Fields d n K) (R : DistView (Fields d n K)) (hist : List K),
      kRun p sched (borderOf dims) (nghostOf d ng) dims grav M lf D i = some (R, hist) ∧ hist.length = i ∧
      W 0 = bcGlob p.bcs nx (nghostOf d ng) order G ∧
      (∀ j < i, W (j + 1) = kIterGlob p nx ng X Gr order (p.policy (hist.drop (i - (j + 1)))) (W j)) ∧
      ((∀ j < i, NoVacuum p nx ng X Gr (p.policy (hist.drop (i - (j + 1)))) (W j) ∧ NoClamp p nx ng X Gr (p.policy (hist.drop (i - (j + 1)))) (W j) S) →
        ∀ rank c, inBox 0 dims rank → inExt (localExt nx dims (nghostOf d ng) rank) c = true → (R.val rank c).Whole S) := by
  obtain ⟨W, R, hist, e1, e2, e3, e4, e5⟩ := whole_run hd3 hk (S := S) (Or.inr rfl) hpos hng hb ho hpo h hG hext hint i
  exact ⟨W, R, hist, e1, e2, e3, e4, fun hv => e5 (fun j hj => (hv j hj).1) (Or.inr fun j hj => (hv j hj).2)⟩

/-! ### A run that meets the hypotheses -/

/-- Two species and a density wave in 4 periodic cells, rational arithmetic. -/
def mixTube (g : Cell) : Fields 1 2 ℚ :=
  let s := fun r m e x : ℚ => (⟨r, fun _ => m, e, ![x, 1 - x]⟩ : Fields 1 2 ℚ)
  if g 0 = 0 then s 1 1 3 0 else if g 0 = 1 then s 2 1 3 (1 / 2) else if g 0 = 2 then s 3 (-1) 4 1 else s 2 1 3 (1 / 4)

/-- A gas with sound speed 2. -/
def mixGas : EoS ℚ := ⟨fun _ P => 5 / 2 * P, fun _ e => 2 / 5 * e, fun _ _ => 2⟩

/-- Its kernels. -/
def mixExact (lim : Limiter) : Kernels 1 2 ℚ := exactKernels lim .hll mixGas ⟨fun _ => 0, fun _ => 0, 0⟩ .cartesian none

/-- The initial state with its ghosts. -/
def mixState (C : Cell) : Fields 1 2 ℚ := mixTube (wrap ![4, 1, 1] (C - nghostOf 1 2))

/-- The grid of cells of size 1. -/
def mixGrid (lim : Limiter) : PGrid 1 ℚ := kGrid (mixExact lim) .cartesian (fun _ i => (i : ℚ)) (fun _ _ => 0)

theorem mixTube_faces (lim : Limiter) : ∀ i ∈ Finset.Icc (1 : ℤ) 6, ∀ side : Fin 2,
    (kRecVal (mixExact lim) .cartesian (mixGrid lim) (1 / 8 / 2) mixState (kPrimGlob (mixExact lim) mixState) ![i, 0, 0] side 0).rho ≠ 0 := by
  cases lim <;> decide +kernel

theorem mixTube_cells (lim : Limiter) : ∀ i ∈ Finset.Icc (2 : ℤ) 5,
    (kStepVal (mixExact lim) .cartesian (mixGrid lim) (1 / 8) mixState (kPrimGlob (mixExact lim) mixState) ![i, 0, 0]).rho ≠ 0 := by
  cases lim <;> decide +kernel

theorem mixTube_raw : ∀ i ∈ Finset.Icc (2 : ℤ) 5, ∀ s : Fin 2,
    0 ≤ rawFraction (mixExact .constant) .cartesian (mixGrid .constant) (1 / 8) mixState (kPrimGlob (mixExact .constant) mixState) ![i, 0, 0] s ∧
    rawFraction (mixExact .constant) .cartesian (mixGrid .constant) (1 / 8) mixState (kPrimGlob (mixExact .constant) mixState) ![i, 0, 0] s ≤ 1 := by
  decide +kernel

/-- Cells of the tube. -/
theorem mixTube_cell {g : Cell} (hg : inBox 0 ![4, 1, 1] g) : g + nghostOf 1 2 = ![g 0 + 2, 0, 0] ∧ 0 ≤ g 0 ∧ g 0 < 4 := by
  have h0 : 0 ≤ g 0 ∧ g 0 < 4 := hg 0
  have h1 : 0 ≤ g 1 ∧ g 1 < 1 := hg 1
  have h2 : 0 ≤ g 2 ∧ g 2 < 1 := hg 2
  refine ⟨?_, h0⟩
  funext a
  fin_cases a
  · simp [nghostOf]
  · simp [nghostOf]; omega
  · simp [nghostOf]; omega

/-- The tube meets the hypotheses in its first iteration, and the fractions of the result add up to one. -/
example (lim : Limiter) (user : UserBc 1 2 ℚ) :
    let p : KernelParams 1 2 ℚ := ⟨mixExact lim, .cartesian, 0, fun _ => 1 / 8, user, fun _ _ => .periodic, [some 0, some 1]⟩
    ∃ M lf D R hist, kRun p boxList (borderOf ![2, 1, 1]) (nghostOf 1 2) ![2, 1, 1] (fun _ _ _ _ => some 0) M lf D 1 = some (R, hist) ∧
      ∀ rank c, inBox 0 ![2, 1, 1] rank → inExt (localExt ![4, 1, 1] ![2, 1, 1] (nghostOf 1 2) rank) c = true →
        (R.val rank c).fx 0 + (R.val rank c).fx 1 = 1 := by
  intro p
  have hN0 : ∀ a, 0 < (![4, 1, 1] : Cell) a := by decide
  obtain ⟨M, lf, h⟩ := exists_kDecomposition p (nx := ![4, 1, 1]) (dims := ![2, 1, 1]) (ng := 2) (fun a => (hN0 a).le) (by decide) (by norm_num)
    (by
      intro a ha r h0 h1
      rw [localSize_eq (hN0 a).le (lt_of_le_of_lt h0 h1)]
      fin_cases a
      · simp [not_lt.2 h0]
      · simp at ha
      · simp at ha) (fun _ i => (i : ℚ))
  have hsum : ∀ g : Cell, (mixTube g).fx 0 + (mixTube g).fx 1 = 1 := fun g => by
    unfold mixTube
    dsimp only
    split_ifs <;> simp
  obtain ⟨W, R, hist, e1, e2, e3, e4, e5⟩ := C97_two_fractions_partial (by norm_num) (p := p) (lim := lim) (sol := .hll) (eos := mixGas)
    (tr := ⟨fun _ => 0, fun _ => 0, 0⟩) (fix := none) rfl (a := 0) (b := 1) (by decide) hN0 le_rfl (fun _ _ h => by cases h) (order := [0, 1]) (by decide) rfl h
    (G := mixTube) (fun g _ => hsum g)
    (D := ⟨fun r => localExt ![4, 1, 1] ![2, 1, 1] (nghostOf 1 2) r, fun r c => mixTube (globalOf ![4, 1, 1] ![2, 1, 1] (nghostOf 1 2) r c)⟩)
    (fun _ _ => rfl) (fun _ _ _ _ => rfl) 1
  refine ⟨M, lf, _, R, hist, e1, e5 fun j hj => ?_⟩
  obtain rfl : j = 0 := by omega
  rw [e3, bcGlob_wrap (fun _ _ => rfl)]
  refine ⟨fun g hg a t h1 h2 side b => ?_, fun g hg => ?_⟩
  · obtain ⟨e, q1, q2⟩ := mixTube_cell hg
    have e' : nb (g + nghostOf 1 2) (ax a) t = ![g 0 + 2 + t, 0, 0] := by
      rw [e, Subsingleton.elim a 0]
      funext k
      fin_cases k <;> simp [nb, ax]
    rw [e', Subsingleton.elim b 0]
    exact mixTube_faces lim _ (Finset.mem_Icc.2 ⟨by omega, by omega⟩) side
  · obtain ⟨e, q1, q2⟩ := mixTube_cell hg
    rw [e]
    exact mixTube_cells lim _ (Finset.mem_Icc.2 ⟨by omega, by omega⟩)

/-- With the constant reconstruction no fraction of the tube is brought back either. -/
example (user : UserBc 1 2 ℚ) :
    let p : KernelParams 1 2 ℚ := ⟨mixExact .constant, .cartesian, 0, fun _ => 1 / 8, user, fun _ _ => .periodic, [some 0, some 1]⟩
    NoClamp p ![4, 1, 1] 2 (fun _ i => (i : ℚ)) (fun _ _ _ => 0) (1 / 8) mixState Finset.univ := by
  intro p g hg s _
  obtain ⟨e, q1, q2⟩ := mixTube_cell hg
  rw [e]
  exact mixTube_raw _ (Finset.mem_Icc.2 ⟨by omega, by omega⟩) s

end Heracles

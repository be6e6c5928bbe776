import Verif.Lemmas.MaxPrinciple
import Verif.Props.Fractions

/-!
# C100: mass fractions stay between the extremes of their initial values

Full statement: at all times every mass fraction of every cell lies between the least and the greatest initial value of that fraction. It does not hold with
slopes: `C100_slopes_violated` (MaxPrincipleLost.lean). It holds without slopes as long as no cell gives away more mass than it has.
-/

namespace Heracles

variable {d n : ℕ} {K : Type} [Field K] [LinearOrder K] [IsStrictOrderedRing K]

/-- In an iteration from `W` no cell of the domain gives away more mass than it has: the mass that leaves through its faces in the time `dt`, over its volume,
is at most its density. -/
def KeepsMass (sol : Solver) (eos : EoS K) (p : KernelParams d n K) (nx : Cell) (ng : ℤ) (X : Fin 3 → ℤ → K) (Gr : (Cell → Fields d n K) → Cell → Fin d → K) (dt : K)
    (W : Cell → Fields d n K) : Prop :=
  let G := kGrid p.k p.geom X (Gr W)
  let R := kRecVal p.k p.geom G (p.k.half dt) W (kPrimGlob p.k W)
  ∀ g, inBox 0 nx g → let c := g + nghostOf d ng
    ∑ a : Fin d, dt / G.dv c * (G.ds c (ax a) * max (-(sol.flux eos (R (nb c (ax a) (-1)) 1 a).cons (R c 0 a).cons a).rho) 0 +
      G.ds (nb c (ax a) 1) (ax a) * max (sol.flux eos (R c 1 a).cons (R (nb c (ax a) 1) 0 a).cons a).rho 0) ≤ (W c).rho

/-- The step as it is used in the theorems below. -/
theorem keepsMass_step {p : KernelParams d n K} {sol : Solver} {eos : EoS K} {tr : Trig K} {fix : Option K}
    (hk : p.k = exactKernels .constant sol eos tr p.geom fix) {nx : Cell} {ng : ℤ} {X : Fin 3 → ℤ → K} {Gr : (Cell → Fields d n K) → Cell → Fin d → K} {dt : K}
    (hdt : 0 ≤ dt) (hv : ∀ C, inBox 0 nx (C - nghostOf d ng) → 0 ≤ (kGrid p.k p.geom X (fun _ (_ : Fin d) => 0)).dv C)
    (hA : ∀ C, inBox 0 nx (C - nghostOf d ng) → ∀ a : Fin d, 0 ≤ (kGrid p.k p.geom X (fun _ (_ : Fin d) => 0)).ds C (ax a) ∧
      0 ≤ (kGrid p.k p.geom X (fun _ (_ : Fin d) => 0)).ds (nb C (ax a) 1) (ax a))
    {W : Cell → Fields d n K} (h1 : NoVacuum p nx ng X Gr dt W) (h2 : KeepsMass sol eos p nx ng X Gr dt W) {i : Fin n} {m M : K}
    (hW : ∀ C, m ≤ (W C).fx i ∧ (W C).fx i ≤ M) {g : Cell} (hg : inBox 0 nx g) :
    (m ≤ rawFraction p.k p.geom (kGrid p.k p.geom X (Gr W)) dt W (kPrimGlob p.k W) (g + nghostOf d ng) i ∧
      rawFraction p.k p.geom (kGrid p.k p.geom X (Gr W)) dt W (kPrimGlob p.k W) (g + nghostOf d ng) i ≤ M) ∧
    (kStepVal p.k p.geom (kGrid p.k p.geom X (Gr W)) dt W (kPrimGlob p.k W) (g + nghostOf d ng)).fx i =
      clamp (rawFraction p.k p.geom (kGrid p.k p.geom X (Gr W)) dt W (kPrimGlob p.k W) (g + nghostOf d ng) i) 0 1 := by
  have hin : inBox 0 nx (g + nghostOf d ng - nghostOf d ng) := by rwa [add_sub_cancel_right]
  have v1 : 0 ≤ (kGrid p.k p.geom X (Gr W)).dv (g + nghostOf d ng) := hv _ hin
  have v2 : ∀ a : Fin d, 0 ≤ (kGrid p.k p.geom X (Gr W)).ds (g + nghostOf d ng) (ax a) ∧ 0 ≤ (kGrid p.k p.geom X (Gr W)).ds (nb (g + nghostOf d ng) (ax a) 1) (ax a) := hA _ hin
  have q1 := h1.faces g hg
  have q2 := h1.cells g hg
  have q3 := h2 g hg
  generalize kGrid p.k p.geom X (Gr W) = pg at v1 v2 q1 q2 q3 ⊢
  generalize kPrimGlob p.k W = UP at q1 q2 q3 ⊢
  rw [hk] at q1 q2 q3 ⊢
  refine stepVal_within pg (div_nonneg hdt v1) v2 q1 q2 (le_trans (le_of_eq ?_) q3) (hW _) fun a t _ _ => hW _
  unfold massGiven
  refine Finset.sum_congr rfl fun a _ => ?_
  cases p.geom <;> rfl

/-- **C100.** Exact arithmetic over any ordered field, reconstruction `Constant`, any solver, equation of state, geometry, mesh, gravity, boundary conditions and
decomposition, with or without pressure fix. A mass fraction that lies between `m` and `M` in all cells at the start, with `0 ≤ m` and `M ≤ 1`, does so in all cells,
ghosts included, after any number of iterations, as long as no density came out as zero and no cell gave away more mass than it had.
Full claim: with any limiter and without the last condition. That is false (`C100_slopes_violated`); `C100_run_partial` derives the last condition from the Courant number. -/
theorem C100_bounds_partial (hd3 : d ≤ 3) {p : KernelParams d n K} {sol : Solver} {eos : EoS K} {tr : Trig K} {fix : Option K}
    (hk : p.k = exactKernels .constant sol eos tr p.geom fix) {nx : Cell} {ng : ℤ} (hpos : ∀ a, 0 < nx a) (hng : 2 ≤ ng)
    (hb : ∀ a f, p.bcs a f ≠ .userDefined) {order : List ℕ} (ho : ∀ id ∈ order, id < 2 * d) (hpo : p.order = order.map some)
    {X : Fin 3 → ℤ → K} (hv : ∀ C, inBox 0 nx (C - nghostOf d ng) → 0 ≤ (kGrid p.k p.geom X (fun _ (_ : Fin d) => 0)).dv C)
    (hA : ∀ C, inBox 0 nx (C - nghostOf d ng) → ∀ a : Fin d, 0 ≤ (kGrid p.k p.geom X (fun _ (_ : Fin d) => 0)).ds C (ax a) ∧
      0 ≤ (kGrid p.k p.geom X (fun _ (_ : Fin d) => 0)).ds (nb C (ax a) 1) (ax a))
    {Gr : (Cell → Fields d n K) → Cell → Fin d → K} {dims : Cell} {sched : Cell → Cell → List Cell}
    {grav : DistView (Fields d n K) → Cell → GravField d K} {M : ℕ → Cell → RankMem d n K} {lf : ℕ → Cell → List Cell}
    (h : KDecomposition p nx ng X Gr dims sched grav M lf) {G : Cell → Fields d n K} {s : Fin n} {lo hi : K} (h0 : 0 ≤ lo) (h1 : hi ≤ 1)
    (hG : ∀ g, inBox 0 nx g → lo ≤ (G g).fx s ∧ (G g).fx s ≤ hi)
    {D : DistView (Fields d n K)} (hext : ∀ rank, inBox 0 dims rank → D.ext rank = localExt nx dims (nghostOf d ng) rank)
    (hint : ∀ rank, inBox 0 dims rank → ∀ c, inBox (nghostOf d ng) (fun a => D.ext rank a - nghostOf d ng a) c →
      D.val rank c = G (globalOf nx dims (nghostOf d ng) rank c)) (i : ℕ) :
    ∃ (W : ℕ → Cell → Fields d n K) (R : DistView (Fields d n K)) (hist : List K),
      kRun p sched (borderOf dims) (nghostOf d ng) dims grav M lf D i = some (R, hist) ∧ hist.length = i ∧
      W 0 = bcGlob p.bcs nx (nghostOf d ng) order G ∧
      (∀ j < i, W (j + 1) = kIterGlob p nx ng X Gr order (p.policy (hist.drop (i - (j + 1)))) (W j)) ∧
      ((∀ j < i, 0 ≤ p.policy (hist.drop (i - (j + 1))) ∧ NoVacuum p nx ng X Gr (p.policy (hist.drop (i - (j + 1)))) (W j) ∧
          KeepsMass sol eos p nx ng X Gr (p.policy (hist.drop (i - (j + 1)))) (W j)) →
        ∀ rank c, inBox 0 dims rank → inExt (localExt nx dims (nghostOf d ng) rank) c = true → lo ≤ (R.val rank c).fx s ∧ (R.val rank c).fx s ≤ hi) := by
  obtain ⟨W, R, hist, e1, elen, e2, e3, e4⟩ := kRun_global hd3 (fun a => (hpos a).le) hng hb ho hpo h hext hint i
  refine ⟨W, R, hist, e1, elen, e3, e4, fun hc rank c hr hcin => ?_⟩
  rw [e2.val rank hr c hcin]
  have key : ∀ j ≤ i, ∀ C, lo ≤ (W j C).fx s ∧ (W j C).fx s ≤ hi := by
    intro j
    induction j with
    | zero => exact fun _ C => by rw [e3]; exact bcGlob_all (P := fun f => lo ≤ f.fx s ∧ f.fx s ≤ hi) p.bcs hpos (fun _ _ hs => hs) hG C
    | succ j ih =>
      intro hj C
      rw [e4 j (by omega)]
      refine bcGlob_all (P := fun f => lo ≤ f.fx s ∧ f.fx s ≤ hi) p.bcs hpos (fun _ _ hs => hs) (fun g hg => ?_) C
      obtain ⟨c1, c2, c3⟩ := hc j (by omega)
      obtain ⟨q1, q2⟩ := keepsMass_step hk c1 hv hA c2 c3 (ih (by omega)) hg
      rw [q2, clamp_within h0 h1 q1]
      exact q1
  exact key i le_rfl _

/-- **C100, sums.** In the same setting any number of mass fractions, each between 0 and 1, that add up to one at the start still do after any number of iterations: the clamp
never acts (compare `C97_first_order_partial`, which assumes that). -/
theorem C100_sum_partial (hd3 : d ≤ 3) {p : KernelParams d n K} {sol : Solver} {eos : EoS K} {tr : Trig K} {fix : Option K}
    (hk : p.k = exactKernels .constant sol eos tr p.geom fix) (S : Finset (Fin n)) {nx : Cell} {ng : ℤ} (hpos : ∀ a, 0 < nx a) (hng : 2 ≤ ng)
    (hb : ∀ a f, p.bcs a f ≠ .userDefined) {order : List ℕ} (ho : ∀ id ∈ order, id < 2 * d) (hpo : p.order = order.map some)
    {X : Fin 3 → ℤ → K} (hv : ∀ C, inBox 0 nx (C - nghostOf d ng) → 0 ≤ (kGrid p.k p.geom X (fun _ (_ : Fin d) => 0)).dv C)
    (hA : ∀ C, inBox 0 nx (C - nghostOf d ng) → ∀ a : Fin d, 0 ≤ (kGrid p.k p.geom X (fun _ (_ : Fin d) => 0)).ds C (ax a) ∧
      0 ≤ (kGrid p.k p.geom X (fun _ (_ : Fin d) => 0)).ds (nb C (ax a) 1) (ax a))
    {Gr : (Cell → Fields d n K) → Cell → Fin d → K} {dims : Cell} {sched : Cell → Cell → List Cell}
    {grav : DistView (Fields d n K) → Cell → GravField d K} {M : ℕ → Cell → RankMem d n K} {lf : ℕ → Cell → List Cell}
    (h : KDecomposition p nx ng X Gr dims sched grav M lf) {G : Cell → Fields d n K}
    (hG : ∀ g, inBox 0 nx g → (∀ s ∈ S, 0 ≤ (G g).fx s ∧ (G g).fx s ≤ 1) ∧ ∑ s ∈ S, (G g).fx s = 1)
    {D : DistView (Fields d n K)} (hext : ∀ rank, inBox 0 dims rank → D.ext rank = localExt nx dims (nghostOf d ng) rank)
    (hint : ∀ rank, inBox 0 dims rank → ∀ c, inBox (nghostOf d ng) (fun a => D.ext rank a - nghostOf d ng a) c →
      D.val rank c = G (globalOf nx dims (nghostOf d ng) rank c)) (i : ℕ) :
    ∃ (W : ℕ → Cell → Fields d n K) (R : DistView (Fields d n K)) (hist : List K),
      kRun p sched (borderOf dims) (nghostOf d ng) dims grav M lf D i = some (R, hist) ∧ hist.length = i ∧
      W 0 = bcGlob p.bcs nx (nghostOf d ng) order G ∧
      (∀ j < i, W (j + 1) = kIterGlob p nx ng X Gr order (p.policy (hist.drop (i - (j + 1)))) (W j)) ∧
      ((∀ j < i, 0 ≤ p.policy (hist.drop (i - (j + 1))) ∧ NoVacuum p nx ng X Gr (p.policy (hist.drop (i - (j + 1)))) (W j) ∧
          KeepsMass sol eos p nx ng X Gr (p.policy (hist.drop (i - (j + 1)))) (W j)) →
        ∀ rank c, inBox 0 dims rank → inExt (localExt nx dims (nghostOf d ng) rank) c = true → ∑ s ∈ S, (R.val rank c).fx s = 1) := by
  obtain ⟨W, R, hist, e1, e2, e3, e4, e5⟩ := whole_run hd3 hk (S := S) (Or.inr rfl) hpos hng hb ho hpo h (fun g hg => (hG g hg).2) hext hint i
  refine ⟨W, R, hist, e1, e2, e3, e4, fun hc => e5 (fun j hj => (hc j hj).2.1) (Or.inr fun j hj => ?_)⟩
  have key : ∀ j ≤ i, ∀ s ∈ S, ∀ C, 0 ≤ (W j C).fx s ∧ (W j C).fx s ≤ 1 := by
    intro j
    induction j with
    | zero => exact fun _ s hs C => by rw [e3]; exact bcGlob_all (P := fun f => 0 ≤ f.fx s ∧ f.fx s ≤ 1) p.bcs hpos (fun _ _ hs => hs) (fun g hg => (hG g hg).1 s hs) C
    | succ j ih =>
      intro hj s hs C
      rw [e4 j (by omega)]
      refine bcGlob_all (P := fun f => 0 ≤ f.fx s ∧ f.fx s ≤ 1) p.bcs hpos (fun _ _ hs => hs) (fun g hg => ?_) C
      obtain ⟨c1, c2, c3⟩ := hc j (by omega)
      obtain ⟨q1, q2⟩ := keepsMass_step hk c1 hv hA c2 c3 (ih (by omega) s hs) hg
      rw [q2, clamp_within le_rfl le_rfl q1]
      exact q1
  obtain ⟨c1, c2, c3⟩ := hc j hj
  exact fun g hg s hs => (keepsMass_step hk c1 hv hA c2 c3 (key j (by omega) s hs) hg).1

/-! ### The tube of `C97_two_fractions_partial` -/

theorem mixTube_mass : ∀ i ∈ Finset.Icc (2 : ℤ) 5,
    let R := kRecVal (mixExact .constant) .cartesian (mixGrid .constant) (1 / 8 / 2) mixState (kPrimGlob (mixExact .constant) mixState)
    ∑ a : Fin 1, (1 / 8 : ℚ) / (mixGrid .constant).dv ![i, 0, 0] *
      ((mixGrid .constant).ds ![i, 0, 0] (ax a) * max (-(Solver.hll.flux mixGas (R (nb ![i, 0, 0] (ax a) (-1)) 1 a).cons (R ![i, 0, 0] 0 a).cons a).rho) 0 +
        (mixGrid .constant).ds (nb ![i, 0, 0] (ax a) 1) (ax a) * max (Solver.hll.flux mixGas (R ![i, 0, 0] 1 a).cons (R (nb ![i, 0, 0] (ax a) 1) 0 a).cons a).rho 0) ≤
      (mixState ![i, 0, 0]).rho := by
  decide +kernel

/-- The first iteration of the tube meets all conditions, with cells of volume 1 and faces of area 1. -/
example (user : UserBc 1 2 ℚ) :
    let p : KernelParams 1 2 ℚ := ⟨mixExact .constant, .cartesian, 0, fun _ => 1 / 8, user, fun _ _ => .periodic, [some 0, some 1]⟩
    KeepsMass .hll mixGas p ![4, 1, 1] 2 (fun _ i => (i : ℚ)) (fun _ _ _ => 0) (1 / 8) mixState ∧
    NoVacuum p ![4, 1, 1] 2 (fun _ i => (i : ℚ)) (fun _ _ _ => 0) (1 / 8) mixState ∧
    (∀ g, inBox 0 ![4, 1, 1] g → ∀ s, 0 ≤ (mixTube g).fx s ∧ (mixTube g).fx s ≤ 1) := by
  intro p
  refine ⟨fun g hg => ?_, ⟨fun g hg a t h1 h2 side b => ?_, fun g hg => ?_⟩, fun g _ s => ?_⟩
  · obtain ⟨e, q1, q2⟩ := mixTube_cell hg
    dsimp only
    rw [e]
    exact mixTube_mass (g 0 + 2) (Finset.mem_Icc.2 ⟨by omega, by omega⟩)
  · obtain ⟨e, q1, q2⟩ := mixTube_cell hg
    have e' : nb (g + nghostOf 1 2) (ax a) t = ![g 0 + 2 + t, 0, 0] := by
      rw [e, Subsingleton.elim a 0]
      funext k
      fin_cases k <;> simp [nb, ax]
    rw [e', Subsingleton.elim b 0]
    exact mixTube_faces .constant _ (Finset.mem_Icc.2 ⟨by omega, by omega⟩) side
  · obtain ⟨e, q1, q2⟩ := mixTube_cell hg
    rw [e]
    exact mixTube_cells .constant _ (Finset.mem_Icc.2 ⟨by omega, by omega⟩)
  · unfold mixTube
    dsimp only
    fin_cases s <;> split_ifs <;> norm_num

/-- The volumes and areas of its mesh. -/
example (user : UserBc 1 2 ℚ) :
    let p : KernelParams 1 2 ℚ := ⟨mixExact .constant, .cartesian, 0, fun _ => 1 / 8, user, fun _ _ => .periodic, [some 0, some 1]⟩
    let g := kGrid p.k p.geom (fun _ i => (i : ℚ)) (fun _ (_ : Fin 1) => 0)
    ∀ i ∈ Finset.Icc (2 : ℤ) 5, g.dv ![i, 0, 0] = 1 ∧ g.ds ![i, 0, 0] 0 = 1 ∧ g.ds ![i + 1, 0, 0] 0 = 1 :=
  show ∀ i ∈ Finset.Icc (2 : ℤ) 5, (mixGrid .constant).dv ![i, 0, 0] = 1 ∧ (mixGrid .constant).ds ![i, 0, 0] 0 = 1 ∧ (mixGrid .constant).ds ![i + 1, 0, 0] 0 = 1 by
  decide +kernel

end Heracles

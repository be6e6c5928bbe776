import Verif.Lemmas.Ordered
import Verif.Props.KernelRun

/-!
# C83: the exact model is the code run with exact operations
-/

namespace Heracles

variable {d n : ℕ} {K : Type} [Field K] [LinearOrder K] (lim : Limiter) (sol : Solver) (eos : EoS K) (tr : Trig K) (geom : Geom)
  (fix : Option K)

omit [LinearOrder K] in
theorem kDirGeo_exact (g : GridData K) (a : Fin d) (c : Cell) : g.kDirGeo geom a c = g.dirGeo geom a c := rfl

theorem kDsCell_exact (x dx : Fin 3 → View ℤ K) (old : Fin 3 → K) (c : Cell) :
    kDsCell (d := d) (n := n) (exactKernels lim sol eos tr geom fix) geom x dx old c = dsCell tr geom d x dx old c := by
  cases geom <;> rfl

theorem kDvCell_exact (x dx : Fin 3 → View ℤ K) (old : K) (c : Cell) :
    kDvCell (d := d) (n := n) (exactKernels lim sol eos tr geom fix) geom x dx old c = dvCell tr geom d x dx old c := by
  cases geom <;> rfl

theorem kSetGrid_exact (topo : GridTopo) (l1 : Fin 3 → List ℤ) (l l' : List Cell) (x : Fin 3 → View ℤ K) (g : GridData K) :
    kSetGrid (d := d) (n := n) (exactKernels lim sol eos tr geom fix) geom topo l1 l l' x g = setGrid tr geom d topo l1 l l' x g := by
  unfold kSetGrid setGrid computeCellSize computeCellCenter cellSize cellCenter fillDs fillDv
  simp only [Option.bind_eq_bind, Option.bind_assoc, Option.pure_def, Option.bind_some, kDsCell_exact, kDvCell_exact]
  rfl

theorem kFaceReconstruct_exact (dx : Fin 3 → View ℤ K) (l : List Cell) (var : View Cell K) (out : FaceArr d K) :
    kFaceReconstruct (n := n) (exactKernels lim sol eos tr geom fix) dx l var out = faceReconstruct lim dx l var out := rfl

theorem kPrimToCons_exact (l : List Cell) (rho : View Cell K) (up : View Cell (VelPres d K)) (out : View Cell (MomEn d K)) :
    kPrimToCons (n := n) (exactKernels lim sol eos tr geom fix) l rho up out = convPrimToCons eos l rho up out := rfl

theorem kConsToPrim_exact (l : List Cell) (rho : View Cell K) (me : View Cell (MomEn d K)) (out : View Cell (VelPres d K)) :
    kConsToPrim (n := n) (exactKernels lim sol eos tr geom fix) l rho me out = convConsToPrim eos l rho me out := rfl

theorem kHancock_exact (g : GridData K) (grav : GravField d K) (dt : K) (l l' : List Cell) (up : FaceArr d (VelPres d K))
    (rec : FaceArr d (Fields d n K)) :
    kHancock (exactKernels lim sol eos tr geom fix) geom g grav dt l l' up rec = hancock eos tr geom g grav dt l l' up rec := by
  unfold kHancock hancock
  congr 1
  congr 1
  funext c w
  unfold hancockCell
  simp only [Option.bind_eq_bind, Option.bind_assoc, kDirGeo_exact]
  rfl

theorem kReconstruct_exact (g : GridData K) (grav : GravField d K) (dt : K) (sc : RecScheds d n)
    (U : View Cell (Fields d n K)) (up : View Cell (VelPres d K)) (upRec : FaceArr d (VelPres d K)) (rec : FaceArr d (Fields d n K)) :
    kReconstruct (exactKernels lim sol eos tr geom fix) geom g grav dt sc U up upRec rec =
      hydroReconstruct lim eos tr geom g grav dt sc U up upRec rec := by
  unfold kReconstruct hydroReconstruct
  simp only [kFaceReconstruct_exact, kPrimToCons_exact, kHancock_exact]

theorem kGodunov_exact (g : GridData K) (grav : GravField d K) (dt : K) (l l' : List Cell) (U : View Cell (Fields d n K))
    (rec : FaceArr d (Fields d n K)) (new : View Cell (Fields d n K)) :
    kGodunov (exactKernels lim sol eos tr geom fix) geom g grav dt l l' U rec new =
      godunov sol eos tr geom g grav dt l l' U rec new := by
  unfold kGodunov godunov
  congr 1
  congr 1
  funext c w
  unfold godunovCell
  simp only [Option.bind_eq_bind, Option.bind_assoc, kDirGeo_exact]
  rfl

theorem kTimeStep_exact {R : Type} (lo : K) (ranks : List R) (parts : R → List (List Cell)) (g : R → GridData K)
    (rho : R → View Cell K) (up : R → View Cell (VelPres d K)) :
    kTimeStep lo (exactKernels (n := n) lim sol eos tr geom fix) ranks parts g rho up = timeStep lo eos tr geom ranks parts g rho up := by
  rfl

theorem kPressureFix_exact (eps : K) (g : GridData K) (dt : K) (l : List Cell) (U : View Cell (Fields d n K))
    (rec : FaceArr d (Fields d n K)) (new : View Cell (Fields d n K)) :
    kPressureFix (exactKernels lim sol eos tr geom (some eps)) g dt l U rec new = pressureFix eos g dt eps l U rec new := by
  unfold kPressureFix pressureFix
  congr 1
  funext c w
  unfold pressureFixCell
  simp only [Option.bind_eq_bind, Option.bind_assoc]
  congr 1
  funext q
  congr 1
  funext s
  by_cases h : s.E - s.cons.ek < eps * s.cons.ek
  · have hf : (exactKernels (d := d) (n := n) lim sol eos tr geom (some eps)).fixOn s = true := decide_eq_true h
    rw [if_pos h, if_pos hf]
    simp only [Option.bind_assoc]
    rfl
  · have hf : (exactKernels (d := d) (n := n) lim sol eos tr geom (some eps)).fixOn s = false := decide_eq_false h
    rw [if_neg h, if_neg (by rw [hf]; decide)]
    rfl

/-- The step of `Model/KernelRun.lean` with exact kernels is the step of the exact model: without the fix (the loop of the fix is
not run) it is `hydroStep`, with it reconstruction, Godunov update and `pressureFix`. -/
theorem kStep_exact (g : GridData K) (grav : GravField d K) (dt : K) (sc : RecScheds d n) (l l' : List Cell)
    (U : View Cell (Fields d n K)) (up : View Cell (VelPres d K)) (upRec : FaceArr d (VelPres d K))
    (rec : FaceArr d (Fields d n K)) (new : View Cell (Fields d n K)) :
    kStep (exactKernels lim sol eos tr geom fix) geom g grav dt sc l l' [] U up upRec rec new =
      hydroStep lim sol eos tr geom g grav dt sc l l' U up upRec rec new := by
  unfold kStep hydroStep
  rw [kReconstruct_exact]
  congr 1
  funext rec'
  rw [kGodunov_exact]
  show (godunov sol eos tr geom g grav dt l l' U rec' new).bind some = _
  cases godunov sol eos tr geom g grav dt l l' U rec' new <;> rfl

theorem kStep_exact_fix (eps : K) (g : GridData K) (grav : GravField d K) (dt : K) (sc : RecScheds d n) (l l' lf : List Cell)
    (U : View Cell (Fields d n K)) (up : View Cell (VelPres d K)) (upRec : FaceArr d (VelPres d K))
    (rec : FaceArr d (Fields d n K)) (new : View Cell (Fields d n K)) :
    kStep (exactKernels lim sol eos tr geom (some eps)) geom g grav dt sc l l' lf U up upRec rec new = (do
      let rec' ← hydroReconstruct lim eos tr geom g grav (dt / 2) sc U up upRec rec
      let new' ← godunov sol eos tr geom g grav dt l l' U rec' new
      pressureFix eos g dt eps lf U rec' new') := by
  unfold kStep
  rw [kReconstruct_exact]
  congr 1
  funext rec'
  rw [kGodunov_exact]
  congr 1
  funext new'
  rw [kPressureFix_exact]

/-- The parameters of a run whose numbers are computed with the operations of `F`, in the order of the code. -/
def DistParams.ordered (p : DistParams d n K) (ar : Arith K) (fix : Option K) : KernelParams d n K :=
  { k := @orderedKernels d n K ar p.lim p.sol p.eos p.geom fix, geom := p.geom, lo := p.lo, policy := p.policy, user := p.user
    bcs := p.bcs, order := p.order }

/-- **C83.** The exact model, whose sums are over sets of directions and whose source terms are gathered, is what the code computes
when each of its operations is performed in its place and is exact: the run of `Model/Distributed.lean` equals, for every number of
iterations, the run of the kernels written operation by operation (`orderedKernels`: a `+=` adds to the variable, a loop over the
directions folds in order, spherical source terms are added one after the other), failures included. -/
theorem C83_exact_operations (hd : d ≤ 3) (p : DistParams d n K) (sched : Cell → Cell → List Cell)
    (isBorder : Cell → Fin 3 → Fin 2 → Bool) (nghost dims : Cell) (grav : DistView (Fields d n K) → Cell → GravField d K)
    (M : ℕ → Cell → RankMem d n K) (D : DistView (Fields d n K)) (i : ℕ) :
    kRun (p.ordered (exactArith K p.tr) none) sched isBorder nghost dims grav M (fun _ _ => []) D i =
      distRun p sched isBorder nghost dims grav M D i := by
  induction i with
  | zero => rfl
  | succ i ih =>
    unfold kRun distRun
    rw [ih]
    congr 1
    funext s
    unfold kIter distIter distPrims DistParams.ordered
    simp only [orderedKernels_exact p.tr hd, kConsToPrim_exact, kTimeStep_exact, kStep_exact]


/-- **C83, grid.** The same for the grid arrays. -/
theorem C83_exact_grid (hd : d ≤ 3) (topo : GridTopo) (l1 : Fin 3 → List ℤ) (l l' : List Cell) (x : Fin 3 → View ℤ K)
    (g : GridData K) :
    kSetGrid (@orderedKernels d n K (exactArith K tr) lim sol eos geom fix) geom topo l1 l l' x g =
      setGrid tr geom d topo l1 l l' x g := by
  rw [orderedKernels_exact tr hd, kSetGrid_exact]

/-- **C83, pressure fix.** The same for a step with the pressure fix. -/
theorem C83_exact_pressure_fix (hd : d ≤ 3) (eps : K) (g : GridData K) (grav : GravField d K) (dt : K) (sc : RecScheds d n)
    (l l' lf : List Cell) (U : View Cell (Fields d n K)) (up : View Cell (VelPres d K)) (upRec : FaceArr d (VelPres d K))
    (rec : FaceArr d (Fields d n K)) (new : View Cell (Fields d n K)) :
    kStep (@orderedKernels d n K (exactArith K tr) lim sol eos geom (some eps)) geom g grav dt sc l l' lf U up upRec rec new = (do
      let rec' ← hydroReconstruct lim eos tr geom g grav (dt / 2) sc U up upRec rec
      let new' ← godunov sol eos tr geom g grav dt l l' U rec' new
      pressureFix eos g dt eps lf U rec' new') := by
  rw [orderedKernels_exact tr hd, kStep_exact_fix]

/-! ### Rounded runs

The hypotheses of C82 are met by runs with rounded operations. -/

/-- A 8 x 6 domain on 2 x 3 ranks and on one rank, one periodic and one reflexive direction, uniform gravity, the kernels of the code
with every operation rounded (by any function `rnd`), pressure fix on. -/
example (q : DistParams 2 1 ℚ) (rnd : ℚ → ℚ) (hb : q.bcs = ![![.periodic, .periodic], ![.reflexive, .nullGradient]])
    (hpo : q.order = [some 2, some 0, some 3, some 1]) (X : Fin 3 → ℤ → ℚ) (G : Cell → Fields 2 1 ℚ) :
    ∃ (M M' : ℕ → Cell → RankMem 2 1 ℚ) (lf lf' : ℕ → Cell → List Cell) (D D' : DistView (Fields 2 1 ℚ)), ∀ i,
      ∃ R R' hist, kRun (q.ordered (roundedArith ℚ rnd q.tr) (some (1 / 1000))) boxList (borderOf ![2, 3, 1]) (nghostOf 2 2) ![2, 3, 1]
          (fun _ _ _ _ => some (-1)) M lf D i = some (R, hist) ∧
        kRun (q.ordered (roundedArith ℚ rnd q.tr) (some (1 / 1000))) boxList (borderOf 1) (nghostOf 2 2) 1
          (fun _ _ _ _ => some (-1)) M' lf' D' i = some (R', hist) ∧
        R.val ![1, 2, 0] ![2, 3, 0] = R'.val 0 ![6, 7, 0] := by
  set p := q.ordered (roundedArith ℚ rnd q.tr) (some (1 / 1000)) with hp
  have hN : ∀ a, 0 ≤ (![8, 6, 1] : Cell) a := by decide
  have key : ∀ dims : Cell, (∀ a, 0 < dims a) →
      (∀ a : Fin 3, a.val < 2 → ∀ r, 0 ≤ r → r < dims a → 2 ≤ localSize ((![8, 6, 1] : Cell) a) (dims a) r) →
      ∃ (M : ℕ → Cell → RankMem 2 1 ℚ) (lf : ℕ → Cell → List Cell),
        KDecomposition p ![8, 6, 1] 2 X (fun _ _ _ => -1) dims boxList (fun _ _ _ _ => some (-1)) M lf := by
    intro dims hdm hsz
    have hex : ∀ r, ∃ (m : RankMem 2 1 ℚ) (lf : List Cell), inBox 0 dims r → KRankOk p.k p.geom ![8, 6, 1] dims 2 X r m lf := fun r => by
      by_cases hr : inBox 0 dims r
      · obtain ⟨m, lf, hm⟩ := exists_kRankOk p.k p.geom hN hdm (by norm_num : (0 : ℤ) ≤ 2) hr X
        exact ⟨m, lf, fun _ => hm⟩
      · obtain ⟨m, lf, hm⟩ := exists_kRankOk p.k p.geom hN hdm (by norm_num : (0 : ℤ) ≤ 2) (rank := 0)
          (fun a => ⟨le_rfl, hdm a⟩) X
        exact ⟨m, lf, fun h => absurd h hr⟩
    choose m lf hm using hex
    exact ⟨fun _ => m, fun _ => lf, hdm, hsz, fun b e => boxList_isSchedule b e, fun _ _ _ _ _ _ _ _ => rfl, fun _ r hr => hm r hr⟩
  obtain ⟨M, lf, hM⟩ := key ![2, 3, 1] (by decide) (by
    intro a ha r h0 h1
    rw [localSize_eq (hN a) (lt_of_le_of_lt h0 h1)]
    fin_cases a
    · simp [not_lt.2 h0]
    · simp [not_lt.2 h0]
    · simp at ha)
  obtain ⟨M', lf', hM'⟩ := key 1 (by decide) (by
    intro a ha r h0 h1
    rw [localSize_eq (hN a) (by simp)]
    fin_cases a
    · simp [not_lt.2 h0]
    · simp [not_lt.2 h0]
    · simp at ha)
  refine ⟨M, M', lf, lf', ⟨fun r => localExt ![8, 6, 1] ![2, 3, 1] (nghostOf 2 2) r, fun r c => G (globalOf ![8, 6, 1] ![2, 3, 1] (nghostOf 2 2) r c)⟩,
    ⟨fun r => localExt ![8, 6, 1] 1 (nghostOf 2 2) r, fun r c => G (globalOf ![8, 6, 1] 1 (nghostOf 2 2) r c)⟩, fun i => ?_⟩
  obtain ⟨R, R', hist, e1, e2, e3⟩ := C82_bitwise_decomposition_independent (by norm_num) hN (by norm_num)
    (by show ∀ a f, q.bcs a f ≠ _; rw [hb]; decide) (order := [2, 0, 3, 1]) (by decide) hpo hM hM' G
    (D := ⟨fun r => localExt ![8, 6, 1] ![2, 3, 1] (nghostOf 2 2) r, fun r c => G (globalOf ![8, 6, 1] ![2, 3, 1] (nghostOf 2 2) r c)⟩)
    (D' := ⟨fun r => localExt ![8, 6, 1] 1 (nghostOf 2 2) r, fun r c => G (globalOf ![8, 6, 1] 1 (nghostOf 2 2) r c)⟩)
    (fun _ _ => rfl) (fun _ _ _ _ => rfl) (fun _ _ => rfl) (fun _ _ _ _ => rfl) i
  exact ⟨R, R', hist, e1, e2, e3 _ _ _ _ (by decide) (by decide) (by decide) (by decide) (by decide)⟩

end Heracles

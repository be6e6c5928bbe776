import Verif.Lemmas.Conservation
import Verif.Props.Fractions
import Verif.Spec.Ledger

/-!
# C101: the ledger of a run

What the box holds at the end is what it held at the start plus what has entered through its boundary, iteration by iteration, plus the weight and the work of gravity.
-/

namespace Heracles

variable {d n : ℕ} {K : Type} [Field K]

/-- One iteration. -/
theorem boxTotal_step (nx : Cell) (hpos : ∀ a, 0 < nx a) (dt : K) {V q q' e : Cell → K} {f : Fin d → Cell → K}
    (hV : ∀ g ∈ boxCells nx, V g ≠ 0)
    (hq : ∀ g ∈ boxCells nx, q' g = q g + dt / V g * ∑ a, (f a g - f a (nb g (ax a) 1)) + e g) :
    boxTotal nx V q' = boxTotal nx V q + dt * boxInflow d nx f + boxTotal nx V e := by
  have h1 : ∀ a : Fin d, ∑ g ∈ boxCells nx, (f a g - f a (nb g (ax a) 1)) =
      ∑ g ∈ (boxCells nx).filter (fun g => g (ax a) = 0), f a g - ∑ g ∈ (boxCells nx).filter (fun g => g (ax a) = nx (ax a) - 1), f a (nb g (ax a) 1) :=
    fun a => box_telescope 0 nx (ax a) (hpos _) (f a)
  unfold boxTotal boxInflow
  rw [← Finset.sum_congr rfl (fun a _ => h1 a), Finset.sum_comm, Finset.mul_sum, ← Finset.sum_add_distrib, ← Finset.sum_add_distrib]
  refine Finset.sum_congr rfl fun g hg => ?_
  have := hV g hg
  rw [hq g hg]
  field_simp

/-- Any number of iterations. -/
theorem boxTotal_run (nx : Cell) (hpos : ∀ a, 0 < nx a) (dt : ℕ → K) {V : Cell → K} {q e : ℕ → Cell → K} {f : ℕ → Fin d → Cell → K} {i : ℕ}
    (hV : ∀ g ∈ boxCells nx, V g ≠ 0)
    (hq : ∀ j < i, ∀ g ∈ boxCells nx, q (j + 1) g = q j g + dt j / V g * ∑ a, (f j a g - f j a (nb g (ax a) 1)) + e j g) :
    boxTotal nx V (q i) = boxTotal nx V (q 0) + ∑ j ∈ Finset.range i, (dt j * boxInflow d nx (f j) + boxTotal nx V (e j)) := by
  induction i with
  | zero => simp
  | succ i ih =>
    rw [boxTotal_step nx hpos (dt i) hV (hq i (by omega)), ih fun j hj => hq j (by omega), Finset.sum_range_succ]
    ring

variable [LinearOrder K] [IsStrictOrderedRing K]

/-- What crosses the lower face along `a` of cell `g` of the domain in an iteration from `W` with time step `dt`, per time: the area times the component `φ` of the flux of
the solver between the states extrapolated to the face from its two sides. -/
def crossing (sol : Solver) (eos : EoS K) (p : KernelParams d n K) (ng : ℤ) (X : Fin 3 → ℤ → K) (Gr : (Cell → Fields d n K) → Cell → Fin d → K) (dt : K)
    (W : Cell → Fields d n K) (φ : Flux d K → K) (a : Fin d) (g : Cell) : K :=
  let G := kGrid p.k p.geom X (Gr W)
  let R := kRecVal p.k p.geom G (p.k.half dt) W (kPrimGlob p.k W)
  let c := g + nghostOf d ng
  G.ds c (ax a) * φ (sol.flux eos (R (nb c (ax a) (-1)) 1 a).cons (R c 0 a).cons a)

/-- The same for the mass of species `i`: the flux of mass times the fraction on the side the mass comes from. -/
def crossingFx (sol : Solver) (eos : EoS K) (p : KernelParams d n K) (ng : ℤ) (X : Fin 3 → ℤ → K) (Gr : (Cell → Fields d n K) → Cell → Fin d → K) (dt : K)
    (W : Cell → Fields d n K) (i : Fin n) (a : Fin d) (g : Cell) : K :=
  let G := kGrid p.k p.geom X (Gr W)
  let R := kRecVal p.k p.geom G (p.k.half dt) W (kPrimGlob p.k W)
  let c := g + nghostOf d ng
  let F := sol.flux eos (R (nb c (ax a) (-1)) 1 a).cons (R c 0 a).cons a
  G.ds c (ax a) * ((if F.rho < 0 then (R c 0 a).fx i else (R (nb c (ax a) (-1)) 1 a).fx i) * F.rho)

/-- The update of one cell, quantity by quantity. -/
theorem cell_ledger {p : KernelParams d n K} {lim : Limiter} {sol : Solver} {eos : EoS K} {tr : Trig K} {fix : Option K}
    (hk : p.k = exactKernels lim sol eos tr p.geom fix) (ng : ℤ) (X : Fin 3 → ℤ → K) (Gr : (Cell → Fields d n K) → Cell → Fin d → K) (dt : K)
    (W : Cell → Fields d n K) (g : Cell) :
    let c := g + nghostOf d ng
    let V := (kGrid p.k p.geom X (fun _ (_ : Fin d) => 0)).dv c
    let s' := kStepVal p.k p.geom (kGrid p.k p.geom X (Gr W)) dt W (kPrimGlob p.k W) c
    s'.rho = (W c).rho + dt / V * ∑ a, (crossing sol eos p ng X Gr dt W (fun F => F.rho) a g - crossing sol eos p ng X Gr dt W (fun F => F.rho) a (nb g (ax a) 1)) ∧
    (p.geom = .cartesian → ∀ i, s'.rhou i = (W c).rhou i +
      dt / V * ∑ a, (crossing sol eos p ng X Gr dt W (fun F => F.rhou i) a g - crossing sol eos p ng X Gr dt W (fun F => F.rhou i) a (nb g (ax a) 1)) +
      dt * (Gr W c i * (W c).rho)) ∧
    (fix = none → s'.E = (W c).E + dt / V * ∑ a, (crossing sol eos p ng X Gr dt W (fun F => F.E) a g - crossing sol eos p ng X Gr dt W (fun F => F.E) a (nb g (ax a) 1)) +
      dt * ∑ a, Gr W c a * (W c).rhou a) ∧
    (∀ i, s'.rho ≠ 0 → s'.rho * rawFraction p.k p.geom (kGrid p.k p.geom X (Gr W)) dt W (kPrimGlob p.k W) c i = (W c).rho * (W c).fx i +
      dt / V * ∑ a, (crossingFx sol eos p ng X Gr dt W i a g - crossingFx sol eos p ng X Gr dt W i a (nb g (ax a) 1))) := by
  intro c V s'
  have hn : ∀ a : Fin d, nb g (ax a) 1 + nghostOf d ng = nb c (ax a) 1 := fun a => by
    funext b
    by_cases hb : b = ax a
    · subst hb; simp only [Pi.add_apply, nb_self, c]; ring
    · simp only [Pi.add_apply, nb_ne _ hb, c]
  have hb : ∀ a : Fin d, nb (nb c (ax a) 1) (ax a) (-1) = c := fun a => by rw [nb_nb]; exact nb_zero _ _
  have hVV : V = (kGrid p.k p.geom X (Gr W)).dv c := rfl
  have hGG : Gr W = (kGrid p.k p.geom X (Gr W)).grav := rfl
  have hs' : s' = kStepVal p.k p.geom (kGrid p.k p.geom X (Gr W)) dt W (kPrimGlob p.k W) c := rfl
  clear_value s' V
  have hc0 : g + nghostOf d ng = c := rfl
  simp only [crossing, crossingFx, hn, hb, hc0]
  clear_value c
  generalize kGrid p.k p.geom X (Gr W) = G at *
  generalize kPrimGlob p.k W = UP at *
  rw [hVV, hGG]
  have hdsR : ∀ a : Fin d, (G.kDirGeo p.geom a c).dsR = G.ds (nb c (ax a) 1) (ax a) := fun a => by cases p.geom <;> rfl
  have hdsL : ∀ a : Fin d, (G.kDirGeo p.geom a c).dsL = G.ds c (ax a) := fun a => by cases p.geom <;> rfl
  have hdv : ∀ a : Fin d, (G.kDirGeo p.geom a c).dv = G.dv c := fun a => by cases p.geom <;> rfl
  set R := kRecVal p.k p.geom G (p.k.half dt) W UP with hR
  set Q := godunovPure sol eos tr p.geom dt (fun a => G.kDirGeo p.geom a c) (G.grav c) (W c) (fun a => R (nb c (ax a) (-1))) (R c) (fun a => R (nb c (ax a) 1)) with hQ
  have hk1 : p.k.half dt = dt / 2 := by rw [hk]; rfl
  have hrho : s'.rho = Q.rho := by
    rw [hs', hQ, hR, hk1]; rw [hk]
    unfold kStepVal kFixVal; split <;> rfl
  have hmom : s'.rhou = Q.rhou := by
    rw [hs', hQ, hR, hk1]; rw [hk]
    unfold kStepVal kFixVal; split <;> rfl
  have hraw : ∀ i, rawFraction p.k p.geom G dt W UP c i = Q.fx i / Q.rho := fun i => by
    rw [hQ, hR]
    unfold rawFraction
    rw [hk]
    rfl
  refine ⟨?_, fun hc i => ?_, fun hf => ?_, fun i hne => ?_⟩
  · rw [hrho, hQ]
    simp only [godunovPure, fluxDiff, hdsR, hdsL, hdv, Finset.mul_sum]
    congr 1
    exact Finset.sum_congr rfl fun a _ => by ring
  · rw [hmom, hQ]
    rw [hc] at hdsR hdsL hdv
    simp only [godunovPure, momDiff, fluxDiff, hdsR, hdsL, hdv, Finset.mul_sum, Finset.sum_add_distrib, Finset.sum_ite_eq, Finset.mem_univ, if_true, hc, reduceCtorEq,
      if_false, add_zero, Finset.sum_const_zero]
    rw [add_assoc]
    congr 2
    · exact Finset.sum_congr rfl fun a _ => by ring
    · ring
  · have hE : s'.E = Q.E := by
      rw [hs', hQ, hR, hk1]; rw [hk, hf]
      rfl
    rw [hE, hQ]
    simp only [godunovPure, fluxDiff, hdsR, hdsL, hdv, Finset.mul_sum, Finset.sum_add_distrib]
    rw [add_assoc]
    congr 2
    · exact Finset.sum_congr rfl fun a _ => by ring
    · exact Finset.sum_congr rfl fun a _ => by ring
  · rw [hraw, hrho, mul_div_cancel₀ _ (hrho ▸ hne), hQ]
    simp only [godunovPure, fluxDiff, hdsR, hdsL, hdv, Finset.mul_sum]
    congr 1
    · ring
    · exact Finset.sum_congr rfl fun a _ => by ring

/-- **C101.** Exact arithmetic over any ordered field, any limiter, solver, equation of state, geometry, mesh with cells of volumes that are not zero, gravity, boundary conditions and
decomposition. After any number of iterations the ranks hold in the cells of the domain one state `T`, and
* the mass of the box is the initial one plus what entered through its boundary in each iteration, with or without the pressure fix;
* on Cartesian grids the momentum is the initial one plus what entered plus the time step times the weight of the gas, at the beginning of each iteration;
* without the pressure fix the energy is the initial one plus what entered plus the time step times the work of gravity on the momentum at the beginning of each iteration;
* the mass of a species is the initial one plus what entered plus what the clamp to [0, 1] has added: density times the difference of the fraction after and before the clamp, as
  long as no density came out as zero. -/
theorem C101_ledger (hd3 : d ≤ 3) {p : KernelParams d n K} {lim : Limiter} {sol : Solver} {eos : EoS K} {tr : Trig K} {fix : Option K}
    (hk : p.k = exactKernels lim sol eos tr p.geom fix) {nx : Cell} {ng : ℤ} (hpos : ∀ a, 0 < nx a) (hng : 2 ≤ ng)
    (hb : ∀ a f, p.bcs a f ≠ .userDefined) {order : List ℕ} (ho : ∀ id ∈ order, id < 2 * d) (hpo : p.order = order.map some)
    {X : Fin 3 → ℤ → K} {V : Cell → K} (hV : V = fun g => (kGrid p.k p.geom X (fun _ (_ : Fin d) => 0)).dv (g + nghostOf d ng)) (hV0 : ∀ g, inBox 0 nx g → V g ≠ 0)
    {Gr : (Cell → Fields d n K) → Cell → Fin d → K} {dims : Cell} {sched : Cell → Cell → List Cell}
    {grav : DistView (Fields d n K) → Cell → GravField d K} {M : ℕ → Cell → RankMem d n K} {lf : ℕ → Cell → List Cell}
    (h : KDecomposition p nx ng X Gr dims sched grav M lf) {G : Cell → Fields d n K}
    {D : DistView (Fields d n K)} (hext : ∀ rank, inBox 0 dims rank → D.ext rank = localExt nx dims (nghostOf d ng) rank)
    (hint : ∀ rank, inBox 0 dims rank → ∀ c, inBox (nghostOf d ng) (fun a => D.ext rank a - nghostOf d ng a) c →
      D.val rank c = G (globalOf nx dims (nghostOf d ng) rank c)) (i : ℕ) :
    ∃ (W : ℕ → Cell → Fields d n K) (R : DistView (Fields d n K)) (hist : List K) (T : Cell → Fields d n K) (dt : ℕ → K),
      kRun p sched (borderOf dims) (nghostOf d ng) dims grav M lf D i = some (R, hist) ∧ hist.length = i ∧ (∀ j < i, dt j = p.policy (hist.drop (i - (j + 1)))) ∧
      W 0 = bcGlob p.bcs nx (nghostOf d ng) order G ∧ (∀ j < i, W (j + 1) = kIterGlob p nx ng X Gr order (dt j) (W j)) ∧
      (∀ rank c, inBox 0 dims rank → inExt (localExt nx dims (nghostOf d ng) rank) c = true → inBox 0 nx (globalOf nx dims (nghostOf d ng) rank c) →
        R.val rank c = T (globalOf nx dims (nghostOf d ng) rank c)) ∧
      boxTotal nx V (fun g => (T g).rho) = boxTotal nx V (fun g => (G g).rho) +
        ∑ j ∈ Finset.range i, dt j * boxInflow d nx (crossing sol eos p ng X Gr (dt j) (W j) fun F => F.rho) ∧
      (p.geom = .cartesian → ∀ b, boxTotal nx V (fun g => (T g).rhou b) = boxTotal nx V (fun g => (G g).rhou b) +
        ∑ j ∈ Finset.range i, dt j * (boxInflow d nx (crossing sol eos p ng X Gr (dt j) (W j) fun F => F.rhou b) +
          boxTotal nx V (fun g => (W j (g + nghostOf d ng)).rho * Gr (W j) (g + nghostOf d ng) b))) ∧
      (fix = none → boxTotal nx V (fun g => (T g).E) = boxTotal nx V (fun g => (G g).E) +
        ∑ j ∈ Finset.range i, dt j * (boxInflow d nx (crossing sol eos p ng X Gr (dt j) (W j) fun F => F.E) +
          boxTotal nx V (fun g => ∑ a, Gr (W j) (g + nghostOf d ng) a * (W j (g + nghostOf d ng)).rhou a))) ∧
      ((∀ j < i, ∀ g, inBox 0 nx g → (W (j + 1) (g + nghostOf d ng)).rho ≠ 0) → ∀ s,
        boxTotal nx V (fun g => (T g).rho * (T g).fx s) = boxTotal nx V (fun g => (G g).rho * (G g).fx s) +
        ∑ j ∈ Finset.range i, (dt j * boxInflow d nx (crossingFx sol eos p ng X Gr (dt j) (W j) s) +
          boxTotal nx V (fun g => (W (j + 1) (g + nghostOf d ng)).rho * ((W (j + 1) (g + nghostOf d ng)).fx s -
            rawFraction p.k p.geom (kGrid p.k p.geom X (Gr (W j))) (dt j) (W j) (kPrimGlob p.k (W j)) (g + nghostOf d ng) s)))) := by
  obtain ⟨W, R, hist, e1, elen, e2, e3, e4⟩ := kRun_global hd3 (fun a => (hpos a).le) hng hb ho hpo h hext hint i
  have hmem : ∀ {g}, g ∈ boxCells nx ↔ inBox 0 nx g := fun {g} => by simp [boxCells, inBox, Fintype.mem_piFinset]
  have hV1 : ∀ g ∈ boxCells nx, V g ≠ 0 := fun g hg => hV0 g (hmem.1 hg)
  set dt : ℕ → K := fun j => p.policy (hist.drop (i - (j + 1))) with hdt
  have hstart : ∀ g ∈ boxCells nx, W 0 (g + nghostOf d ng) = G g := fun g hg => by
    rw [e3]; exact bcGlob_inside p.bcs hd3 (by omega) ho _ (hmem.1 hg)
  have hstep : ∀ j < i, ∀ g ∈ boxCells nx, W (j + 1) (g + nghostOf d ng) =
      kStepVal p.k p.geom (kGrid p.k p.geom X (Gr (W j))) (dt j) (W j) (kPrimGlob p.k (W j)) (g + nghostOf d ng) := fun j hj g hg => by
    rw [e4 j hj]; exact bcGlob_inside p.bcs hd3 (by omega) ho _ (hmem.1 hg)
  have h0 : ∀ φ : Fields d n K → K, boxTotal nx V (fun g => φ (W 0 (g + nghostOf d ng))) = boxTotal nx V (fun g => φ (G g)) := fun φ =>
    Finset.sum_congr rfl fun g hg => by dsimp only; rw [hstart g hg]
  refine ⟨W, R, hist, fun g => W i (g + nghostOf d ng), dt, e1, elen, fun _ _ => rfl, e3, e4, fun rank c hr hc _ => ?_, ?_, fun hc b => ?_, fun hf => ?_, fun hne s => ?_⟩
  · rw [e2.val rank hr c hc]
    congr 1
    funext a
    simp only [Pi.add_apply, globalOf, startCell]
    ring
  · have := boxTotal_run nx hpos dt (q := fun j g => (W j (g + nghostOf d ng)).rho) (e := fun _ _ => 0)
      (f := fun j => crossing sol eos p ng X Gr (dt j) (W j) fun F => F.rho) (i := i) hV1 fun j hj g hg => by
        rw [hstep j hj g hg, add_zero, hV]; exact (cell_ledger hk ng X Gr (dt j) (W j) g).1
    rw [h0 fun f => f.rho] at this
    rw [this]
    simp [boxTotal]
  · have := boxTotal_run nx hpos dt (q := fun j g => (W j (g + nghostOf d ng)).rhou b)
      (e := fun j g => dt j * (Gr (W j) (g + nghostOf d ng) b * (W j (g + nghostOf d ng)).rho))
      (f := fun j => crossing sol eos p ng X Gr (dt j) (W j) fun F => F.rhou b) (i := i) hV1 fun j hj g hg => by
        rw [hstep j hj g hg, hV]; exact (cell_ledger hk ng X Gr (dt j) (W j) g).2.1 hc b
    rw [h0 fun f => f.rhou b] at this
    rw [this]
    congr 1
    refine Finset.sum_congr rfl fun j _ => ?_
    unfold boxTotal
    rw [mul_add, Finset.mul_sum (a := dt j)]
    congr 1
    exact Finset.sum_congr rfl fun g _ => by ring
  · have := boxTotal_run nx hpos dt (q := fun j g => (W j (g + nghostOf d ng)).E)
      (e := fun j g => dt j * ∑ a, Gr (W j) (g + nghostOf d ng) a * (W j (g + nghostOf d ng)).rhou a)
      (f := fun j => crossing sol eos p ng X Gr (dt j) (W j) fun F => F.E) (i := i) hV1 fun j hj g hg => by
        rw [hstep j hj g hg, hV]; exact (cell_ledger hk ng X Gr (dt j) (W j) g).2.2.1 hf
    rw [h0 fun f => f.E] at this
    rw [this]
    congr 1
    refine Finset.sum_congr rfl fun j _ => ?_
    unfold boxTotal
    rw [mul_add, Finset.mul_sum (a := dt j)]
    congr 1
    exact Finset.sum_congr rfl fun g _ => by ring
  · have := boxTotal_run nx hpos dt (q := fun j g => (W j (g + nghostOf d ng)).rho * (W j (g + nghostOf d ng)).fx s)
      (e := fun j g => (W (j + 1) (g + nghostOf d ng)).rho * ((W (j + 1) (g + nghostOf d ng)).fx s -
            rawFraction p.k p.geom (kGrid p.k p.geom X (Gr (W j))) (dt j) (W j) (kPrimGlob p.k (W j)) (g + nghostOf d ng) s))
      (f := fun j => crossingFx sol eos p ng X Gr (dt j) (W j) s) (i := i) hV1 fun j hj g hg => by
        have q := (cell_ledger hk ng X Gr (dt j) (W j) g).2.2.2 s (by have := hne j hj g (hmem.1 hg); rwa [hstep j hj g hg] at this)
        rw [hV, ← q, ← hstep j hj g hg]
        ring
    rw [h0 fun f => f.rho * f.fx s] at this
    exact this

/-! ### A tube with open ends -/

theorem mixGrid_dv (lim : Limiter) : ∀ i ∈ Finset.Icc (2 : ℤ) 5, (mixGrid lim).dv ![i, 0, 0] = 1 := by cases lim <;> decide +kernel

/-- The tube of C97 with open ends (null gradient) meets the hypotheses; its mass, 8 at the start, changes by what crosses its two ends. -/
example (lim : Limiter) (user : UserBc 1 2 ℚ) :
    let p : KernelParams 1 2 ℚ := ⟨mixExact lim, .cartesian, 0, fun _ => 1 / 8, user, fun _ _ => .nullGradient, [some 0, some 1]⟩
    ∃ (M : ℕ → Cell → RankMem 1 2 ℚ) (lf : ℕ → Cell → List Cell) (D R : DistView (Fields 1 2 ℚ)) (hist : List ℚ) (T : Cell → Fields 1 2 ℚ) (W : ℕ → Cell → Fields 1 2 ℚ), kRun p boxList (borderOf ![2, 1, 1]) (nghostOf 1 2) ![2, 1, 1] (fun _ _ _ _ => some 0) M lf D 3 = some (R, hist) ∧
      (∀ rank c, inBox 0 ![2, 1, 1] rank → inExt (localExt ![4, 1, 1] ![2, 1, 1] (nghostOf 1 2) rank) c = true →
        inBox 0 ![4, 1, 1] (globalOf ![4, 1, 1] ![2, 1, 1] (nghostOf 1 2) rank c) → R.val rank c = T (globalOf ![4, 1, 1] ![2, 1, 1] (nghostOf 1 2) rank c)) ∧
      ∑ g ∈ boxCells ![4, 1, 1], (T g).rho = ∑ g ∈ boxCells ![4, 1, 1], (mixTube g).rho +
        ∑ j ∈ Finset.range 3, 1 / 8 * boxInflow 1 ![4, 1, 1] (crossing .hll mixGas p 2 (fun _ i => (i : ℚ)) (fun _ _ _ => 0) (1 / 8) (W j) fun F => F.rho) := by
  intro p
  have hN0 : ∀ a, 0 < (![4, 1, 1] : Cell) a := by decide
  obtain ⟨M, lf, h⟩ := exists_kDecomposition p (nx := ![4, 1, 1]) (dims := ![2, 1, 1]) (ng := 2) (fun a => (hN0 a).le) (by decide) (by norm_num)
    (by
      intro a ha r h0 h1
      rw [localSize_eq (hN0 a).le (lt_of_le_of_lt h0 h1)]
      fin_cases a
      · simp [not_lt.2 h0]
      · simp at ha
      · simp at ha) (fun _ i => (i : ℚ))
  have hdv : ∀ g, inBox 0 ![4, 1, 1] g → (kGrid p.k p.geom (fun _ i => (i : ℚ)) (fun _ (_ : Fin 1) => 0)).dv (g + nghostOf 1 2) = 1 := fun g hg => by
    obtain ⟨e, q1, q2⟩ := mixTube_cell hg
    rw [e]
    exact mixGrid_dv lim _ (Finset.mem_Icc.2 ⟨by omega, by omega⟩)
  obtain ⟨W, R, hist, T, dt, e1, e2, e3, e4, e5, e6, e7, -⟩ := C101_ledger (by norm_num) (p := p) (lim := lim) (sol := .hll) (eos := mixGas)
    (tr := ⟨fun _ => 0, fun _ => 0, 0⟩) (fix := none) rfl hN0 le_rfl (fun _ _ h => by cases h) (order := [0, 1]) (by decide) rfl rfl
    (fun g hg => by rw [hdv g hg]; exact one_ne_zero) h (G := mixTube)
    (D := ⟨fun r => localExt ![4, 1, 1] ![2, 1, 1] (nghostOf 1 2) r, fun r c => mixTube (globalOf ![4, 1, 1] ![2, 1, 1] (nghostOf 1 2) r c)⟩)
    (fun _ _ => rfl) (fun _ _ _ _ => rfl) 3
  refine ⟨M, lf, _, R, hist, T, W, e1, e6, ?_⟩
  have hm : ∀ {g}, g ∈ boxCells ![4, 1, 1] → inBox 0 ![4, 1, 1] g := fun {g} hg => by simpa [boxCells, inBox, Fintype.mem_piFinset] using hg
  have ht : ∀ q : Cell → ℚ, boxTotal ![4, 1, 1] (fun g => (kGrid p.k p.geom (fun _ i => (i : ℚ)) (fun _ (_ : Fin 1) => 0)).dv (g + nghostOf 1 2)) q =
      ∑ g ∈ boxCells ![4, 1, 1], q g := fun q => Finset.sum_congr rfl fun g hg => by dsimp only; rw [hdv g (hm hg), one_mul]
  rw [ht, ht] at e7
  rw [e7]
  congr 1
  refine Finset.sum_congr rfl fun j hj => ?_
  rw [e3 j (Finset.mem_range.1 hj)]

/-- The ends are open: with the constant reconstruction mass enters through the lower end and leaves through the upper end in the first iteration. -/
example : let W : Cell → Fields 1 2 ℚ := fun C => mixTube ![max 0 (min (C 0 - 2) 3), 0, 0]
    let R := kRecVal (mixExact .constant) .cartesian (mixGrid .constant) (1 / 16) W (kPrimGlob (mixExact .constant) W)
    (Solver.hll.flux mixGas (R ![1, 0, 0] 1 0).cons (R ![2, 0, 0] 0 0).cons 0).rho = 1 ∧ (Solver.hll.flux mixGas (R ![5, 0, 0] 1 0).cons (R ![6, 0, 0] 0 0).cons 0).rho = 1 := by
  decide +kernel

end Heracles

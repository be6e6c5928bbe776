import Verif.Lemmas.Boost
import Verif.Props.Locality
import Verif.Props.MirrorLost
import Verif.Props.NanRun

/-!
# C99: a velocity added along an axis nothing depends on
-/

namespace Heracles

variable {d n : ℕ} {K : Type} [Field K] [LinearOrder K] [IsStrictOrderedRing K]

/-- An iteration from `W` meets no vacuum: after the predictor, density and pressure are positive on all faces of the cells of the domain and of their
neighbours, and after the update no density is zero. -/
structure GasEverywhere (eos : EoS K) (p : KernelParams d n K) (nx : Cell) (ng : ℤ) (X : Fin 3 → ℤ → K) (Gr : (Cell → Fields d n K) → Cell → Fin d → K) (dt : K)
    (W : Cell → Fields d n K) : Prop where
  faces : ∀ g, inBox 0 nx g → ∀ (a : Fin d) (t : ℤ), -1 ≤ t → t ≤ 1 → ∀ side e,
    (kRecVal p.k p.geom (kGrid p.k p.geom X (Gr W)) (p.k.half dt) W (kPrimGlob p.k W) (nb (g + nghostOf d ng) (ax a) t) side e).cons.Adm eos
  cells : ∀ g, inBox 0 nx g → (kStepVal p.k p.geom (kGrid p.k p.geom X (Gr W)) dt W (kPrimGlob p.k W) (g + nghostOf d ng)).rho ≠ 0

/-- **C99.** Take two runs on Cartesian grids in the same number of dimensions, exact arithmetic, any limiter, solver and equation of state (a lawful one for
HLLC), without the pressure fix. Along an axis `b` the flow does not vary; the two runs may differ in the number and the sizes of the cells along `b`, in the
conditions at the two ends of `b` (periodic or null gradient) and in the decomposition, and have everything else in common, gravity included, which does not vary
along `b` but may point along it. The second run starts from the state of the first with the velocity `w` added along `b`. Both runs complete, and if
they take the same time steps, and the first meets no vacuum, all ranks of the second hold the state of the first with `w` added along `b`, ghosts included: density, pressure, mass
fractions and the other velocities know nothing of `w`.
Full claim: the same for the runs as they are. What is missing: the time steps, which depend on `w` (`C99_rate`); the pressure fix, with which
it is false (`C98_fix_violated`: a uniform gas, at rest unchanged by the fix, loses energy when it moves); rounding. -/
theorem C99_boost_partial (hd : d ≤ 3) {lim : Limiter} {sol : Solver} {eos : EoS K} (he : sol = .hllc → eos.Lawful) {tr : Trig K} {p p' : KernelParams d n K}
    (hk : p.k = exactKernels lim sol eos tr .cartesian none) (hk' : p'.k = exactKernels lim sol eos tr .cartesian none) (hgeom : p.geom = .cartesian) (hgeom' : p'.geom = .cartesian)
    (b : Fin d) (w : K) {nx nx' : Cell} {ng : ℤ} (hpos : ∀ a, 0 < nx a) (hpos' : ∀ a, 0 < nx' a) (hnx : ∀ a, a ≠ ax b → nx' a = nx a) (hng : 2 ≤ ng)
    (hu : ∀ a f, p.bcs a f ≠ .userDefined) (hbc : ∀ a f, a ≠ b → p'.bcs a f = p.bcs a f) (hb : ∀ f, p.bcs b f = .periodic ∨ p.bcs b f = .nullGradient)
    (hb' : ∀ f, p'.bcs b f = .periodic ∨ p'.bcs b f = .nullGradient) {order : List ℕ} (ho : ∀ id ∈ order, id < 2 * d) (hpo : p.order = order.map some) (hpo' : p'.order = order.map some)
    {X X' : Fin 3 → ℤ → K} (hX : ∀ a, a ≠ ax b → X' a = X a) (hx : ∀ e i, 0 ≤ i → i < globExt nx (nghostOf d ng) e → X e i ≠ X e (i + 1))
    (hx' : ∀ e i, 0 ≤ i → i < globExt nx' (nghostOf d ng) e → X' e i ≠ X' e (i + 1)) {Gr Gr' : (Cell → Fields d n K) → Cell → Fin d → K}
    (hGr : ∀ W W', (∀ C C', inExt (globExt nx (nghostOf d ng)) C = true → inExt (globExt nx' (nghostOf d ng)) C' = true → SameLine (ax b) C C' → W' C' = (W C).boost b w) →
      ∀ C C', inExt (globExt nx (nghostOf d ng)) C = true → inExt (globExt nx' (nghostOf d ng)) C' = true → SameLine (ax b) C C' → Gr' W' C' = Gr W C)
    {dims dims' : Cell} {sched sched' : Cell → Cell → List Cell} {grav grav' : DistView (Fields d n K) → Cell → GravField d K} {M M' : ℕ → Cell → RankMem d n K} {lf lf' : ℕ → Cell → List Cell}
    (h : KDecomposition p nx ng X Gr dims sched grav M lf) (h' : KDecomposition p' nx' ng X' Gr' dims' sched' grav' M' lf')
    {G G' : Cell → Fields d n K} (hG : ∀ g g', inBox 0 nx g → inBox 0 nx' g' → SameLine (ax b) g g' → G' g' = (G g).boost b w) (hG0 : ∀ g, inBox 0 nx g → (G g).rho ≠ 0)
    {D D' : DistView (Fields d n K)} (hext : ∀ rank, inBox 0 dims rank → D.ext rank = localExt nx dims (nghostOf d ng) rank)
    (hint : ∀ rank, inBox 0 dims rank → ∀ c, inBox (nghostOf d ng) (fun a => D.ext rank a - nghostOf d ng a) c → D.val rank c = G (globalOf nx dims (nghostOf d ng) rank c))
    (hext' : ∀ rank, inBox 0 dims' rank → D'.ext rank = localExt nx' dims' (nghostOf d ng) rank)
    (hint' : ∀ rank, inBox 0 dims' rank → ∀ c, inBox (nghostOf d ng) (fun a => D'.ext rank a - nghostOf d ng a) c → D'.val rank c = G' (globalOf nx' dims' (nghostOf d ng) rank c)) (i : ℕ) :
    ∃ (W : ℕ → Cell → Fields d n K) (R : DistView (Fields d n K)) (hist : List K) (R' : DistView (Fields d n K)) (hist' : List K),
      kRun p sched (borderOf dims) (nghostOf d ng) dims grav M lf D i = some (R, hist) ∧
      kRun p' sched' (borderOf dims') (nghostOf d ng) dims' grav' M' lf' D' i = some (R', hist') ∧ hist.length = i ∧ hist'.length = i ∧
      W 0 = bcGlob p.bcs nx (nghostOf d ng) order G ∧
      (∀ j < i, W (j + 1) = kIterGlob p nx ng X Gr order (p.policy (hist.drop (i - (j + 1)))) (W j)) ∧
      ((∀ j < i, GasEverywhere eos p nx ng X Gr (p.policy (hist.drop (i - (j + 1)))) (W j)) → (∀ j < i, p'.policy (hist'.drop j) = p.policy (hist.drop j)) →
        ∀ rank c rank' c', inBox 0 dims rank → inBox 0 dims' rank' → inExt (localExt nx dims (nghostOf d ng) rank) c = true →
          inExt (localExt nx' dims' (nghostOf d ng) rank') c' = true → SameLine (ax b) (c + startCell nx dims rank) (c' + startCell nx' dims' rank') →
          R'.val rank' c' = (R.val rank c).boost b w) := by
  have hu' : ∀ a f, p'.bcs a f ≠ .userDefined := fun a f => by
    by_cases hab : a = b
    · subst hab
      rcases hb' f with h | h <;> rw [h] <;> exact fun h => by cases h
    · rw [hbc a f hab]; exact hu a f
  have nr : ∀ {q : BcKind}, q = .periodic ∨ q = .nullGradient → q ≠ .reflexive := by rintro q (rfl | rfl) <;> exact fun h => by cases h
  obtain ⟨W, R, hist, e1, e2, e3, e4, e5⟩ := kRun_global hd (fun a => (hpos a).le) hng hu ho hpo h hext hint i
  obtain ⟨W', R', hist', f1, f2, f3, f4, f5⟩ := kRun_global hd (fun a => (hpos' a).le) hng hu' ho hpo' h' hext' hint' i
  refine ⟨W, R, hist, R', hist', e1, f1, e2, f2, e4, e5, fun hgas hdt => ?_⟩
  set E := globExt nx (nghostOf d ng) with hE
  set E' := globExt nx' (nghostOf d ng) with hE'
  have hEE : ∀ a, a ≠ ax b → E' a = E a := fun a ha => by rw [hE, hE']; unfold globExt; rw [hnx a ha]
  have n0 : ∀ a, 0 ≤ nghostOf d ng a := fun a => by unfold nghostOf; split <;> omega
  have hrho : ∀ j ≤ i, ∀ C, (W j C).rho ≠ 0 := by
    intro j hj C
    cases j with
    | zero => rw [e4]; exact bcGlob_all (P := fun f => f.rho ≠ 0) p.bcs hpos (fun s a hs => hs) hG0 C
    | succ j => rw [e5 j (by omega)]; exact bcGlob_all (P := fun f => f.rho ≠ 0) p.bcs hpos (fun s a hs => hs) (hgas j (by omega)).cells C
  have main : ∀ j ≤ i, LineRel b E E' w (W j) (W' j) := by
    intro j
    induction j with
    | zero =>
      intro _
      rw [f4, e4]
      exact bcGlob_line hd (by omega) hpos hpos' hnx hbc (fun f => nr (hb f)) (fun f => nr (hb' f)) order hG
    | succ j ih =>
      intro hj
      have ih := ih (by omega)
      rw [f5 j (by omega), e5 j (by omega), hdt _ (by omega)]
      unfold kIterGlob
      refine bcGlob_line hd (by omega) hpos hpos' hnx hbc (fun f => nr (hb f)) (fun f => nr (hb' f)) order fun g g' hg hg' hs => ?_
      have wide : ∀ {N : Cell} {q : Cell}, inBox 0 N q → Wide d (globExt N (nghostOf d ng)) 2 (q + nghostOf d ng) := fun {N q} hq a => by
        have h1 := hq a
        have h2 := n0 a
        have h3 : a.val < d → nghostOf d ng a = ng := fun ha => if_pos ha
        simp only [Pi.zero_apply] at h1
        show 0 ≤ q a + nghostOf d ng a ∧ q a + nghostOf d ng a < N a + 2 * nghostOf d ng a ∧ (a.val < d → 2 ≤ q a + nghostOf d ng a ∧ q a + nghostOf d ng a + 2 < N a + 2 * nghostOf d ng a)
        refine ⟨by omega, by omega, fun ha => ?_⟩
        rw [h3 ha]
        omega
      have hGr1 : ∀ C C', InArr E C → InArr E' C' → SameLine (ax b) C C' → Gr' (W' j) C' = Gr (W j) C := fun C C' hC hC' h =>
        hGr _ _ (fun C C' hC hC' h => ih C C' (inExt_iff.1 hC) (inExt_iff.1 hC') h) C C' (inExt_iff.2 hC) (inExt_iff.2 hC') h
      have hok := (hgas j (by omega)).faces g hg
      rw [hk, hgeom] at hok
      rw [hk, hk', hgeom, hgeom']
      refine stepVal_boost (E := E) (E' := E') he hd hEE hX ih (fun C _ => hrho j (by omega) C) (wide hg) (wide hg') (fun a ha => ?_) (fun e i h0 h1 => sub_ne_zero.2 (hx e i h0 h1).symm)
        (fun e i h0 h1 => sub_ne_zero.2 (hx' e i h0 h1).symm) hGr1 (fun C C' hC hC' h => ?_) _ hok
      · show g' a + _ = g a + _
        rw [hs a ha]
      · have h1 : InArr E' (Function.update C (ax b) ((g' + nghostOf d ng) (ax b))) := fun a => by
          by_cases ha : a = ax b
          · subst ha; rw [Function.update_self]; exact (wide hg').inArr _
          · rw [Function.update_of_ne ha, hEE a ha]; exact hC a
        exact (hGr1 C' _ hC' h1 fun a ha => (Function.update_of_ne ha _ _).trans (h a ha).symm).symm.trans (hGr1 C _ hC h1 fun a ha => Function.update_of_ne ha _ _)
  intro rank c rank' c' hr hr' hc hc' hs
  rw [f3.val rank' hr' c' hc', e3.val rank hr c hc]
  exact main i le_rfl _ _ (inExt_iff.1 (inExt_shift (fun a => (hpos a).le) h.pos hr hc)) (inExt_iff.1 (inExt_shift (fun a => (hpos' a).le) h'.pos hr' hc')) hs

/-- **C99, the time step.** The inverse time step of a cell with the velocity `w` added along `b` differs by the change of the speed along `b` over the size of the cell. -/
theorem C99_rate {lim : Limiter} {sol : Solver} {eos : EoS K} {tr : Trig K} {fix : Option K} (b : Fin d) (w : K) {X : Fin 3 → ℤ → K} {W W' : Cell → Fields d n K} {C : Cell}
    (hne : (W C).rho ≠ 0) (hW : W' C = (W C).boost b w) :
    kRateVal (exactKernels lim sol eos tr .cartesian fix) .cartesian X W' (kPrimGlob (exactKernels lim sol eos tr .cartesian fix) W') C =
      kRateVal (exactKernels lim sol eos tr .cartesian fix) .cartesian X W (kPrimGlob (exactKernels lim sol eos tr .cartesian fix) W) C +
        (|(W C).rhou b / (W C).rho + w| - |(W C).rhou b / (W C).rho|) / (X (ax b) (C (ax b) + 1) - X (ax b) (C (ax b))) := by
  have ht := toPrim_boost eos b w (c := (W C).cons) hne
  have hp : toPrim eos (⟨(W' C).rho, (W' C).rhou, (W' C).E⟩ : Cons d K) = (toPrim eos (W C).cons).boost b w := by rw [hW]; exact ht
  have hdx : ∀ (a : Fin 3), (![X 0 (C 0 + 1) - X 0 (C 0), X 1 (C 1 + 1) - X 1 (C 1), X 2 (C 2 + 1) - X 2 (C 2)] : Fin 3 → K) a = X a (C a + 1) - X a (C a) := by
    intro a; fin_cases a <;> rfl
  have e : ∀ V : Cell → Fields d n K, kRateVal (exactKernels lim sol eos tr .cartesian fix) .cartesian X V
      (kPrimGlob (exactKernels lim sol eos tr .cartesian fix) V) C =
      ∑ a : Fin d, (|(toPrim eos (⟨(V C).rho, (V C).rhou, (V C).E⟩ : Cons d K)).u a| + eos.sound (V C).rho (toPrim eos (⟨(V C).rho, (V C).rhou, (V C).E⟩ : Cons d K)).P) /
        (X (ax a) (C (ax a) + 1) - X (ax a) (C (ax a))) := by
    intro V
    have : ∀ a : Fin d, X (ax a) (C (ax a) + 1) - X (ax a) (C (ax a)) =
        dxGeom tr .cartesian d ![X 0 (C 0 + 1) - X 0 (C 0), X 1 (C 1 + 1) - X 1 (C 1), X 2 (C 2 + 1) - X 2 (C 2)] ((X 0 (C 0) + X 0 (C 0 + 1)) / 2) ((X 1 (C 1) + X 1 (C 1 + 1)) / 2) (ax a) :=
      fun a => (hdx (ax a)).symm
    simp only [this]
    rfl
  rw [e, e, hp, hW]
  rw [← Finset.add_sum_erase _ _ (Finset.mem_univ b), ← Finset.add_sum_erase Finset.univ (fun a : Fin d => (|(toPrim eos (⟨(W C).rho, (W C).rhou, (W C).E⟩ : Cons d K)).u a| + _) / _) (Finset.mem_univ b)]
  have e2 : ∀ x ∈ Finset.univ.erase b, (|((toPrim eos (W C).cons).boost b w).u x| + eos.sound ((W C).boost b w).rho ((toPrim eos (W C).cons).boost b w).P) / (X (ax x) (C (ax x) + 1) - X (ax x) (C (ax x))) =
      (|(toPrim eos (⟨(W C).rho, (W C).rhou, (W C).E⟩ : Cons d K)).u x| + eos.sound (W C).rho (toPrim eos (⟨(W C).rho, (W C).rhou, (W C).E⟩ : Cons d K)).P) / (X (ax x) (C (ax x) + 1) - X (ax x) (C (ax x))) := by
    intro x hx
    have : x ≠ b := Finset.ne_of_mem_erase hx
    simp only [Prim.boost, if_neg this, add_zero]
    rfl
  rw [Finset.sum_congr rfl e2]
  have e3 : ((toPrim eos (W C).cons).boost b w).u b = (W C).rhou b / (W C).rho + w := by simp [Prim.boost, toPrim, Fields.cons]
  rw [e3]
  have e4 : (toPrim eos (⟨(W C).rho, (W C).rhou, (W C).E⟩ : Cons d K)).u b = (W C).rhou b / (W C).rho := rfl
  rw [e4]
  have e5 : eos.sound ((W C).boost b w).rho ((toPrim eos (W C).cons).boost b w).P = eos.sound (W C).rho (toPrim eos (⟨(W C).rho, (W C).rhou, (W C).E⟩ : Cons d K)).P := rfl
  rw [e5]
  ring

/-! ### Runs that meet the hypotheses -/

/-- A gas with sound speed 2. -/
def gustGas : EoS ℚ := ⟨fun _ P => 5 / 2 * P, fun _ e => 2 / 5 * e, fun _ _ => 2⟩

/-- The gas in the column `i` of a strip: it moves along the strip, and across it, differently from column to column. -/
def gustColumn (i : ℤ) : Fields 2 1 ℚ :=
  let s := fun r m m' e x : ℚ => (⟨r, ![m, m'], e, fun _ => x⟩ : Fields 2 1 ℚ)
  if i = 0 then s 1 1 0 3 0 else if i = 1 then s 2 1 1 3 (1 / 2) else if i = 2 then s 3 (-1) 2 4 1 else s 2 1 (-1) 3 (1 / 4)

/-- Its kernels. -/
def gustExact (lim : Limiter) : Kernels 2 1 ℚ := exactKernels lim .hll gustGas ⟨fun _ => 0, fun _ => 0, 0⟩ .cartesian none

/-- The initial state of the 4 × 2 strip with its ghosts. -/
def gustState (C : Cell) : Fields 2 1 ℚ := gustColumn (wrap ![4, 2, 1] (C - nghostOf 2 2) 0)

/-- The grid of cells of size 1. -/
def gustGrid (lim : Limiter) : PGrid 2 ℚ := kGrid (gustExact lim) .cartesian (fun _ i => (i : ℚ)) (fun _ _ => 0)

theorem gust_faces (lim : Limiter) : ∀ i ∈ Finset.Icc (1 : ℤ) 6, ∀ j ∈ Finset.Icc (1 : ℤ) 4, ∀ (side : Fin 2) (e : Fin 2),
    0 < (kRecVal (gustExact lim) .cartesian (gustGrid lim) (1 / 8 / 2) gustState (kPrimGlob (gustExact lim) gustState) ![i, j, 0] side e).cons.rho ∧
    0 < (kRecVal (gustExact lim) .cartesian (gustGrid lim) (1 / 8 / 2) gustState (kPrimGlob (gustExact lim) gustState) ![i, j, 0] side e).cons.pressure gustGas := by
  cases lim <;> decide +kernel

theorem gust_cells (lim : Limiter) : ∀ i ∈ Finset.Icc (2 : ℤ) 5, ∀ j ∈ Finset.Icc (2 : ℤ) 3,
    (kStepVal (gustExact lim) .cartesian (gustGrid lim) (1 / 8) gustState (kPrimGlob (gustExact lim) gustState) ![i, j, 0]).rho ≠ 0 := by
  cases lim <;> decide +kernel

/-- Cells of the strip. -/
theorem gust_cell {g : Cell} (hg : inBox 0 ![4, 2, 1] g) : g + nghostOf 2 2 = ![g 0 + 2, g 1 + 2, 0] ∧ (0 ≤ g 0 ∧ g 0 < 4) ∧ 0 ≤ g 1 ∧ g 1 < 2 := by
  have h0 : 0 ≤ g 0 ∧ g 0 < 4 := hg 0
  have h1 : 0 ≤ g 1 ∧ g 1 < 2 := hg 1
  have h2 : 0 ≤ g 2 ∧ g 2 < 1 := hg 2
  refine ⟨?_, h0, h1⟩
  funext a
  fin_cases a
  · simp [nghostOf]
  · simp [nghostOf]
  · simp [nghostOf]; omega

theorem gust_nb (a : Fin 2) (i j t : ℤ) : nb ![i, j, 0] (ax a) t = ![i + (if a = 0 then t else 0), j + (if a = 1 then t else 0), 0] := by
  have h0 : ax (0 : Fin 2) = (0 : Fin 3) := rfl
  have h1 : ax (1 : Fin 2) = (1 : Fin 3) := rfl
  match a with
  | 0 => rw [h0]; funext k; fin_cases k <;> simp [nb]
  | 1 => rw [h1]; funext k; fin_cases k <;> simp [nb]

/-- A periodic strip of 4 × 2 cells on two ranks, and the strip of 4 × 3 cells, five times as large, open at both ends, on one rank, with a wind of speed 3 blowing along it. -/
example (lim : Limiter) (user : UserBc 2 1 ℚ) :
    ∃ M lf M' lf' D D' R hist R' hist',
      kRun ⟨gustExact lim, .cartesian, 0, fun _ => 1 / 8, user, fun _ _ => .periodic, [some 0, some 3, some 1, some 2]⟩
        boxList (borderOf ![2, 1, 1]) (nghostOf 2 2) ![2, 1, 1] (fun _ _ _ _ => some 0) M lf D 1 = some (R, hist) ∧
      kRun ⟨gustExact lim, .cartesian, 0, fun _ => 1 / 8, user, fun a _ => if a = 1 then .nullGradient else .periodic, [some 0, some 3, some 1, some 2]⟩
        boxList (borderOf ![1, 1, 1]) (nghostOf 2 2) ![1, 1, 1] (fun _ _ _ _ => some 0) M' lf' D' 1 = some (R', hist') ∧
      R'.val ![0, 0, 0] ![4, 3, 0] = (R.val ![1, 0, 0] ![2, 2, 0]).boost 1 3 := by
  have hsz : ∀ {δ : ℕ} {nx dims : Cell}, (∀ a, 0 ≤ nx a) → (∀ a : Fin 3, a.val < δ → 2 ≤ nx a / dims a) → ∀ a : Fin 3, a.val < δ → ∀ r, 0 ≤ r → r < dims a →
      (2 : ℤ) ≤ localSize (nx a) (dims a) r := by
    intro δ nx dims hN h2 a ha r h0 h1
    rw [localSize_eq (hN a) (lt_of_le_of_lt h0 h1)]
    have := h2 a ha
    split <;> omega
  obtain ⟨M, lf, h⟩ := exists_kDecomposition (⟨gustExact lim, .cartesian, 0, fun _ => 1 / 8, user, fun _ _ => .periodic, [some 0, some 3, some 1, some 2]⟩ : KernelParams 2 1 ℚ)
    (nx := ![4, 2, 1]) (dims := ![2, 1, 1]) (ng := 2) (by decide) (by decide) (by norm_num) (hsz (by decide) (by decide)) (fun _ i => (i : ℚ))
  obtain ⟨M', lf', h'⟩ := exists_kDecomposition (⟨gustExact lim, .cartesian, 0, fun _ => 1 / 8, user, fun a _ => if a = 1 then .nullGradient else .periodic,
    [some 0, some 3, some 1, some 2]⟩ : KernelParams 2 1 ℚ) (nx := ![4, 3, 1]) (dims := ![1, 1, 1]) (ng := 2) (by decide) (by decide) (by norm_num)
    (hsz (by decide) (by decide)) (fun a i => if a = 1 then 5 * (i : ℚ) else i)
  obtain ⟨W, R, hist, R', hist', e1, e2, -, -, e3, -, e5⟩ := C99_boost_partial (lim := lim) (sol := .hll) (eos := gustGas) (tr := ⟨fun _ => 0, fun _ => 0, 0⟩) (by norm_num)
    (fun h => by cases h) rfl rfl rfl rfl 1 3 (by decide) (by decide) (fun a ha => by fin_cases a <;> first | rfl | exact absurd rfl ha) le_rfl (fun _ _ h => by cases h)
    (fun a f ha => if_neg ha) (fun f => Or.inl rfl) (fun f => Or.inr rfl) (order := [0, 3, 1, 2]) (by decide) rfl rfl
    (fun a ha => by funext i; exact if_neg fun h : a = 1 => ha (by rw [h]; rfl)) (fun e i _ _ => by push_cast; intro h; linarith)
    (fun e i _ _ => by split <;> push_cast <;> intro h <;> linarith) (fun _ _ _ _ _ _ _ _ => rfl) h h'
    (G := fun g => gustColumn (g 0)) (G' := fun g => (gustColumn (g 0)).boost 1 3) (fun g g' _ _ ho => by rw [ho 0 (by decide)])
    (fun g _ => by unfold gustColumn; dsimp only; split_ifs <;> norm_num)
    (D := ⟨fun r => localExt ![4, 2, 1] ![2, 1, 1] (nghostOf 2 2) r, fun r c => gustColumn (globalOf ![4, 2, 1] ![2, 1, 1] (nghostOf 2 2) r c 0)⟩)
    (D' := ⟨fun r => localExt ![4, 3, 1] ![1, 1, 1] (nghostOf 2 2) r, fun r c => (gustColumn (globalOf ![4, 3, 1] ![1, 1, 1] (nghostOf 2 2) r c 0)).boost 1 3⟩)
    (fun _ _ => rfl) (fun _ _ _ _ => rfl) (fun _ _ => rfl) (fun _ _ _ _ => rfl) 1
  refine ⟨M, lf, M', lf', _, _, R, hist, R', hist', e1, e2, e5 (fun j hj => ?_) (fun _ _ => rfl) _ _ _ _ (by decide) (by decide) (by decide) (by decide) (by unfold SameLine; decide)⟩
  obtain rfl : j = 0 := by omega
  rw [e3, bcGlob_wrap (fun _ _ => rfl)]
  refine ⟨fun g hg a t h1 h2 side e => ?_, fun g hg => ?_⟩
  · obtain ⟨q, q0, q1⟩ := gust_cell hg
    have e' : nb (g + nghostOf 2 2) (ax a) t = ![g 0 + 2 + (if a = 0 then t else 0), g 1 + 2 + (if a = 1 then t else 0), 0] := by
      rw [q]
      exact gust_nb a _ _ t
    rw [e']
    exact gust_faces lim _ (Finset.mem_Icc.2 ⟨by split <;> omega, by split <;> omega⟩) _ (Finset.mem_Icc.2 ⟨by split <;> omega, by split <;> omega⟩) side e
  · obtain ⟨q, q0, q1⟩ := gust_cell hg
    rw [q]
    exact gust_cells lim _ (Finset.mem_Icc.2 ⟨by omega, by omega⟩) _ (Finset.mem_Icc.2 ⟨by omega, by omega⟩)

/-- In the first column, where nothing moves along the strip, the wind adds 3 to the inverse time step. -/
example : kRateVal (gustExact .minmod) .cartesian (fun _ i => (i : ℚ)) (fun C => (gustState C).boost 1 3) (kPrimGlob (gustExact .minmod) fun C => (gustState C).boost 1 3) ![2, 2, 0] =
    kRateVal (gustExact .minmod) .cartesian (fun _ i => (i : ℚ)) gustState (kPrimGlob (gustExact .minmod) gustState) ![2, 2, 0] + 3 := by
  rw [gustExact, C99_rate 1 3 (W := gustState) (by decide) rfl]
  congr 1
  decide +kernel

end Heracles

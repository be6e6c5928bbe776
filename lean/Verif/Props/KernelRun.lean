import Verif.Lemmas.KernelRun
import Verif.Props.Distributed

/-!
# C82: the decomposition does not change a run bit by bit
-/

namespace Heracles

variable {d n : ℕ} {F : Type} [Zero F]

/-- The memory of a rank (`RankOk` for open arithmetic): its grid is what `set_grid` computes from the global nodes `X`, its arrays
have the local extents, its loops traverse their ranges. -/
structure KRankOk (k : Kernels d n F) (geom : Geom) (nx dims : Cell) (ng : ℤ) (X : Fin 3 → ℤ → F) (rank : Cell)
    (m : RankMem d n F) (lf : List Cell) : Prop where
  grid : ∃ topo l1 r l l', GridTopo.mk? d nx dims rank ng = .ok topo ∧
    (∀ a, IsLineSchedule (l1 a) (topo.nxLocalWg a)) ∧ topo.range.allGhosts = .ok r ∧
    IsSchedule l (r.cellBegin d) (r.cellEnd d) ∧ IsSchedule l' (r.cellBegin d) (r.cellEnd d) ∧
    kSetGrid k geom topo l1 l l' (fun a => View.line (nx a + 2 * topo.nghost a + 1) (X a)) (kAlloc topo.nxLocalWg) = some m.grid
  conv : IsSchedule m.conv 0 (localExt nx dims (nghostOf d ng) rank)
  parts : IsPartition m.parts 0 (localExt nx dims (nghostOf d ng) rank)
  sc : m.sc.Ok (nghostOf d (ng - 1)) (fun a => localExt nx dims (nghostOf d ng) rank a - nghostOf d (ng - 1) a)
  l : IsSchedule m.l (nghostOf d ng) (fun a => localExt nx dims (nghostOf d ng) rank a - nghostOf d ng a)
  l' : IsSchedule m.l' (nghostOf d ng) (fun a => localExt nx dims (nghostOf d ng) rank a - nghostOf d ng a)
  lf : IsSchedule lf (nghostOf d ng) (fun a => localExt nx dims (nghostOf d ng) rank a - nghostOf d ng a)
  up : m.up.dom = inExt (localExt nx dims (nghostOf d ng) rank)
  upRec : m.upRec.dom = inExt (localExt nx dims (nghostOf d ng) rank)
  faces : m.faces.dom = inExt (localExt nx dims (nghostOf d ng) rank)
  new : m.new.dom = inExt (localExt nx dims (nghostOf d ng) rank)

/-- What is asked of a decomposition (`Decomposition` for open arithmetic). -/
structure KDecomposition (p : KernelParams d n F) (nx : Cell) (ng : ℤ) (X : Fin 3 → ℤ → F)
    (Gr : (Cell → Fields d n F) → Cell → Fin d → F) (dims : Cell) (sched : Cell → Cell → List Cell)
    (grav : DistView (Fields d n F) → Cell → GravField d F) (M : ℕ → Cell → RankMem d n F) (lf : ℕ → Cell → List Cell) : Prop where
  pos : ∀ a, 0 < dims a
  size : ∀ a : Fin 3, a.val < d → ∀ r, 0 ≤ r → r < dims a → ng ≤ localSize (nx a) (dims a) r
  order : ∀ b e, IsSchedule (sched b e) b e
  force : ∀ W D, HoldsAll nx dims (nghostOf d ng) W D → ∀ rank, inBox 0 dims rank →
    ∀ c, inExt (localExt nx dims (nghostOf d ng) rank) c = true → ∀ a, grav D rank c a = some (Gr W (c + startCell nx dims rank) a)
  mem : ∀ i rank, inBox 0 dims rank → KRankOk p.k p.geom nx dims ng X rank (M i rank) (lf i rank)

theorem KRankOk.fits {k : Kernels d n F} {geom : Geom} {nx dims rank : Cell} {ng : ℤ} {X : Fin 3 → ℤ → F} (hN : ∀ a, 0 ≤ nx a)
    (hdm : ∀ a, 0 < dims a) (hr : inBox 0 dims rank) {m : RankMem d n F} {lf : List Cell}
    (h : KRankOk k geom nx dims ng X rank m lf) {grav : GravField d F} {Gr : Cell → Fin d → F}
    (hG : ∀ c, inExt (localExt nx dims (nghostOf d ng) rank) c = true → ∀ a, grav c a = some (Gr (c + startCell nx dims rank) a)) :
    m.grid.KFits grav k geom X Gr (localExt nx dims (nghostOf d ng) rank) (startCell nx dims rank) := by
  obtain ⟨topo, l1, r, l, l', ht, h1, hrg, hl, hl', hg⟩ := h.grid
  obtain ⟨g, hg', hp⟩ := kSetGrid_spec k geom hN hdm hr ht h1 hrg hl hl' X
  rw [hg] at hg'
  cases hg'
  exact hp grav Gr hG

omit [Zero F] in
/-- Primitive variables of the global array. -/
def kPrimGlob (k : Kernels d n F) (W : Cell → Fields d n F) (c : Cell) : VelPres d F :=
  k.prim (W c).rho { rhou := (W c).rhou, E := (W c).E }

/-- `m` is the largest of `lo` and of the rates of the global array. -/
structure IsKRate [LinearOrder F] (p : KernelParams d n F) (nx nghost : Cell) (X : Fin 3 → ℤ → F) (W : Cell → Fields d n F)
    (m : F) : Prop where
  ge : p.lo ≤ m
  le : ∀ C, inExt (globExt nx nghost) C = true → kRateVal p.k p.geom X W (kPrimGlob p.k W) C ≤ m
  mem : m = p.lo ∨ ∃ C, inExt (globExt nx nghost) C = true ∧ m = kRateVal p.k p.geom X W (kPrimGlob p.k W) C

theorem IsKRate.unique [LinearOrder F] {p : KernelParams d n F} {nx nghost : Cell} {X : Fin 3 → ℤ → F}
    {W : Cell → Fields d n F} {m m' : F} (h : IsKRate p nx nghost X W m) (h' : IsKRate p nx nghost X W m') : m = m' := by
  apply le_antisymm
  · rcases h.mem with e | ⟨C, hC, e⟩
    · rw [e]; exact h'.ge
    · rw [e]; exact h'.le C hC
  · rcases h'.mem with e | ⟨C, hC, e⟩
    · rw [e]; exact h.ge
    · rw [e]; exact h.le C hC

/-- One iteration of the global array. -/
noncomputable def kIterGlob [Neg F] (p : KernelParams d n F) (nx : Cell) (ng : ℤ) (X : Fin 3 → ℤ → F)
    (Gr : (Cell → Fields d n F) → Cell → Fin d → F) (order : List ℕ) (dt : F) (W : Cell → Fields d n F) : Cell → Fields d n F :=
  bcGlob p.bcs nx (nghostOf d ng) order fun g =>
    kStepVal p.k p.geom (kGrid p.k p.geom X (Gr W)) dt W (kPrimGlob p.k W) (g + nghostOf d ng)

/-- One iteration of a decomposed run is an iteration of the global array. What the time step computes is left open (`Rate`). -/
theorem kIter_holds_of [Neg F] [LT F] [DecidableLT F] (hd3 : d ≤ 3) {p : KernelParams d n F} {nx : Cell} {ng : ℤ}
    (hN : ∀ a, 0 ≤ nx a) (hng : 2 ≤ ng) (hb : ∀ a f, p.bcs a f ≠ .userDefined) {order : List ℕ} (ho : ∀ id ∈ order, id < 2 * d)
    (hpo : p.order = order.map some) {X : Fin 3 → ℤ → F} {Gr : (Cell → Fields d n F) → Cell → Fin d → F} {dims : Cell}
    {sched : Cell → Cell → List Cell} {grav : DistView (Fields d n F) → Cell → GravField d F} {M : ℕ → Cell → RankMem d n F}
    {lf : ℕ → Cell → List Cell} (h : KDecomposition p nx ng X Gr dims sched grav M lf) (i : ℕ) {W : Cell → Fields d n F}
    {D : DistView (Fields d n F)} (hD : HoldsAll nx dims (nghostOf d ng) W D) (hist : List F) {Rate : F → Prop}
    (hts : ∀ up : Cell → View Cell (VelPres d F),
      (∀ r ∈ boxList 0 dims, ∀ c ∈ (M i r).parts.flatten, kCellInverseDt p.k (M i r).grid ((D.local r).comp Fields.rho) (up r) c =
        some (kRateVal p.k p.geom X W (kPrimGlob p.k W) (c + startCell nx dims r))) →
      ∃ m, kTimeStep p.lo p.k (boxList 0 dims) (fun r => (M i r).parts) (fun r => (M i r).grid)
        (fun r => (D.local r).comp Fields.rho) up = some (p.k.inv m) ∧ Rate m) :
    ∃ m D', Rate m ∧
      kIter p sched (borderOf dims) (nghostOf d ng) dims grav (M i) (lf i) (D, hist) = some (D', p.k.inv m :: hist) ∧
      HoldsAll nx dims (nghostOf d ng) (kIterGlob p nx ng X Gr order (p.policy (p.k.inv m :: hist)) W) D' := by
  set E := fun r => localExt nx dims (nghostOf d ng) r with hE
  have hU : ∀ r, inBox 0 dims r → On (E r) (startCell nx dims r) (fun c => inExt (E r) c = true) (D.local r) W := fun r hr =>
    ⟨by unfold DistView.local; rw [hD.ext r hr], fun c hc => hD.val r hr c hc⟩
  -- primitive variables
  have hconv : ∀ r, inBox 0 dims r → ∃ v : View Cell (VelPres d F), kConsToPrim p.k (M i r).conv
      ((D.local r).comp Fields.rho) ((D.local r).comp fun s => { rhou := s.rhou, E := s.E }) (M i r).up = some v ∧
      On (E r) (startCell nx dims r) (fun c => inExt (E r) c = true) v (kPrimGlob p.k W) := by
    intro r hr
    have hm := h.mem i r hr
    obtain ⟨v, v1, v2⟩ := parFor_on (s := startCell nx dims r) hm.conv (fun c hc => inExt_iff.2 hc) hm.up
      (body := fun c out => do
        let t ← ((D.local r).comp Fields.rho).rd c
        let q ← ((D.local r).comp fun s => ({ rhou := s.rhou, E := s.E } : MomEn d F)).rd c
        out.wr c (p.k.prim t q)) (f := kPrimGlob p.k W) (by
      intro c hc w _
      have h0 : inExt (E r) c = true := inExt_iff.2 hc
      rw [((hU r hr).comp Fields.rho).rd h0 h0, ((hU r hr).comp _).rd h0 h0]
      rfl)
    exact ⟨v, v1, v2.dom, fun c hc => v2.val c (inExt_iff.1 hc)⟩
  haveI : Nonempty (View Cell (VelPres d F)) := ⟨(M i 0).up⟩
  choose! v0 hv1 hv2 using hconv
  obtain ⟨up, hup, hup'⟩ := allRanks_some (dims := dims) (dflt := fun r => (M i r).up) hv1
  have hUP : ∀ r, inBox 0 dims r → On (E r) (startCell nx dims r) (fun c => inExt (E r) c = true) (up r) (kPrimGlob p.k W) :=
    fun r hr => by rw [hup' r hr]; exact hv2 r hr
  -- grids
  have hfit := fun r hr => (h.mem i r hr).fits hN h.pos hr (grav := grav D r) (Gr := Gr W) (h.force W D hD r hr)
  -- time step
  have hmemr : ∀ r, r ∈ boxList 0 dims ↔ inBox 0 dims r := (boxList_isSchedule 0 dims).2
  obtain ⟨m, hm1, hR⟩ := hts up fun r hr c hc => by
    have hr' := (hmemr r).1 hr
    exact kCellInverseDt_eq (hfit r hr') (hU r hr') (hUP r hr') (inExt_iff.2 (((h.mem i r hr').parts.2 c).1 hc))
  -- the update
  set dt := p.policy (p.k.inv m :: hist) with hdt
  have hstep : ∀ r, inBox 0 dims r → ∃ v, kStep p.k p.geom (M i r).grid (grav D r) dt (M i r).sc (M i r).l (M i r).l' (lf i r)
      (D.local r) (up r) (M i r).upRec (M i r).faces (M i r).new = some v ∧
      On (E r) (startCell nx dims r) (layer d (E r) ng) v
        (kStepVal p.k p.geom (kGrid p.k p.geom X (Gr W)) dt W (kPrimGlob p.k W)) := fun r hr =>
    have hm := h.mem i r hr
    kStep_on hd3 (hfit r hr) dt hng hm.sc hm.l hm.l' hm.lf (hU r hr) (hUP r hr) hm.upRec hm.faces hm.new
  haveI : Nonempty (View Cell (Fields d n F)) := ⟨(M i 0).new⟩
  choose! w0 hw1 hw2 using hstep
  obtain ⟨new, hnew, hnew'⟩ := allRanks_some (dims := dims) (dflt := fun r => (M i r).new) hw1
  obtain ⟨D', hD', hH⟩ := distBcs_holds hd3 hN h.pos (by omega) h.size p.user h.order hb ho
    (fun g => kStepVal p.k p.geom (kGrid p.k p.geom X (Gr W)) dt W (kPrimGlob p.k W) (g + nghostOf d ng))
    ⟨D.ext, fun r => (new r).val⟩ hD.ext (by
      intro r hr c hc
      have hc1 : layer d (E r) ng c := by rw [hD.ext r hr] at hc; exact hc
      show (new r).val c = _
      rw [hnew' r hr, (hw2 r hr).val c hc1]
      congr 1
      funext a
      simp only [globalOf, Pi.add_apply, startCell]
      ring)
  refine ⟨m, D', hR, ?_, hH⟩
  unfold kIter
  dsimp only
  rw [hup]
  simp only [Option.bind_eq_bind, Option.bind_some]
  rw [hm1]
  simp only [Option.bind_some]
  rw [hnew]
  simp only [Option.bind_some]
  rw [hpo, hD']
  rfl

/-- One iteration of a decomposed run is an iteration of the global array, with the largest rate of the global array. -/
theorem kIter_holds [Neg F] [LinearOrder F] (hd3 : d ≤ 3) {p : KernelParams d n F} {nx : Cell} {ng : ℤ} (hN : ∀ a, 0 ≤ nx a)
    (hng : 2 ≤ ng) (hb : ∀ a f, p.bcs a f ≠ .userDefined) {order : List ℕ} (ho : ∀ id ∈ order, id < 2 * d)
    (hpo : p.order = order.map some) {X : Fin 3 → ℤ → F} {Gr : (Cell → Fields d n F) → Cell → Fin d → F} {dims : Cell}
    {sched : Cell → Cell → List Cell} {grav : DistView (Fields d n F) → Cell → GravField d F} {M : ℕ → Cell → RankMem d n F}
    {lf : ℕ → Cell → List Cell} (h : KDecomposition p nx ng X Gr dims sched grav M lf) (i : ℕ) {W : Cell → Fields d n F}
    {D : DistView (Fields d n F)} (hD : HoldsAll nx dims (nghostOf d ng) W D) (hist : List F) :
    ∃ m D', IsKRate p nx (nghostOf d ng) X W m ∧
      kIter p sched (borderOf dims) (nghostOf d ng) dims grav (M i) (lf i) (D, hist) = some (D', p.k.inv m :: hist) ∧
      HoldsAll nx dims (nghostOf d ng) (kIterGlob p nx ng X Gr order (p.policy (p.k.inv m :: hist)) W) D' := by
  have hmemr : ∀ r, r ∈ boxList 0 dims ↔ inBox 0 dims r := (boxList_isSchedule 0 dims).2
  refine kIter_holds_of hd3 hN hng hb ho hpo h i hD hist fun up hup => ?_
  obtain ⟨m, hm1, hm2, hm3, hm4⟩ := kTimeStep_max (lo := p.lo) p.k (ranks := boxList 0 dims)
    (parts := fun r => (M i r).parts) (g := fun r => (M i r).grid) (rho := fun r => (D.local r).comp Fields.rho) (up := up)
    (rate := fun r c => kRateVal p.k p.geom X W (kPrimGlob p.k W) (c + startCell nx dims r)) hup
    (fun hnil => by
      have h0 : (0 : Cell) ∈ boxList 0 dims := (hmemr 0).2 fun a => ⟨le_rfl, h.pos a⟩
      rw [hnil] at h0
      simp at h0)
  refine ⟨m, hm1, hm2, fun C hC => ?_, ?_⟩
  · obtain ⟨r, c, hr, hc, rfl⟩ := exists_local hN h.pos (by omega) h.size hC
    exact hm3 r ((hmemr r).2 hr) c (((h.mem i r hr).parts.2 c).2 (inExt_iff.1 hc))
  · rcases hm4 with e | ⟨r, hr, c, hc, e⟩
    · exact Or.inl e
    · have hr' := (hmemr r).1 hr
      have hc' : inExt (localExt nx dims (nghostOf d ng) r) c = true := inExt_iff.2 (((h.mem i r hr').parts.2 c).1 hc)
      exact Or.inr ⟨c + startCell nx dims r, inExt_shift hN h.pos hr' hc', e⟩

/-- Two decomposed runs whose iterations are iterations of the same global array agree. -/
theorem kRun_agree [Neg F] [LT F] [DecidableLT F] (hd3 : d ≤ 3) {p : KernelParams d n F} {nx : Cell} {ng : ℤ}
    (hN : ∀ a, 0 ≤ nx a) (hng : 2 ≤ ng) (hb : ∀ a f, p.bcs a f ≠ .userDefined) {order : List ℕ} (ho : ∀ id ∈ order, id < 2 * d)
    (hpo : p.order = order.map some) {X : Fin 3 → ℤ → F} {Gr : (Cell → Fields d n F) → Cell → Fin d → F} {dims dims' : Cell}
    {sched sched' : Cell → Cell → List Cell} {grav grav' : DistView (Fields d n F) → Cell → GravField d F}
    {M M' : ℕ → Cell → RankMem d n F} {lf lf' : ℕ → Cell → List Cell} (h : KDecomposition p nx ng X Gr dims sched grav M lf)
    (h' : KDecomposition p nx ng X Gr dims' sched' grav' M' lf') {Rate : (Cell → Fields d n F) → F → Prop}
    (hit : ∀ (i : ℕ) (W : Cell → Fields d n F) (D : DistView (Fields d n F)) (hist : List F), HoldsAll nx dims (nghostOf d ng) W D →
      ∃ m D', Rate W m ∧
        kIter p sched (borderOf dims) (nghostOf d ng) dims grav (M i) (lf i) (D, hist) = some (D', p.k.inv m :: hist) ∧
        HoldsAll nx dims (nghostOf d ng) (kIterGlob p nx ng X Gr order (p.policy (p.k.inv m :: hist)) W) D')
    (hit' : ∀ (i : ℕ) (W : Cell → Fields d n F) (D : DistView (Fields d n F)) (hist : List F), HoldsAll nx dims' (nghostOf d ng) W D →
      ∃ m D', Rate W m ∧
        kIter p sched' (borderOf dims') (nghostOf d ng) dims' grav' (M' i) (lf' i) (D, hist) = some (D', p.k.inv m :: hist) ∧
        HoldsAll nx dims' (nghostOf d ng) (kIterGlob p nx ng X Gr order (p.policy (p.k.inv m :: hist)) W) D')
    (huniq : ∀ W m m', Rate W m → Rate W m' → m = m')
    (G : Cell → Fields d n F) {D D' : DistView (Fields d n F)}
    (hext : ∀ rank, inBox 0 dims rank → D.ext rank = localExt nx dims (nghostOf d ng) rank)
    (hint : ∀ rank, inBox 0 dims rank → ∀ c, inBox (nghostOf d ng) (fun a => D.ext rank a - nghostOf d ng a) c →
      D.val rank c = G (globalOf nx dims (nghostOf d ng) rank c))
    (hext' : ∀ rank, inBox 0 dims' rank → D'.ext rank = localExt nx dims' (nghostOf d ng) rank)
    (hint' : ∀ rank, inBox 0 dims' rank → ∀ c, inBox (nghostOf d ng) (fun a => D'.ext rank a - nghostOf d ng a) c →
      D'.val rank c = G (globalOf nx dims' (nghostOf d ng) rank c)) (i : ℕ) :
    ∃ R R' hist, kRun p sched (borderOf dims) (nghostOf d ng) dims grav M lf D i = some (R, hist) ∧
      kRun p sched' (borderOf dims') (nghostOf d ng) dims' grav' M' lf' D' i = some (R', hist) ∧
      ∀ rank rank' c c', inBox 0 dims rank → inBox 0 dims' rank' →
        inExt (localExt nx dims (nghostOf d ng) rank) c = true → inExt (localExt nx dims' (nghostOf d ng) rank') c' = true →
        globalOf nx dims (nghostOf d ng) rank c = globalOf nx dims' (nghostOf d ng) rank' c' →
        R.val rank c = R'.val rank' c' := by
  have key : ∃ W R R' hist, kRun p sched (borderOf dims) (nghostOf d ng) dims grav M lf D i = some (R, hist) ∧
      kRun p sched' (borderOf dims') (nghostOf d ng) dims' grav' M' lf' D' i = some (R', hist) ∧
      HoldsAll nx dims (nghostOf d ng) W R ∧ HoldsAll nx dims' (nghostOf d ng) W R' := by
    induction i with
    | zero =>
      obtain ⟨R, e1, e2⟩ := distBcs_holds hd3 hN h.pos (by omega) h.size p.user h.order hb ho G D hext hint
      obtain ⟨R', e1', e2'⟩ := distBcs_holds hd3 hN h'.pos (by omega) h'.size p.user h'.order hb ho G D' hext' hint'
      refine ⟨_, R, R', [], ?_, ?_, e2, e2'⟩
      · unfold kRun; rw [hpo, e1]; rfl
      · unfold kRun; rw [hpo, e1']; rfl
    | succ i ih =>
      obtain ⟨W, R, R', hist, e1, e1', e2, e2'⟩ := ih
      obtain ⟨m, R1, q1, q2, q3⟩ := hit i W R hist e2
      obtain ⟨m', R1', q1', q2', q3'⟩ := hit' i W R' hist e2'
      obtain rfl := huniq W _ _ q1 q1'
      refine ⟨_, R1, R1', p.k.inv m :: hist, ?_, ?_, q3, q3'⟩
      · unfold kRun; rw [e1]; exact q2
      · unfold kRun; rw [e1']; exact q2'
  obtain ⟨W, R, R', hist, e1, e1', e2, e2'⟩ := key
  refine ⟨R, R', hist, e1, e1', fun rank rank' c c' hr hr' hc hc' hg => ?_⟩
  rw [e2.val rank hr c hc, e2'.val rank' hr' c' hc']
  congr 1
  funext a
  have := congrFun hg a
  simp only [globalOf] at this
  simp only [Pi.add_apply, startCell]
  omega

/-- **C82.** The numbers are of any linearly ordered type `F` (the finite `double`s, for instance) and what the kernels compute from
the numbers they read, `p.k`, is arbitrary: no law of arithmetic is assumed, so that rounding, contraction of operations, even a
wrong formula are covered, as long as all ranks run the same code. Two decompositions `dims`, `dims'` of the same domain, with any
loop orders, any partitions of the reductions and any previous contents of the work arrays, started from the same global field `G`,
go through any number `i` of iterations without an access out of bounds, obtain the same time steps, and hold the same numbers in
any two cells (ghosts included) that represent the same cell of the domain: the two runs agree bit by bit. The pressure fix may be
on. Gravity is asked to be the same function of the global array for both decompositions, as it is for a uniform or point mass
gravity; the internal mass gravity adds up the masses of cells rank by rank and does not meet this with rounded sums. -/
theorem C82_bitwise_decomposition_independent [Neg F] [LinearOrder F] (hd3 : d ≤ 3) {p : KernelParams d n F} {nx : Cell} {ng : ℤ}
    (hN : ∀ a, 0 ≤ nx a) (hng : 2 ≤ ng) (hb : ∀ a f, p.bcs a f ≠ .userDefined) {order : List ℕ} (ho : ∀ id ∈ order, id < 2 * d)
    (hpo : p.order = order.map some) {X : Fin 3 → ℤ → F} {Gr : (Cell → Fields d n F) → Cell → Fin d → F} {dims dims' : Cell}
    {sched sched' : Cell → Cell → List Cell} {grav grav' : DistView (Fields d n F) → Cell → GravField d F}
    {M M' : ℕ → Cell → RankMem d n F} {lf lf' : ℕ → Cell → List Cell} (h : KDecomposition p nx ng X Gr dims sched grav M lf)
    (h' : KDecomposition p nx ng X Gr dims' sched' grav' M' lf') (G : Cell → Fields d n F) {D D' : DistView (Fields d n F)}
    (hext : ∀ rank, inBox 0 dims rank → D.ext rank = localExt nx dims (nghostOf d ng) rank)
    (hint : ∀ rank, inBox 0 dims rank → ∀ c, inBox (nghostOf d ng) (fun a => D.ext rank a - nghostOf d ng a) c →
      D.val rank c = G (globalOf nx dims (nghostOf d ng) rank c))
    (hext' : ∀ rank, inBox 0 dims' rank → D'.ext rank = localExt nx dims' (nghostOf d ng) rank)
    (hint' : ∀ rank, inBox 0 dims' rank → ∀ c, inBox (nghostOf d ng) (fun a => D'.ext rank a - nghostOf d ng a) c →
      D'.val rank c = G (globalOf nx dims' (nghostOf d ng) rank c)) (i : ℕ) :
    ∃ R R' hist, kRun p sched (borderOf dims) (nghostOf d ng) dims grav M lf D i = some (R, hist) ∧
      kRun p sched' (borderOf dims') (nghostOf d ng) dims' grav' M' lf' D' i = some (R', hist) ∧
      ∀ rank rank' c c', inBox 0 dims rank → inBox 0 dims' rank' →
        inExt (localExt nx dims (nghostOf d ng) rank) c = true → inExt (localExt nx dims' (nghostOf d ng) rank') c' = true →
        globalOf nx dims (nghostOf d ng) rank c = globalOf nx dims' (nghostOf d ng) rank' c' →
        R.val rank c = R'.val rank' c' :=
  kRun_agree hd3 hN hng hb ho hpo h h' (Rate := IsKRate p nx (nghostOf d ng) X)
    (fun i _ _ hist e => kIter_holds hd3 hN hng hb ho hpo h i e hist)
    (fun i _ _ hist e => kIter_holds hd3 hN hng hb ho hpo h' i e hist) (fun _ _ _ q q' => q.unique q') G hext hint hext' hint' i

/-! ### The hypotheses can be met -/

/-- `set_grid` and row by row loops give a memory as asked. -/
theorem exists_kRankOk (k : Kernels d n F) (geom : Geom) {nx dims rank : Cell} {ng : ℤ} (hN : ∀ a, 0 ≤ nx a)
    (hdm : ∀ a, 0 < dims a) (hng : 0 ≤ ng) (hr : inBox 0 dims rank) (X : Fin 3 → ℤ → F) :
    ∃ (m : RankMem d n F) (lf : List Cell), KRankOk k geom nx dims ng X rank m lf := by
  obtain ⟨topo, ht, -, -, -, -, -, -, -, -, -, -, e11, -⟩ :=
    GridTopo.mk?_ok (ndim := d) (ng := ng) hN hdm (fun a => (hr a).1)
  obtain ⟨r, hrg⟩ : ∃ r, topo.range.allGhosts = .ok r := by
    unfold Range.allGhosts Range.withGhosts
    rw [if_neg (by omega)]
    exact ⟨_, rfl⟩
  obtain ⟨g, hg, -⟩ := kSetGrid_spec k geom hN hdm hr ht (l1 := fun a => intRange 0 (topo.nxLocalWg a))
    (fun a => ⟨intRange_nodup _ _, fun i => mem_intRange⟩) hrg (boxList_isSchedule _ _) (boxList_isSchedule _ _) X
  let E := localExt nx dims (nghostOf d ng) rank
  refine ⟨⟨g, boxList 0 E, [boxList 0 E], RecScheds.box (nghostOf d (ng - 1)) (fun a => E a - nghostOf d (ng - 1) a),
    boxList (nghostOf d ng) (fun a => E a - nghostOf d ng a), boxList (nghostOf d ng) (fun a => E a - nghostOf d ng a),
    ⟨inExt E, fun _ => ⟨fun _ => 0, 0⟩⟩, ⟨inExt E, fun _ _ _ => ⟨fun _ => 0, 0⟩⟩,
    ⟨inExt E, fun _ _ _ => ⟨0, fun _ => 0, 0, fun _ => 0⟩⟩, ⟨inExt E, fun _ => ⟨0, fun _ => 0, 0, fun _ => 0⟩⟩⟩,
    boxList (nghostOf d ng) (fun a => E a - nghostOf d ng a),
    { grid := ⟨topo, _, r, _, _, ht, fun a => ⟨intRange_nodup _ _, fun i => mem_intRange⟩, hrg, boxList_isSchedule _ _,
        boxList_isSchedule _ _, hg⟩
      conv := boxList_isSchedule 0 E
      parts := ?_
      sc := RecScheds.box_ok _ _
      l := boxList_isSchedule (nghostOf d ng) (fun a => E a - nghostOf d ng a)
      l' := boxList_isSchedule (nghostOf d ng) (fun a => E a - nghostOf d ng a)
      lf := boxList_isSchedule (nghostOf d ng) (fun a => E a - nghostOf d ng a)
      up := rfl
      upRec := rfl
      faces := rfl
      new := rfl }⟩
  show IsSchedule [boxList 0 E].flatten 0 E
  simpa using boxList_isSchedule 0 E

end Heracles

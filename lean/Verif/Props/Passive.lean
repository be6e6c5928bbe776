import Verif.Lemmas.Passive
import Verif.Props.Locality
import Verif.Props.NanRun

/-!
# C96: mass fractions are passive, and do not see each other
-/

namespace Heracles

section Run
variable {d n n' m : ℕ} {F : Type} [Zero F] [Neg F] [LT F] [DecidableLT F]

/-- Two runs whose kernels agree on the gas and on a part of the mass fractions. -/
theorem kRun_pick (hd3 : d ≤ 3) {p : KernelParams d n F} {p' : KernelParams d n' F} {k0 : Kernels d m F} {σ : Fin m → Fin n} {σ' : Fin m → Fin n'}
    (hk : p.k.Picks σ k0) (hk' : p'.k.Picks σ' k0) (hgeom : p'.geom = p.geom) (hlo : p'.lo = p.lo) (hpol : p'.policy = p.policy)
    (hbcs : p'.bcs = p.bcs) {nx : Cell} {ng : ℤ} (hpos : ∀ a, 0 < nx a) (hng : 2 ≤ ng) (hb : ∀ a f, p.bcs a f ≠ .userDefined)
    {order : List ℕ} (ho : ∀ id ∈ order, id < 2 * d) (hpo : p.order = order.map some) (hpo' : p'.order = order.map some)
    {X : Fin 3 → ℤ → F} {Gr : (Cell → Fields d n F) → Cell → Fin d → F} {Gr' : (Cell → Fields d n' F) → Cell → Fin d → F}
    (hGr : ∀ W W', (∀ C, SameFlow (W C) (W' C)) → Gr W = Gr' W') {dims : Cell} {sched sched' : Cell → Cell → List Cell}
    {grav : DistView (Fields d n F) → Cell → GravField d F} {grav' : DistView (Fields d n' F) → Cell → GravField d F}
    {M : ℕ → Cell → RankMem d n F} {M' : ℕ → Cell → RankMem d n' F} {lf lf' : ℕ → Cell → List Cell}
    (h : KDecomposition p nx ng X Gr dims sched grav M lf) (h' : KDecomposition p' nx ng X Gr' dims sched' grav' M' lf')
    (hparts : ∀ i r, inBox 0 dims r → (M' i r).parts = (M i r).parts) {G : Cell → Fields d n F} {G' : Cell → Fields d n' F}
    (hG : ∀ g, inBox 0 nx g → (G g).pick σ = (G' g).pick σ') {D : DistView (Fields d n F)} {D' : DistView (Fields d n' F)}
    (hext : ∀ rank, inBox 0 dims rank → D.ext rank = localExt nx dims (nghostOf d ng) rank)
    (hint : ∀ rank, inBox 0 dims rank → ∀ c, inBox (nghostOf d ng) (fun a => D.ext rank a - nghostOf d ng a) c →
      D.val rank c = G (globalOf nx dims (nghostOf d ng) rank c))
    (hext' : ∀ rank, inBox 0 dims rank → D'.ext rank = localExt nx dims (nghostOf d ng) rank)
    (hint' : ∀ rank, inBox 0 dims rank → ∀ c, inBox (nghostOf d ng) (fun a => D'.ext rank a - nghostOf d ng a) c →
      D'.val rank c = G' (globalOf nx dims (nghostOf d ng) rank c)) (i : ℕ) :
    ∃ W W' R R' hist, kRun p sched (borderOf dims) (nghostOf d ng) dims grav M lf D i = some (R, hist) ∧
      kRun p' sched' (borderOf dims) (nghostOf d ng) dims grav' M' lf' D' i = some (R', hist) ∧
      HoldsAll nx dims (nghostOf d ng) W R ∧ HoldsAll nx dims (nghostOf d ng) W' R' ∧ (fun C => (W C).pick σ) = fun C => (W' C).pick σ' := by
  have hN : ∀ a, 0 ≤ nx a := fun a => (hpos a).le
  have hb' : ∀ a f, p'.bcs a f ≠ .userDefined := by rw [hbcs]; exact hb
  induction i with
  | zero =>
    obtain ⟨R, e1, e2⟩ := distBcs_holds hd3 hN h.pos (by omega) h.size p.user h.order hb ho G D hext hint
    obtain ⟨R', e1', e2'⟩ := distBcs_holds hd3 hN h'.pos (by omega) h'.size p'.user h'.order hb' ho G' D' hext' hint'
    refine ⟨_, _, R, R', [], ?_, ?_, e2, e2', ?_⟩
    · unfold kRun; rw [hpo, e1]; rfl
    · unfold kRun; rw [hpo', e1']; rfl
    · rw [← bcGlob_pick, ← bcGlob_pick, hbcs]
      unfold bcGlob
      congr 1
      funext C
      exact hG _ fun a => ⟨Int.emod_nonneg _ (hpos a).ne', Int.emod_lt_of_pos _ (hpos a)⟩
  | succ i ih =>
    obtain ⟨W, W', R, R', hist, e1, e1', e2, e2', e3⟩ := ih
    have hne : boxList 0 dims ≠ [] := fun hnil => by
      have h0 : (0 : Cell) ∈ boxList 0 dims := ((boxList_isSchedule 0 dims).2 0).2 fun a => ⟨le_rfl, h.pos a⟩
      rw [hnil] at h0
      simp at h0
    have hflow : ∀ C, SameFlow (W C) (W' C) := fun C => by
      have := congrFun e3 C
      exact ⟨congrArg Fields.rho this, congrArg Fields.rhou this, congrArg Fields.E this⟩
    have hprim : kPrimGlob p.k W = kPrimGlob p'.k W' := by rw [← kPrimGlob_pick hk, ← kPrimGlob_pick hk', e3]
    have hrate : ∀ C, kRateVal p'.k p'.geom X W' (kPrimGlob p'.k W') C = kRateVal p.k p.geom X W (kPrimGlob p.k W) C := fun C => by
      rw [← kRateVal_pick hk, ← kRateVal_pick hk', e3, hprim, hgeom]
    obtain ⟨t, S, q1, q2, q3⟩ := kIter_holds_of hd3 hN hng hb ho hpo h i e2 hist fun up hup => kTimeStep_value (lo := p.lo) p.k hup hne
    obtain ⟨t', S', q1', q2', q3'⟩ := kIter_holds_of hd3 hN hng hb' ho hpo' h' i e2' hist fun up hup => kTimeStep_value (lo := p'.lo) p'.k hup hne
    have ht : t' = t := by
      refine Option.some.inj (q1'.symm.trans (Eq.trans ?_ q1))
      congr 1
      refine List.map_congr_left fun r hr => ?_
      rw [hparts i r (((boxList_isSchedule 0 dims).2 r).1 hr), hlo]
      simp only [hrate]
    subst ht
    have hinv : p'.k.inv t' = p.k.inv t' := by rw [← hk.inv, ← hk'.inv]
    refine ⟨_, _, S, S', p.k.inv t' :: hist, ?_, ?_, q3, q3', ?_⟩
    · unfold kRun; rw [e1]; exact q2
    · unfold kRun; rw [e1', ← hinv]; exact q2'
    · unfold kIterGlob
      rw [← bcGlob_pick, ← bcGlob_pick, hbcs, hinv, hpol]
      congr 1
      funext g
      rw [← kStepVal_pick hk, ← kStepVal_pick hk', e3, hprim, hgeom, hGr W W' hflow, ← kGrid_pick hk, ← kGrid_pick hk']

end Run

variable {d n n' m : ℕ} {F : Type} [Arith F]

/-- The parameters of a run with the kernels of the code. -/
def codeParams (n : ℕ) (lim : Limiter) (sol : Solver) (eos : EoS F) (geom : Geom) (fix : Option F) (lo : F) (policy : List F → F)
    (user : UserBc d n F) (bcs : Fin d → Fin 2 → BcKind) (order : List ℕ) : KernelParams d n F :=
  { k := orderedKernels lim sol eos geom fix, geom := geom, lo := lo, policy := policy, user := user, bcs := bcs, order := order.map some }

/-- **C96.** The kernels of the code, operation by operation, with any operations on numbers (exact, rounded, IEEE with NaN and infinities).
Take two runs with `n` and `n'` mass fractions, the same other choices, on the same process grid with the same orders of reduction
(the orders of the other loops and of the messages may differ), and a gravity that does not look at the mass fractions. If the two start from the
same density, momentum and energy, and the fraction `σ i` of the first from the same values as the fraction `σ' i` of the second, for each `i < m`,
then any number of iterations completes in both, with the same time steps, and all ranks hold bit by bit the same density, momentum, energy, and
fractions `σ i` and `σ' i`. So mass fractions, their number and their values (NaN included) do not act on the gas (`m = 0`), they do not act on
each other, and they can be added, left out, exchanged and doubled. -/
theorem C96_fractions_apart (hd3 : d ≤ 3) {lim : Limiter} {sol : Solver} {eos : EoS F} {geom : Geom} {fix : Option F} {lo : F} {policy : List F → F}
    {user : UserBc d n F} {user' : UserBc d n' F} {bcs : Fin d → Fin 2 → BcKind} (hb : ∀ a f, bcs a f ≠ .userDefined) {order : List ℕ}
    (ho : ∀ id ∈ order, id < 2 * d) {nx : Cell} {ng : ℤ} (hpos : ∀ a, 0 < nx a) (hng : 2 ≤ ng) {X : Fin 3 → ℤ → F}
    {Gr : (Cell → Fields d n F) → Cell → Fin d → F} {Gr' : (Cell → Fields d n' F) → Cell → Fin d → F}
    (hGr : ∀ W W', (∀ C, SameFlow (W C) (W' C)) → Gr W = Gr' W') {dims : Cell} {sched sched' : Cell → Cell → List Cell}
    {grav : DistView (Fields d n F) → Cell → GravField d F} {grav' : DistView (Fields d n' F) → Cell → GravField d F}
    {M : ℕ → Cell → RankMem d n F} {M' : ℕ → Cell → RankMem d n' F} {lf lf' : ℕ → Cell → List Cell}
    (h : KDecomposition (codeParams n lim sol eos geom fix lo policy user bcs order) nx ng X Gr dims sched grav M lf)
    (h' : KDecomposition (codeParams n' lim sol eos geom fix lo policy user' bcs order) nx ng X Gr' dims sched' grav' M' lf')
    (hparts : ∀ i r, inBox 0 dims r → (M' i r).parts = (M i r).parts) {σ : Fin m → Fin n} {σ' : Fin m → Fin n'}
    {G : Cell → Fields d n F} {G' : Cell → Fields d n' F}
    (hflow : ∀ g, inBox 0 nx g → SameFlow (G g) (G' g)) (hfx : ∀ g, inBox 0 nx g → ∀ i, (G g).fx (σ i) = (G' g).fx (σ' i))
    {D : DistView (Fields d n F)} {D' : DistView (Fields d n' F)}
    (hext : ∀ rank, inBox 0 dims rank → D.ext rank = localExt nx dims (nghostOf d ng) rank)
    (hint : ∀ rank, inBox 0 dims rank → ∀ c, inBox (nghostOf d ng) (fun a => D.ext rank a - nghostOf d ng a) c →
      D.val rank c = G (globalOf nx dims (nghostOf d ng) rank c))
    (hext' : ∀ rank, inBox 0 dims rank → D'.ext rank = localExt nx dims (nghostOf d ng) rank)
    (hint' : ∀ rank, inBox 0 dims rank → ∀ c, inBox (nghostOf d ng) (fun a => D'.ext rank a - nghostOf d ng a) c →
      D'.val rank c = G' (globalOf nx dims (nghostOf d ng) rank c)) (i : ℕ) :
    ∃ R R' hist, kRun (codeParams n lim sol eos geom fix lo policy user bcs order) sched (borderOf dims) (nghostOf d ng) dims grav M lf D i = some (R, hist) ∧
      kRun (codeParams n' lim sol eos geom fix lo policy user' bcs order) sched' (borderOf dims) (nghostOf d ng) dims grav' M' lf' D' i = some (R', hist) ∧
      ∀ rank c, inBox 0 dims rank → inExt (localExt nx dims (nghostOf d ng) rank) c = true →
        SameFlow (R.val rank c) (R'.val rank c) ∧ ∀ i, (R.val rank c).fx (σ i) = (R'.val rank c).fx (σ' i) := by
  obtain ⟨W, W', R, R', hist, e1, e1', e2, e2', e3⟩ := kRun_pick (σ := σ) (σ' := σ') hd3 (orderedKernels_picks lim sol eos geom fix σ)
    (orderedKernels_picks lim sol eos geom fix σ') rfl rfl rfl rfl hpos hng hb ho rfl rfl hGr h h' hparts (fun g hg => by
      obtain ⟨f1, f2, f3⟩ := hflow g hg
      exact Fields.ext f1 f2 f3 (funext fun i => hfx g hg i)) hext hint hext' hint' i
  refine ⟨R, R', hist, e1, e1', fun rank c hr hc => ?_⟩
  have := congrFun e3 (c + startCell nx dims rank)
  rw [e2.val rank hr c hc, e2'.val rank hr c hc]
  exact ⟨⟨congrArg Fields.rho this, congrArg Fields.rhou this, congrArg Fields.E this⟩, fun i => congrFun (congrArg Fields.fx this) i⟩

omit [Arith F] in
/-- A decomposition, with the reduction of each rank in one part in the order of the cells. -/
theorem KDecomposition.onePart [Zero F] {p : KernelParams d n F} {nx : Cell} {ng : ℤ} {X : Fin 3 → ℤ → F} {Gr : (Cell → Fields d n F) → Cell → Fin d → F}
    {dims : Cell} {sched : Cell → Cell → List Cell} {grav : DistView (Fields d n F) → Cell → GravField d F} {M : ℕ → Cell → RankMem d n F}
    {lf : ℕ → Cell → List Cell} (h : KDecomposition p nx ng X Gr dims sched grav M lf) :
    ∃ M' : ℕ → Cell → RankMem d n F, (∀ i r, (M' i r).parts = [boxList 0 (localExt nx dims (nghostOf d ng) r)]) ∧
      KDecomposition p nx ng X Gr dims sched grav M' lf :=
  ⟨fun i r => { M i r with parts := [boxList 0 (localExt nx dims (nghostOf d ng) r)] }, fun _ _ => rfl, h.pos, h.size, h.order, h.force, fun i r hr =>
    { grid := (h.mem i r hr).grid
      conv := (h.mem i r hr).conv
      parts := by
        show IsSchedule [boxList 0 (localExt nx dims (nghostOf d ng) r)].flatten 0 (localExt nx dims (nghostOf d ng) r)
        simpa using boxList_isSchedule 0 (localExt nx dims (nghostOf d ng) r)
      sc := (h.mem i r hr).sc
      l := (h.mem i r hr).l
      l' := (h.mem i r hr).l'
      lf := (h.mem i r hr).lf
      up := (h.mem i r hr).up
      upRec := (h.mem i r hr).upRec
      faces := (h.mem i r hr).faces
      new := (h.mem i r hr).new }⟩

/-- A case: IEEE doubles on two ranks, with reflexive walls, HLLC and the pressure fix. A run with two mass fractions, one of them NaN
everywhere, and a run with one mass fraction, the other one of the first run: same gas, same fraction. -/
example (tr : Trig Ieee) (eos : EoS Ieee) (fix : Option Ieee) (policy : List Ieee → Ieee) (q : Cell → Fields 1 1 Ieee)
    (user : UserBc 1 2 Ieee) (user' : UserBc 1 1 Ieee) : letI := ieeeArith tr
    ∃ M lf M' lf' D D', ∀ i, ∃ R R' hist,
      kRun (codeParams 2 .vanLeer .hllc eos .cartesian fix negDblMax policy user (fun _ _ => .reflexive) [0, 1]) boxList
        (borderOf ![2, 1, 1]) (nghostOf 1 2) ![2, 1, 1] (fun _ _ _ _ => some 0) M lf D i = some (R, hist) ∧
      kRun (codeParams 1 .vanLeer .hllc eos .cartesian fix negDblMax policy user' (fun _ _ => .reflexive) [0, 1]) boxList
        (borderOf ![2, 1, 1]) (nghostOf 1 2) ![2, 1, 1] (fun _ _ _ _ => some 0) M' lf' D' i = some (R', hist) ∧
      ∀ rank c, inBox 0 ![2, 1, 1] rank → inExt (localExt ![4, 1, 1] ![2, 1, 1] (nghostOf 1 2) rank) c = true →
        SameFlow (R.val rank c) (R'.val rank c) ∧ (R.val rank c).fx 0 = (R'.val rank c).fx 0 := by
  letI := ieeeArith tr
  have hN0 : ∀ a, 0 ≤ (![4, 1, 1] : Cell) a := by decide
  have hsz : ∀ a : Fin 3, a.val < 1 → ∀ r, 0 ≤ r → r < (![2, 1, 1] : Cell) a → (2 : ℤ) ≤ localSize ((![4, 1, 1] : Cell) a) ((![2, 1, 1] : Cell) a) r := by
    intro a ha r h0 h1
    rw [localSize_eq (hN0 a) (lt_of_le_of_lt h0 h1)]
    fin_cases a
    · simp [not_lt.2 h0]
    · simp at ha
    · simp at ha
  obtain ⟨M, lf, h⟩ := exists_kDecomposition (codeParams 2 .vanLeer .hllc eos .cartesian fix negDblMax policy user (fun _ _ => .reflexive) [0, 1])
    (nx := ![4, 1, 1]) (dims := ![2, 1, 1]) (ng := 2) hN0 (by decide) (by norm_num) hsz (fun _ i => .lit i)
  obtain ⟨M', lf', h'⟩ := exists_kDecomposition (codeParams 1 .vanLeer .hllc eos .cartesian fix negDblMax policy user' (fun _ _ => .reflexive) [0, 1])
    (nx := ![4, 1, 1]) (dims := ![2, 1, 1]) (ng := 2) hN0 (by decide) (by norm_num) hsz (fun _ i => .lit i)
  obtain ⟨M, hM, h⟩ := h.onePart
  obtain ⟨M', hM', h'⟩ := h'.onePart
  refine ⟨M, lf, M', lf', ⟨fun r => localExt ![4, 1, 1] ![2, 1, 1] (nghostOf 1 2) r, fun r c =>
      let s := q (globalOf ![4, 1, 1] ![2, 1, 1] (nghostOf 1 2) r c); { rho := s.rho, rhou := s.rhou, E := s.E, fx := ![s.fx 0, .nan] }⟩,
    ⟨fun r => localExt ![4, 1, 1] ![2, 1, 1] (nghostOf 1 2) r, fun r c => q (globalOf ![4, 1, 1] ![2, 1, 1] (nghostOf 1 2) r c)⟩, fun i => ?_⟩
  obtain ⟨R, R', hist, e1, e2, e3⟩ := C96_fractions_apart (m := 1) (σ := fun _ => 0) (σ' := fun _ => 0) (by norm_num) (by simp) (by decide) (by decide)
    le_rfl (fun _ _ _ => rfl) h h' (fun i r _ => (hM' i r).trans (hM i r).symm)
    (G := fun g => { rho := (q g).rho, rhou := (q g).rhou, E := (q g).E, fx := ![(q g).fx 0, .nan] }) (G' := q)
    (fun g _ => ⟨rfl, rfl, rfl⟩) (fun g _ _ => rfl)
    (D := ⟨fun r => localExt ![4, 1, 1] ![2, 1, 1] (nghostOf 1 2) r, fun r c =>
      let s := q (globalOf ![4, 1, 1] ![2, 1, 1] (nghostOf 1 2) r c); { rho := s.rho, rhou := s.rhou, E := s.E, fx := ![s.fx 0, .nan] }⟩)
    (D' := ⟨fun r => localExt ![4, 1, 1] ![2, 1, 1] (nghostOf 1 2) r, fun r c => q (globalOf ![4, 1, 1] ![2, 1, 1] (nghostOf 1 2) r c)⟩)
    (fun _ _ => rfl) (fun _ _ _ _ => rfl) (fun _ _ => rfl) (fun _ _ _ _ => rfl) i
  exact ⟨R, R', hist, e1, e2, fun rank c hr hc => ⟨(e3 rank c hr hc).1, (e3 rank c hr hc).2 0⟩⟩

end Heracles

import Verif.Lemmas.Distributed
import Verif.Props.Conservation
import Verif.Props.Geometry

/-!
# C35: independence of the domain decomposition
-/

namespace Heracles

variable {d n : ℕ} {K : Type} [Field K] [LinearOrder K] [IsStrictOrderedRing K]

/-- `time_step` returns the inverse of the largest rate of all ranks, or of the identity of the maximum. -/
theorem timeStep_max {R : Type} {lo : K} (eos : EoS K) (tr : Trig K) (geom : Geom) (hd : d ≤ 3) {ranks : List R}
    {parts : R → List (List Cell)} {D : R → RankData d K} {g : R → GridData K} {rho : R → View Cell K}
    {up : R → View Cell (VelPres d K)} (hD : ∀ r ∈ ranks, (D r).Holds (g r) (rho r) (up r))
    (hin : ∀ r ∈ ranks, ∀ c ∈ (parts r).flatten, inExt (D r).ext c = true) (hne : ranks ≠ []) :
    ∃ m, timeStep lo eos tr geom ranks parts g rho up = some (1 / m) ∧ lo ≤ m ∧
      (∀ r ∈ ranks, ∀ c ∈ (parts r).flatten, (D r).rate eos tr geom c ≤ m) ∧
      (m = lo ∨ ∃ r ∈ ranks, ∃ c ∈ (parts r).flatten, m = (D r).rate eos tr geom c) := by
  have h1 : ∀ r ∈ ranks, parReduce lo kmax (parts r) (fun c s => do
      let x ← cellInverseDt eos tr geom (g r) (rho r) (up r) c
      return kmax s x) = some (((parts r).map fun l => l.foldl (fun s c => kmax s ((D r).rate eos tr geom c)) lo).foldl kmax lo) := by
    intro r hr
    refine parReduce_eq fun c hc => ?_
    rw [(hD r hr).rho, (hD r hr).up, cellInverseDt_eq eos tr geom (hD r hr).dx (hD r hr).xc _ _ (hin r hr c hc)]
    congr 1
    refine Finset.sum_congr rfl fun a _ => ?_
    rw [dxGeom_eq tr geom hd]
    congr 2
    funext i
    fin_cases i <;> rfl
  obtain ⟨m, e, hm1, hm2⟩ := allReduce_max (l := ranks.map fun r =>
    ((parts r).map fun l => l.foldl (fun s c => kmax s ((D r).rate eos tr geom c)) lo).foldl kmax lo)
    (fun h => hne (List.map_eq_nil_iff.1 h))
  refine ⟨m, ?_, ?_, fun r hr c hc => ?_, ?_⟩
  · unfold timeStep
    rw [mapM_some ranks h1]
    simp only [Option.bind_eq_bind, Option.bind_some, e]
    rfl
  · obtain ⟨r, hr, e'⟩ := List.mem_map.1 hm1
    rw [← e']
    exact (parReduce_max (e := lo) (parts := parts r) ((D r).rate eos tr geom)).1
  · exact ((parReduce_max (e := lo) (parts := parts r) ((D r).rate eos tr geom)).2.1 c hc).trans
      (hm2 _ (List.mem_map.2 ⟨r, hr, rfl⟩))
  · obtain ⟨r, hr, e'⟩ := List.mem_map.1 hm1
    rcases (parReduce_max (e := lo) (parts := parts r) ((D r).rate eos tr geom)).2.2 with h | ⟨c, hc, h⟩
    · exact Or.inl (e'.symm.trans h)
    · exact Or.inr ⟨r, hr, c, hc, e'.symm.trans h⟩

/-- The rates of the cells of the global array. -/
def globRank (eos : EoS K) (nx nghost : Cell) (X : Fin 3 → ℤ → K) (W : Cell → Fields d n K) : RankData d K where
  ext := globExt nx nghost
  dx := fun a i => X a (i + 1) - X a i
  xc := fun a i => (X a i + X a (i + 1)) / 2
  rho := fun C => (W C).rho
  up := primGlob eos W

/-- `m` is the largest of `lo` and of the rates of the global array. -/
structure IsRate (lo : K) (eos : EoS K) (tr : Trig K) (geom : Geom) (nx nghost : Cell) (X : Fin 3 → ℤ → K)
    (W : Cell → Fields d n K) (m : K) : Prop where
  ge : lo ≤ m
  le : ∀ C, inExt (globExt nx nghost) C = true → (globRank eos nx nghost X W).rate eos tr geom C ≤ m
  mem : m = lo ∨ ∃ C, inExt (globExt nx nghost) C = true ∧ m = (globRank eos nx nghost X W).rate eos tr geom C

theorem IsRate.unique {lo : K} {eos : EoS K} {tr : Trig K} {geom : Geom} {nx nghost : Cell} {X : Fin 3 → ℤ → K}
    {W : Cell → Fields d n K} {m m' : K} (h : IsRate lo eos tr geom nx nghost X W m)
    (h' : IsRate lo eos tr geom nx nghost X W m') : m = m' := by
  apply le_antisymm
  · rcases h.mem with e | ⟨C, hC, e⟩
    · rw [e]; exact h'.ge
    · rw [e]; exact h'.le C hC
  · rcases h'.mem with e | ⟨C, hC, e⟩
    · rw [e]; exact h.ge
    · rw [e]; exact h.le C hC

/-- Every cell of the global array, ghosts included, is a cell of some rank. -/
theorem exists_local {nx dims : Cell} {ng : ℤ} (hN : ∀ a, 0 ≤ nx a) (hdm : ∀ a, 0 < dims a) (hng : 0 < ng)
    (hsz : ∀ a : Fin 3, a.val < d → ∀ r, 0 ≤ r → r < dims a → ng ≤ localSize (nx a) (dims a) r) {C : Cell}
    (hC : inExt (globExt nx (nghostOf d ng)) C = true) :
    ∃ rank c, inBox 0 dims rank ∧ inExt (localExt nx dims (nghostOf d ng) rank) c = true ∧ c + startCell nx dims rank = C := by
  have h := inExt_iff.1 hC
  have key : ∀ a : Fin 3, ∃ r : ℤ, 0 ≤ r ∧ r < dims a ∧ 0 ≤ C a - localStart (nx a) (dims a) r ∧
      C a - localStart (nx a) (dims a) r < localSize (nx a) (dims a) r + 2 * nghostOf d ng a := by
    intro a
    have ha := h a
    simp only [globExt] at ha
    by_cases had : a.val < d
    · have hpos : 0 < nx a := by
        have h1 := hsz a had 0 le_rfl (hdm a)
        have h2 := localStart_add_size_le (r := 0) (hN a) (hdm a) (hdm a)
        rw [localStart_zero (hN a) (hdm a)] at h2
        omega
      have hgh : nghostOf d ng a = ng := if_pos had
      rw [hgh] at ha ⊢
      obtain ⟨r, r0, r1, r2, r3⟩ := exists_owner (c := max 0 (min (C a - ng) (nx a - 1))) (hN a) (hdm a) (by omega) (by omega)
      have q1 := localStart_nonneg (r := r) (hN a) (hdm a) r0
      have q2 := localStart_add_size_le (r := r) (hN a) (hdm a) r1
      exact ⟨r, r0, r1, by omega, by omega⟩
    · have hgh : nghostOf d ng a = 0 := if_neg had
      rw [hgh] at ha ⊢
      obtain ⟨r, r0, r1, r2, r3⟩ := exists_owner (c := C a) (hN a) (hdm a) (by omega) (by omega)
      exact ⟨r, r0, r1, by omega, by omega⟩
  choose rank k0 k1 k2 k3 using key
  refine ⟨rank, C - startCell nx dims rank, fun a => ⟨k0 a, k1 a⟩, inExt_iff.2 fun a => ?_, sub_add_cancel _ _⟩
  simp only [localExt, Pi.sub_apply, startCell]
  exact ⟨k2 a, k3 a⟩

/-- What is asked of a decomposition: each rank owns at least `ng` cells in every active direction, the gravity of each rank
is its part of the field `Gr W` of the global array, its memory is as described by `RankOk`. -/
structure Decomposition (p : DistParams d n K) (nx : Cell) (ng : ℤ) (X : Fin 3 → ℤ → K)
    (Gr : (Cell → Fields d n K) → Cell → Fin d → K) (dims : Cell) (sched : Cell → Cell → List Cell)
    (grav : DistView (Fields d n K) → Cell → GravField d K) (M : ℕ → Cell → RankMem d n K) : Prop where
  pos : ∀ a, 0 < dims a
  size : ∀ a : Fin 3, a.val < d → ∀ r, 0 ≤ r → r < dims a → ng ≤ localSize (nx a) (dims a) r
  order : ∀ b e, IsSchedule (sched b e) b e
  force : ∀ W D, HoldsAll nx dims (nghostOf d ng) W D → ∀ rank, inBox 0 dims rank →
    ∀ c, inExt (localExt nx dims (nghostOf d ng) rank) c = true → ∀ a, grav D rank c a = some (Gr W (c + startCell nx dims rank) a)
  mem : ∀ i rank, inBox 0 dims rank → RankOk p.tr p.geom nx dims ng X rank (M i rank)

/-- One iteration of the global array. -/
noncomputable def iterGlob (p : DistParams d n K) (nx : Cell) (ng : ℤ) (X : Fin 3 → ℤ → K)
    (Gr : (Cell → Fields d n K) → Cell → Fin d → K) (order : List ℕ) (dt : K) (W : Cell → Fields d n K) : Cell → Fields d n K :=
  bcGlob p.bcs nx (nghostOf d ng) order fun g =>
    stepVal p.lim p.sol p.eos p.tr p.geom (globGrid p.tr p.geom X (Gr W)) dt W (primGlob p.eos W) (g + nghostOf d ng)

/-- One iteration of a decomposed run is an iteration of the global array. -/
theorem distIter_holds (hd3 : d ≤ 3) {p : DistParams d n K} {nx : Cell} {ng : ℤ} (hN : ∀ a, 0 ≤ nx a) (hng : 2 ≤ ng)
    (hb : ∀ a f, p.bcs a f ≠ .userDefined) {order : List ℕ} (ho : ∀ id ∈ order, id < 2 * d) (hpo : p.order = order.map some)
    {X : Fin 3 → ℤ → K} {Gr : (Cell → Fields d n K) → Cell → Fin d → K} {dims : Cell} {sched : Cell → Cell → List Cell}
    {grav : DistView (Fields d n K) → Cell → GravField d K} {M : ℕ → Cell → RankMem d n K}
    (h : Decomposition p nx ng X Gr dims sched grav M) (i : ℕ) {W : Cell → Fields d n K} {D : DistView (Fields d n K)}
    (hD : HoldsAll nx dims (nghostOf d ng) W D) (hist : List K) :
    ∃ m D', IsRate p.lo p.eos p.tr p.geom nx (nghostOf d ng) X W m ∧
      distIter p sched (borderOf dims) (nghostOf d ng) dims grav (M i) (D, hist) = some (D', 1 / m :: hist) ∧
      HoldsAll nx dims (nghostOf d ng) (iterGlob p nx ng X Gr order (p.policy (1 / m :: hist)) W) D' := by
  set E := fun r => localExt nx dims (nghostOf d ng) r with hE
  have hloc : ∀ r, inBox 0 dims r → D.local r = ⟨inExt (E r), D.val r⟩ := fun r hr => by
    unfold DistView.local; rw [hD.ext r hr]
  -- primitive variables
  have hconv : ∀ r, inBox 0 dims r → ∃ v : View Cell (VelPres d K), convConsToPrim p.eos (M i r).conv
      ((D.local r).comp Fields.rho) ((D.local r).comp fun s => { rhou := s.rhou, E := s.E }) (M i r).up = some v ∧
      v.dom = inExt (E r) ∧ ∀ c, inExt (E r) c = true → v.val c = primGlob p.eos W (c + startCell nx dims r) := by
    intro r hr
    have hm := h.mem i r hr
    obtain ⟨v, h1, h2, h3, _⟩ := C15_cons_to_prim p.eos hm.conv ((D.local r).comp Fields.rho)
      ((D.local r).comp fun s => { rhou := s.rhou, E := s.E }) (M i r).up (by
        intro c hc
        have : inExt (E r) c = true := inExt_iff.2 hc
        rw [hloc r hr]
        exact ⟨this, this, by rw [hm.up]; exact this⟩)
    refine ⟨v, h1, by rw [h2, hm.up], fun c hc => ?_⟩
    rw [h3 c (inExt_iff.1 hc), hloc r hr]
    simp only [View.comp, hD.val r hr c hc]
    rfl
  haveI : Nonempty (View Cell (VelPres d K)) := ⟨(M i 0).up⟩
  haveI : Nonempty (PGrid d K) := ⟨globGrid p.tr p.geom X (Gr W)⟩
  choose! v0 hv1 hv2 hv3 using hconv
  obtain ⟨up, hup, hup'⟩ := allRanks_some (dims := dims) (dflt := fun r => (M i r).up) hv1
  -- grids
  have hfit := fun r hr => (h.mem i r hr).fits hN h.pos hr (grav := grav D r)
    (G := fun c => Gr W (c + startCell nx dims r)) (h.force W D hD r hr)
  have hfit1 := fun r hr => (hfit r hr).1
  choose! P hP1 hP2 hP3 hP4 using hfit1
  -- time step
  have hmemr : ∀ r, r ∈ boxList 0 dims ↔ inBox 0 dims r := (boxList_isSchedule 0 dims).2
  obtain ⟨m, hm1, hm2, hm3, hm4⟩ := timeStep_max (lo := p.lo) p.eos p.tr p.geom hd3 (ranks := boxList 0 dims)
    (parts := fun r => (M i r).parts) (g := fun r => (M i r).grid) (rho := fun r => (D.local r).comp Fields.rho) (up := up)
    (D := fun r => { ext := E r, dx := (P r).dx
                     xc := fun a i => if 0 ≤ i ∧ i < E r a then
                        (X a (i + startCell nx dims r a) + X a (i + startCell nx dims r a + 1)) / 2 else 0
                     rho := fun c => (D.val r c).rho, up := (up r).val })
    (fun r hr => by
      have hr' := (hmemr r).1 hr
      refine ⟨(hP1 r hr').dx, (hfit r hr').2, by rw [hloc r hr']; rfl, ?_⟩
      rw [hup' r hr', ← hv2 r hr'])
    (fun r hr c hc => inExt_iff.2 (((h.mem i r ((hmemr r).1 hr)).parts.2 c).1 hc))
    (fun hnil => by
      have h0 : (0 : Cell) ∈ boxList 0 dims := (hmemr 0).2 fun a => ⟨le_rfl, h.pos a⟩
      rw [hnil] at h0
      simp at h0)
  have hrate : ∀ r, inBox 0 dims r → ∀ c, inExt (E r) c = true →
      (RankData.mk (E r) (P r).dx (fun a i => if 0 ≤ i ∧ i < E r a then
          (X a (i + startCell nx dims r a) + X a (i + startCell nx dims r a + 1)) / 2 else 0)
        (fun c => (D.val r c).rho) (up r).val).rate p.eos p.tr p.geom c =
      (globRank p.eos nx (nghostOf d ng) X W).rate p.eos p.tr p.geom (c + startCell nx dims r) := by
    intro r hr c hc
    have hci := inExt_iff.1 hc
    obtain ⟨g1, _, _⟩ := geo_shift (Gr := Gr W) (hP2 r hr) (hP4 r hr)
    have gd : (fun a : Fin 3 => (P r).dx a (c a)) =
        fun a => X a (c a + startCell nx dims r a + 1) - X a (c a + startCell nx dims r a) :=
      funext fun a => g1 a (c a) (hci a).1 (hci a).2
    unfold RankData.rate globRank
    simp only [gd, if_pos (hci 0), if_pos (hci 1), hup' r hr, hv3 r hr c hc, hD.val r hr c hc, Pi.add_apply]
  have hR : IsRate p.lo p.eos p.tr p.geom nx (nghostOf d ng) X W m := by
    refine ⟨hm2, fun C hC => ?_, ?_⟩
    · obtain ⟨r, c, hr, hc, rfl⟩ := exists_local hN h.pos (by omega) h.size hC
      rw [← hrate r hr c hc]
      exact hm3 r ((hmemr r).2 hr) c (((h.mem i r hr).parts.2 c).2 (inExt_iff.1 hc))
    · rcases hm4 with e | ⟨r, hr, c, hc, e⟩
      · exact Or.inl e
      · have hr' := (hmemr r).1 hr
        have hc' : inExt (E r) c = true := inExt_iff.2 (((h.mem i r hr').parts.2 c).1 hc)
        exact Or.inr ⟨c + startCell nx dims r, inExt_shift hN h.pos hr' hc', by rw [e]; exact hrate r hr' c hc'⟩
  -- the update
  set dt := p.policy (1 / m :: hist) with hdt
  obtain ⟨new, hnew, hnew'⟩ := allRanks_some (dims := dims) (dflt := fun r => (M i r).new)
    (f := fun r => hydroStep p.lim p.sol p.eos p.tr p.geom (M i r).grid (grav D r) dt (M i r).sc (M i r).l (M i r).l'
      (D.local r) (up r) (M i r).upRec (M i r).faces (M i r).new)
    (g := fun r => ⟨inExt (E r), fun c => if layer d (E r) ng c then
      stepVal p.lim p.sol p.eos p.tr p.geom (P r) dt (D.val r) (up r).val c else (M i r).new.val c⟩) (by
    intro r hr
    have hm := h.mem i r hr
    have hok : StepOk (M i r).grid (grav D r) (E r) (P r) ng (M i r).sc (M i r).l (M i r).l' :=
      ⟨hd3, hng, hP1 r hr, hm.sc, hm.l, hm.l'⟩
    have := hok.step p.lim p.sol p.eos p.tr p.geom dt (D.val r) (up r).val (M i r).upRec.val (M i r).faces.val (M i r).new.val
    rw [← this, hloc r hr]
    congr 1
    · rw [hup' r hr, ← hv2 r hr]
    · rw [← hm.upRec]
    · rw [← hm.faces]
    · rw [← hm.new])
  obtain ⟨D', hD', hH⟩ := distBcs_holds hd3 hN h.pos (by omega) h.size p.user h.order hb ho
    (fun g => stepVal p.lim p.sol p.eos p.tr p.geom (globGrid p.tr p.geom X (Gr W)) dt W (primGlob p.eos W) (g + nghostOf d ng))
    ⟨D.ext, fun r => (new r).val⟩ hD.ext (by
      intro r hr c hc
      have hc1 : layer d (E r) ng c := by rw [hD.ext r hr] at hc; exact hc
      show (new r).val c = _
      rw [hnew' r hr]
      refine (if_pos hc1).trans ?_
      rw [stepVal_shift hd3 p.lim p.sol p.eos (hP2 r hr) (hP4 r hr) (Gr := Gr W)
        (fun c hc => by rw [hP3 r hr]) dt (fun c hc => hD.val r hr c hc)
        (fun c hc => by rw [hup' r hr]; exact hv3 r hr c hc) hng hc1]
      congr 1
      funext a
      simp only [globalOf, Pi.add_apply, startCell]
      ring)
  refine ⟨m, D', hR, ?_, hH⟩
  unfold distIter distPrims
  dsimp only
  rw [hup]
  simp only [Option.bind_eq_bind, Option.bind_some]
  rw [hm1]
  simp only [Option.bind_some]
  rw [hnew]
  simp only [Option.bind_some]
  rw [hpo, hD']
  rfl

/-- **C35.** Two decompositions `dims`, `dims'` of the same domain (nodes `X`, gravity `Gr`, periodic, zero gradient or
reflexive boundaries, in any order of the faces), each rank owning at least `ng ≥ 2` cells in each active direction, whatever the
loop orders and the previous contents of the work arrays. Started from the same global field `G`, both runs go through any
number `k` of iterations without an access out of bounds, obtain the same time steps, and hold the same values in any two cells
(ghosts included) that represent the same cell of the domain. The single rank is `dims' = 1`. -/
theorem C35_decomposition_independent (hd3 : d ≤ 3) {p : DistParams d n K} {nx : Cell} {ng : ℤ} (hN : ∀ a, 0 ≤ nx a)
    (hng : 2 ≤ ng) (hb : ∀ a f, p.bcs a f ≠ .userDefined) {order : List ℕ} (ho : ∀ id ∈ order, id < 2 * d)
    (hpo : p.order = order.map some) {X : Fin 3 → ℤ → K} {Gr : (Cell → Fields d n K) → Cell → Fin d → K} {dims dims' : Cell}
    {sched sched' : Cell → Cell → List Cell} {grav grav' : DistView (Fields d n K) → Cell → GravField d K}
    {M M' : ℕ → Cell → RankMem d n K} (h : Decomposition p nx ng X Gr dims sched grav M)
    (h' : Decomposition p nx ng X Gr dims' sched' grav' M') (G : Cell → Fields d n K) {D D' : DistView (Fields d n K)}
    (hext : ∀ rank, inBox 0 dims rank → D.ext rank = localExt nx dims (nghostOf d ng) rank)
    (hint : ∀ rank, inBox 0 dims rank → ∀ c, inBox (nghostOf d ng) (fun a => D.ext rank a - nghostOf d ng a) c →
      D.val rank c = G (globalOf nx dims (nghostOf d ng) rank c))
    (hext' : ∀ rank, inBox 0 dims' rank → D'.ext rank = localExt nx dims' (nghostOf d ng) rank)
    (hint' : ∀ rank, inBox 0 dims' rank → ∀ c, inBox (nghostOf d ng) (fun a => D'.ext rank a - nghostOf d ng a) c →
      D'.val rank c = G (globalOf nx dims' (nghostOf d ng) rank c)) (k : ℕ) :
    ∃ F F' hist, distRun p sched (borderOf dims) (nghostOf d ng) dims grav M D k = some (F, hist) ∧
      distRun p sched' (borderOf dims') (nghostOf d ng) dims' grav' M' D' k = some (F', hist) ∧
      ∀ rank rank' c c', inBox 0 dims rank → inBox 0 dims' rank' →
        inExt (localExt nx dims (nghostOf d ng) rank) c = true → inExt (localExt nx dims' (nghostOf d ng) rank') c' = true →
        globalOf nx dims (nghostOf d ng) rank c = globalOf nx dims' (nghostOf d ng) rank' c' →
        F.val rank c = F'.val rank' c' := by
  have key : ∃ W F F' hist, distRun p sched (borderOf dims) (nghostOf d ng) dims grav M D k = some (F, hist) ∧
      distRun p sched' (borderOf dims') (nghostOf d ng) dims' grav' M' D' k = some (F', hist) ∧
      HoldsAll nx dims (nghostOf d ng) W F ∧ HoldsAll nx dims' (nghostOf d ng) W F' := by
    induction k with
    | zero =>
      obtain ⟨F, e1, e2⟩ := distBcs_holds hd3 hN h.pos (by omega) h.size p.user h.order hb ho G D hext hint
      obtain ⟨F', e1', e2'⟩ := distBcs_holds hd3 hN h'.pos (by omega) h'.size p.user h'.order hb ho G D' hext' hint'
      refine ⟨_, F, F', [], ?_, ?_, e2, e2'⟩
      · unfold distRun; rw [hpo, e1]; rfl
      · unfold distRun; rw [hpo, e1']; rfl
    | succ k ih =>
      obtain ⟨W, F, F', hist, e1, e1', e2, e2'⟩ := ih
      obtain ⟨m, F1, q1, q2, q3⟩ := distIter_holds hd3 hN hng hb ho hpo h k e2 hist
      obtain ⟨m', F1', q1', q2', q3'⟩ := distIter_holds hd3 hN hng hb ho hpo h' k e2' hist
      obtain rfl := q1.unique q1'
      refine ⟨_, F1, F1', 1 / m :: hist, ?_, ?_, q3, q3'⟩
      · unfold distRun; rw [e1]; exact q2
      · unfold distRun; rw [e1']; exact q2'
  obtain ⟨W, F, F', hist, e1, e1', e2, e2'⟩ := key
  refine ⟨F, F', hist, e1, e1', fun rank rank' c c' hr hr' hc hc' hg => ?_⟩
  rw [e2.val rank hr c hc, e2'.val rank' hr' c' hc']
  congr 1
  funext a
  have := congrFun hg a
  simp only [globalOf] at this
  simp only [Pi.add_apply, startCell]
  omega

/-! ### The hypotheses can be met -/

/-- `set_grid` and row by row loops give a memory as asked. -/
theorem exists_rankOk (tr : Trig K) (geom : Geom) {nx dims rank : Cell} {ng : ℤ} (hN : ∀ a, 0 ≤ nx a) (hdm : ∀ a, 0 < dims a)
    (hng : 0 ≤ ng) (hr : inBox 0 dims rank) (X : Fin 3 → ℤ → K) :
    ∃ m : RankMem d n K, RankOk tr geom nx dims ng X rank m := by
  obtain ⟨topo, ht, -, -, -, -, -, -, -, -, -, -, e11, -⟩ :=
    GridTopo.mk?_ok (ndim := d) (ng := ng) hN hdm (fun a => (hr a).1)
  obtain ⟨r, hrg⟩ : ∃ r, topo.range.allGhosts = .ok r := by
    unfold Range.allGhosts Range.withGhosts
    rw [if_neg (by omega)]
    exact ⟨_, rfl⟩
  obtain ⟨g, hg, -⟩ := setGrid_spec tr geom hN hdm hr ht (l1 := fun a => intRange 0 (topo.nxLocalWg a))
    (fun a => ⟨intRange_nodup _ _, fun i => mem_intRange⟩) hrg (boxList_isSchedule _ _) (boxList_isSchedule _ _) X
  let E := localExt nx dims (nghostOf d ng) rank
  refine ⟨⟨g, boxList 0 E, [boxList 0 E], RecScheds.box (nghostOf d (ng - 1)) (fun a => E a - nghostOf d (ng - 1) a),
    boxList (nghostOf d ng) (fun a => E a - nghostOf d ng a), boxList (nghostOf d ng) (fun a => E a - nghostOf d ng a),
    ⟨inExt E, fun _ => ⟨fun _ => 0, 0⟩⟩, ⟨inExt E, fun _ _ _ => ⟨fun _ => 0, 0⟩⟩,
    ⟨inExt E, fun _ _ _ => ⟨0, fun _ => 0, 0, fun _ => 0⟩⟩, ⟨inExt E, fun _ => ⟨0, fun _ => 0, 0, fun _ => 0⟩⟩⟩,
    { grid := ⟨topo, _, r, _, _, ht, fun a => ⟨intRange_nodup _ _, fun i => mem_intRange⟩, hrg, boxList_isSchedule _ _,
        boxList_isSchedule _ _, hg⟩
      conv := boxList_isSchedule 0 E
      parts := ?_
      sc := RecScheds.box_ok _ _
      l := boxList_isSchedule (nghostOf d ng) (fun a => E a - nghostOf d ng a)
      l' := boxList_isSchedule (nghostOf d ng) (fun a => E a - nghostOf d ng a)
      up := rfl
      upRec := rfl
      faces := rfl
      new := rfl }⟩
  show IsSchedule [boxList 0 E].flatten 0 E
  simpa using boxList_isSchedule 0 E

/-- A 8 x 6 domain on 2 x 3 ranks and on one rank, one periodic and one reflexive direction, uniform gravity. -/
example (p : DistParams 2 1 ℚ) (hb : p.bcs = ![![.periodic, .periodic], ![.reflexive, .nullGradient]])
    (hpo : p.order = [some 2, some 0, some 3, some 1]) (X : Fin 3 → ℤ → ℚ) (G : Cell → Fields 2 1 ℚ) :
    ∃ (M M' : ℕ → Cell → RankMem 2 1 ℚ) (D D' : DistView (Fields 2 1 ℚ)), ∀ k,
      ∃ F F' hist, distRun p boxList (borderOf ![2, 3, 1]) (nghostOf 2 2) ![2, 3, 1]
          (fun _ _ _ _ => some (-1)) M D k = some (F, hist) ∧
        distRun p boxList (borderOf 1) (nghostOf 2 2) 1 (fun _ _ _ _ => some (-1)) M' D' k = some (F', hist) ∧
        F.val ![1, 2, 0] ![2, 3, 0] = F'.val 0 ![6, 7, 0] := by
  have hN : ∀ a, 0 ≤ (![8, 6, 1] : Cell) a := by decide
  have key : ∀ dims : Cell, (∀ a, 0 < dims a) →
      (∀ a : Fin 3, a.val < 2 → ∀ r, 0 ≤ r → r < dims a → 2 ≤ localSize ((![8, 6, 1] : Cell) a) (dims a) r) →
      ∃ M : ℕ → Cell → RankMem 2 1 ℚ, Decomposition p ![8, 6, 1] 2 X (fun _ _ _ => -1) dims boxList (fun _ _ _ _ => some (-1)) M := by
    intro dims hdm hsz
    have hex : ∀ r, ∃ m : RankMem 2 1 ℚ, inBox 0 dims r → RankOk p.tr p.geom ![8, 6, 1] dims 2 X r m := fun r => by
      by_cases hr : inBox 0 dims r
      · obtain ⟨m, hm⟩ := exists_rankOk (d := 2) (n := 1) p.tr p.geom hN hdm (by norm_num : (0 : ℤ) ≤ 2) hr X
        exact ⟨m, fun _ => hm⟩
      · obtain ⟨m, hm⟩ := exists_rankOk (d := 2) (n := 1) p.tr p.geom hN hdm (by norm_num : (0 : ℤ) ≤ 2) (rank := 0)
          (fun a => ⟨le_rfl, hdm a⟩) X
        exact ⟨m, fun h => absurd h hr⟩
    choose m hm using hex
    exact ⟨fun _ => m, hdm, hsz, fun b e => boxList_isSchedule b e, fun _ _ _ _ _ _ _ _ => rfl, fun _ r hr => hm r hr⟩
  obtain ⟨M, hM⟩ := key ![2, 3, 1] (by decide) (by
    intro a ha r h0 h1
    rw [localSize_eq (hN a) (lt_of_le_of_lt h0 h1)]
    fin_cases a
    · simp [not_lt.2 h0]
    · simp [not_lt.2 h0]
    · simp at ha)
  obtain ⟨M', hM'⟩ := key 1 (by decide) (by
    intro a ha r h0 h1
    rw [localSize_eq (hN a) (by simp)]
    fin_cases a
    · simp [not_lt.2 h0]
    · simp [not_lt.2 h0]
    · simp at ha)
  refine ⟨M, M', ⟨fun r => localExt ![8, 6, 1] ![2, 3, 1] (nghostOf 2 2) r, fun r c => G (globalOf ![8, 6, 1] ![2, 3, 1] (nghostOf 2 2) r c)⟩,
    ⟨fun r => localExt ![8, 6, 1] 1 (nghostOf 2 2) r, fun r c => G (globalOf ![8, 6, 1] 1 (nghostOf 2 2) r c)⟩, fun k => ?_⟩
  obtain ⟨F, F', hist, e1, e2, e3⟩ := C35_decomposition_independent (by norm_num) hN (by norm_num)
    (by rw [hb]; decide) (order := [2, 0, 3, 1]) (by decide) hpo hM hM' G
    (D := ⟨fun r => localExt ![8, 6, 1] ![2, 3, 1] (nghostOf 2 2) r, fun r c => G (globalOf ![8, 6, 1] ![2, 3, 1] (nghostOf 2 2) r c)⟩)
    (D' := ⟨fun r => localExt ![8, 6, 1] 1 (nghostOf 2 2) r, fun r c => G (globalOf ![8, 6, 1] 1 (nghostOf 2 2) r c)⟩)
    (fun _ _ => rfl) (fun _ _ _ _ => rfl) (fun _ _ => rfl) (fun _ _ _ _ => rfl) k
  exact ⟨F, F', hist, e1, e2, e3 _ _ _ _ (by decide) (by decide) (by decide) (by decide) (by decide)⟩

end Heracles

import Verif.Model.Moving
import Verif.Lemmas.Geometry
import Verif.Props.Gravity
import Verif.Props.Mesh

/-!
# C50 Grid shift
-/

namespace Heracles

variable {d : ℕ} {V K : Type}

/-! ## Specification -/

/-- The next cell along the first direction. -/
def nextCell (c : Cell) : Cell := ![c 0 + 1, c 1, c 2]

/-! ## Fields -/

theorem shiftArray_eq {ext : Cell} {l : List Cell} (hl : IsSchedule l 0 ![ext 0 - 1, ext 1, ext 2]) (f h : Cell → V) :
    shiftArray l ⟨inExt ext, f⟩ ⟨inExt ext, h⟩ =
      some ⟨inExt ext, fun c => if inBox 0 ![ext 0 - 1, ext 1, ext 2] c then f (nextCell c) else h c⟩ := by
  unfold shiftArray
  rw [parFor_update l hl.1 _ _ (fun c => f (nextCell c)) fun c hc w hw _ => ?_]
  · congr 1
    refine View.ext' rfl (funext fun c => ?_)
    exact if_congr (hl.2 c) rfl rfl
  · have hb := (hl.2 c).1 hc
    have h0 : 0 ≤ c 0 ∧ c 0 < ext 0 - 1 := hb 0
    have h1 : 0 ≤ c 1 ∧ c 1 < ext 1 := hb 1
    have h2 : 0 ≤ c 2 ∧ c 2 < ext 2 := hb 2
    have r1 : (⟨inExt ext, f⟩ : View Cell V).rd ![c 0 + 1, c 1, c 2] = some (f (nextCell c)) := by
      refine View.rd_of_dom (inExt_iff.2 fun a => ?_)
      fin_cases a <;> simp <;> omega
    rw [r1]
    simp only [Option.bind_eq_bind, Option.bind_some]
    refine View.wr_of_dom ?_
    rw [hw]
    refine inExt_iff.2 fun a => ?_
    fin_cases a <;> simp <;> omega

/-- C50, fields: whatever the order of the copy, it stays in bounds and puts in each cell but those of the last plane the value of the next cell
along the first direction; the last plane is not touched. -/
theorem C50_fields {ext : Cell} {l : List Cell} (hl : IsSchedule l 0 ![ext 0 - 1, ext 1, ext 2]) (f h : Cell → V) :
    ∃ w, shiftArray l ⟨inExt ext, f⟩ ⟨inExt ext, h⟩ = some w ∧ w.dom = inExt ext ∧
      (∀ c, inExt ext c = true → c 0 + 1 < ext 0 → w.val c = f (nextCell c)) ∧
      ∀ c, inExt ext c = true → c 0 + 1 = ext 0 → w.val c = h c := by
  refine ⟨_, shiftArray_eq hl f h, rfl, fun c hc h0 => ?_, fun c hc h0 => ?_⟩
  · refine if_pos fun a => ?_
    have := inExt_iff.1 hc a
    fin_cases a
    · exact ⟨this.1, show c 0 < ext 0 - 1 by omega⟩
    · exact this
    · exact this
  · refine if_neg fun hb => ?_
    have : c 0 < ext 0 - 1 := (hb 0).2
    omega

/-- C50, decomposed domain: if before the shift every rank holds, ghosts included, the values of one global field `G`, then after the shift every
rank holds the values of `G` displaced by one cell, in all its cells but those of the last plane, which is made of ghosts and filled by
the boundary conditions next. -/
theorem C50_decomposed {nx dims : Cell} {ng : ℤ} (hd : 0 < d) (hng : 1 ≤ ng) {l : Cell → List Cell} (G : Cell → V) (f h : Cell → Cell → V)
    (hl : ∀ rank, inBox 0 dims rank → IsSchedule (l rank) 0 ![localExt nx dims (nghostOf d ng) rank 0 - 1,
      localExt nx dims (nghostOf d ng) rank 1, localExt nx dims (nghostOf d ng) rank 2])
    (hG : ∀ rank, inBox 0 dims rank → ∀ c, inExt (localExt nx dims (nghostOf d ng) rank) c = true →
      f rank c = G (globalOf nx dims (nghostOf d ng) rank c)) (rank : Cell) (hr : inBox 0 dims rank) :
    ∃ w, shiftArray (l rank) ⟨inExt (localExt nx dims (nghostOf d ng) rank), f rank⟩
        ⟨inExt (localExt nx dims (nghostOf d ng) rank), h rank⟩ = some w ∧
      ∀ c, inBox (nghostOf d ng) (fun a => localExt nx dims (nghostOf d ng) rank a - nghostOf d ng a) c →
        w.val c = G (nextCell (globalOf nx dims (nghostOf d ng) rank c)) := by
  obtain ⟨w, h1, _, h3, _⟩ := C50_fields (hl rank hr) (f rank) (h rank)
  have hn0 : nghostOf d ng 0 = ng := if_pos hd
  refine ⟨w, h1, fun c hc => ?_⟩
  have hgn : ∀ a, 0 ≤ nghostOf d ng a := by
    intro a
    unfold nghostOf
    split <;> omega
  have hb : ∀ a, nghostOf d ng a ≤ c a ∧ c a < localExt nx dims (nghostOf d ng) rank a - nghostOf d ng a := hc
  have h0 := hb 0
  have h1' := hb 1
  have h2' := hb 2
  have g0 := hgn 0
  have g1 := hgn 1
  have g2 := hgn 2
  have hin : inExt (localExt nx dims (nghostOf d ng) rank) c = true := by
    refine inExt_iff.2 fun a => ?_
    have := hb a
    have := hgn a
    omega
  rw [h3 c hin (by omega), hG rank hr _ ?_]
  · congr 1
    funext a
    fin_cases a <;> simp [globalOf, nextCell]
    ring
  · refine inExt_iff.2 fun a => ?_
    fin_cases a <;> simp [nextCell] <;> omega

/-! ## Nodes -/

section nodes
variable [Field K]

theorem shift_loop (n : ℤ) (x : ℤ → K) : ∀ m : ℕ, (m : ℤ) < n →
    parFor (intRange 0 m) (fun i (x : View ℤ K) => do
      let v ← x.rd (i + 1)
      x.wr i v) (View.line n x) = some (View.line n fun i => if 0 ≤ i ∧ i < m then x (i + 1) else x i) := by
  intro m
  induction m with
  | zero =>
    intro _
    rw [show intRange 0 ((0 : ℕ) : ℤ) = [] by simp [intRange], parFor_nil]
    congr 1
    refine View.ext' rfl (funext fun i => ?_)
    refine (if_neg ?_).symm
    rintro ⟨h1, h2⟩
    push_cast at h2
    omega
  | succ m ih =>
    intro hm
    push_cast at hm
    have hsn := intRange_snoc 0 m
    rw [zero_add, zero_add] at hsn
    rw [hsn, parFor_append, ih (by omega)]
    simp only [Option.bind_some]
    rw [parFor_cons]
    have r1 : (View.line n fun i => if 0 ≤ i ∧ i < (m : ℤ) then x (i + 1) else x i).rd ((m : ℤ) + 1) = some (x (m + 1)) := by
      rw [View.rd_of_dom (line_dom (by omega) (by omega))]
      exact congrArg some (if_neg (by omega))
    simp only [r1, Option.bind_eq_bind, Option.bind_some]
    rw [View.wr_of_dom (line_dom (by omega) (by omega)), Option.bind_some, parFor_nil]
    congr 1
    refine View.ext' rfl (funext fun i => ?_)
    show Function.update _ (m : ℤ) _ i = _
    by_cases hi : i = m
    · subst hi
      rw [Function.update_self]
      exact (if_pos (by omega)).symm
    · rw [Function.update_of_ne hi]
      exact if_congr (by omega) rfl rfl

/-- The nodes after the shift. -/
def shiftedNodes (n : ℤ) (x : ℤ → K) (i : ℤ) : K :=
  if i = n - 1 then x (n - 1) + (x (n - 1) - x (n - 2)) * ((x (n - 1) - x (n - 2)) / (x (n - 2) - x (n - 3)))
  else if 0 ≤ i ∧ i < n - 1 then x (i + 1) else x i

theorem shiftNodes_eq (n : ℤ) (hn : 4 ≤ n) (x : ℤ → K) : shiftNodes n (View.line n x) = some (View.line n (shiftedNodes n x)) := by
  unfold shiftNodes
  obtain ⟨m, hm⟩ := Int.eq_ofNat_of_zero_le (show 0 ≤ n - 1 by omega)
  rw [hm, shift_loop n x m (by omega), ← hm]
  simp only [Option.bind_eq_bind, Option.bind_some]
  have r : ∀ k : ℤ, 0 ≤ k → k < n - 1 → (View.line n fun i => if 0 ≤ i ∧ i < n - 1 then x (i + 1) else x i).rd k = some (x (k + 1)) := by
    intro k h0 h1
    rw [View.rd_of_dom (line_dom h0 (by omega))]
    exact congrArg some (if_pos ⟨h0, h1⟩)
  rw [r (n - 2) (by omega) (by omega), r (n - 3) (by omega) (by omega), r (n - 4) (by omega) (by omega)]
  simp only [Option.bind_some]
  rw [View.wr_of_dom (line_dom (by omega) (by omega))]
  congr 1
  refine View.ext' rfl (funext fun i => ?_)
  show Function.update (β := fun _ => K) _ (n - 1) _ i = shiftedNodes n x i
  unfold shiftedNodes
  by_cases hi : i = n - 1
  · subst hi
    rw [Function.update_self, if_pos rfl, show n - 2 + 1 = n - 1 by ring, show n - 3 + 1 = n - 2 by ring, show n - 4 + 1 = n - 3 by ring]
  · rw [Function.update_of_ne hi, if_neg hi]
    rfl

variable [LinearOrder K] [IsStrictOrderedRing K]

/-- C50, nodes: the shift stays in bounds (four nodes at least); each node takes the coordinate of the next one; the nodes stay strictly
increasing. -/
theorem C50_nodes (n : ℤ) (hn : 4 ≤ n) (x : ℤ → K) (hx : ∀ i j, 0 ≤ i → i < j → j < n → x i < x j) :
    ∃ y, shiftNodes n (View.line n x) = some (View.line n y) ∧ (∀ i, 0 ≤ i → i < n - 1 → y i = x (i + 1)) ∧
      ∀ i j, 0 ≤ i → i < j → j < n → y i < y j := by
  refine ⟨_, shiftNodes_eq n hn x, fun i h0 h1 => ?_, fun i j h0 hij hj => ?_⟩
  · unfold shiftedNodes
    rw [if_neg (by omega), if_pos ⟨h0, h1⟩]
  · unfold shiftedNodes
    rw [if_neg (show ¬ i = n - 1 by omega), if_pos (show 0 ≤ i ∧ i < n - 1 by omega)]
    by_cases h : j = n - 1
    · rw [if_pos h]
      have e1 : 0 < x (n - 1) - x (n - 2) := sub_pos.2 (hx _ _ (by omega) (by omega) (by omega))
      have e2 : 0 < x (n - 2) - x (n - 3) := sub_pos.2 (hx _ _ (by omega) (by omega) (by omega))
      have e3 : 0 < (x (n - 1) - x (n - 2)) * ((x (n - 1) - x (n - 2)) / (x (n - 2) - x (n - 3))) := by positivity
      have e4 : x (i + 1) ≤ x (n - 1) := by
        by_cases h' : i + 1 = n - 1
        · rw [h']
        · exact (hx _ _ (by omega) (by omega) (by omega)).le
      linarith
    · rw [if_neg h, if_pos (by omega)]
      exact hx _ _ (by omega) (by omega) (by omega)

/-- C50, kind of mesh: a uniform or geometric mesh (each interval `q` times the one before) stays so. -/
theorem C50_ratio_kept (n : ℤ) (hn : 4 ≤ n) (x : ℤ → K) (hx : ∀ i j, 0 ≤ i → i < j → j < n → x i < x j) (q : K)
    (hq : ∀ i, 0 ≤ i → i + 2 < n → x (i + 2) - x (i + 1) = q * (x (i + 1) - x i)) :
    ∃ y, shiftNodes n (View.line n x) = some (View.line n y) ∧ ∀ i, 0 ≤ i → i + 2 < n → y (i + 2) - y (i + 1) = q * (y (i + 1) - y i) := by
  refine ⟨_, shiftNodes_eq n hn x, fun i h0 h1 => ?_⟩
  unfold shiftedNodes
  rw [if_neg (show ¬ i = n - 1 by omega), if_pos (show 0 ≤ i ∧ i < n - 1 by omega), if_neg (show ¬ i + 1 = n - 1 by omega),
    if_pos (show 0 ≤ i + 1 ∧ i + 1 < n - 1 by omega)]
  by_cases h : i + 2 = n - 1
  · rw [if_pos h]
    have e2 : x (n - 2) - x (n - 3) ≠ 0 := (sub_pos.2 (hx _ _ (by omega) (by omega) (by omega))).ne'
    have e := hq (n - 3) (by omega) (by omega)
    rw [show n - 3 + 2 = n - 1 by ring, show n - 3 + 1 = n - 2 by ring] at e
    rw [show i + 1 + 1 = n - 1 by omega, show i + 1 = n - 2 by omega, e]
    field_simp
    ring
  · rw [if_neg h, if_pos (by omega)]
    have e := hq (i + 1) (by omega) (by omega)
    rw [show i + 1 + 2 = i + 2 + 1 by ring, show i + 1 + 1 = i + 2 by ring] at e
    rw [show i + 1 + 1 = i + 2 by ring]
    exact e

end nodes

/-! ## The whole shift -/

section grid
variable [Field K]

/-- `set_grid` on arrays of the right extents, whatever they contain. -/
theorem setGrid_eq (tr : Trig K) (geom : Geom) {nx dims rank : Cell} {ng : ℤ} (hN : ∀ a, 0 ≤ nx a) (hdm : ∀ a, 0 < dims a)
    (hr : inBox 0 dims rank) {topo : GridTopo} (ht : GridTopo.mk? d nx dims rank ng = .ok topo) {l1 : Fin 3 → List ℤ}
    (h1 : ∀ a, IsLineSchedule (l1 a) (topo.nxLocalWg a)) {l l' : List Cell} (hl : IsSchedule l 0 topo.nxLocalWg)
    (hl' : IsSchedule l' 0 topo.nxLocalWg) (X : Fin 3 → ℤ → K) (gx : Fin 3 → View ℤ K) (xc dx : Fin 3 → ℤ → K) (ds : Cell → Fin 3 → K)
    (dv : Cell → K) :
    setGrid tr geom d topo l1 l l' (fun a => View.line (nx a + 2 * topo.nghost a + 1) (X a))
        ⟨gx, fun a => View.line (topo.nxLocalWg a) (xc a), fun a => View.line (topo.nxLocalWg a) (dx a), ⟨inExt topo.nxLocalWg, ds⟩,
          ⟨inExt topo.nxLocalWg, dv⟩⟩ =
      (let x : Fin 3 → ℤ → K := fun a i => X a (topo.range.cornerMin a + i)
       let dx' : Fin 3 → ℤ → K := fun a i => if 0 ≤ i ∧ i < topo.nxLocalWg a then x a (i + 1) - x a i else dx a i
       some ⟨fun a => View.line (topo.nxLocalWg a + 1) (x a),
        fun a => View.line (topo.nxLocalWg a) fun i => if 0 ≤ i ∧ i < topo.nxLocalWg a then (x a i + x a (i + 1)) / 2 else xc a i,
        fun a => View.line (topo.nxLocalWg a) (dx' a),
        ⟨inExt topo.nxLocalWg, fun c => if inExt topo.nxLocalWg c then dsFun tr geom d x dx' (ds c) c else ds c⟩,
        ⟨inExt topo.nxLocalWg, fun c => if inExt topo.nxLocalWg c then dvFun tr geom d x dx' (dv c) c else dv c⟩⟩) := by
  obtain ⟨e1, e2, e3, -, -⟩ := range_box hN hdm hr ht
  have hx : ∀ a, topo.setNodes a (View.line (nx a + 2 * topo.nghost a + 1) (X a)) =
      some (View.line (topo.nxLocalWg a + 1) fun i => X a (topo.range.cornerMin a + i)) := by
    intro a
    have hs := localStart_nonneg (r := rank a) (hN a) (hdm a) (hr a).1
    have he := localStart_add_size_le (r := rank a) (hN a) (hdm a) (hr a).2
    unfold GridTopo.setNodes copySlice
    refine if_pos ?_
    intro i hi
    rw [mem_intRange, e1] at hi
    refine decide_eq_true ?_
    rw [e2, e3]
    simp only [localExt] at hi
    simp only at hi he hs ⊢
    omega
  unfold setGrid
  rw [seqFin_some hx]
  simp only [Option.bind_eq_bind, Option.bind_some]
  rw [seqFin_some (fun a => computeCellSize_eq (h1 a) _ _), seqFin_some (fun a => computeCellCenter_eq (h1 a) _ _)]
  simp only [Option.bind_some]
  rw [fillDs_eq tr geom d hl, fillDv_eq tr geom d hl']
  rfl

/-- What the grid of a rank contains after `set_grid` with the global nodes `X`: coordinates, face areas of the active directions and volumes. -/
structure GridHolds (tr : Trig K) (geom : Geom) (topo : GridTopo) (d : ℕ) (X : Fin 3 → ℤ → K) (g : GridData K) : Prop where
  shape : (∀ a, (g.xc a).dom = (View.line (topo.nxLocalWg a) (0 : ℤ → K)).dom) ∧
    (∀ a, (g.dx a).dom = (View.line (topo.nxLocalWg a) (0 : ℤ → K)).dom) ∧ g.ds.dom = inExt topo.nxLocalWg ∧ g.dv.dom = inExt topo.nxLocalWg
  x : ∀ a i, (g.x a).val i = X a (topo.range.cornerMin a + i)
  xc : ∀ a i, 0 ≤ i → i < topo.nxLocalWg a → (g.xc a).val i = ((g.x a).val i + (g.x a).val (i + 1)) / 2
  dx : ∀ a i, 0 ≤ i → i < topo.nxLocalWg a → (g.dx a).val i = (g.x a).val (i + 1) - (g.x a).val i
  ds : ∀ c, inExt topo.nxLocalWg c = true → g.ds.val c =
    dsFun tr geom d (fun a => (g.x a).val) (fun a i => (g.x a).val (i + 1) - (g.x a).val i) 0 c
  dv : ∀ c, inExt topo.nxLocalWg c = true → g.dv.val c =
    dvFun tr geom d (fun a => (g.x a).val) (fun a i => (g.x a).val (i + 1) - (g.x a).val i) 0 c

theorem dsFun_congr (tr : Trig K) (geom : Geom) (x dx dx' : Fin 3 → ℤ → K) (old old' : Fin 3 → K) (c : Cell)
    (h : ∀ a, dx a (c a) = dx' a (c a)) (ho : old = old') : dsFun tr geom d x dx old c = dsFun tr geom d x dx' old' c := by
  subst ho
  unfold dsFun
  rw [h 0, h 1, h 2]

theorem dvFun_congr (tr : Trig K) (geom : Geom) (x dx dx' : Fin 3 → ℤ → K) (old old' : K) (c : Cell)
    (h : ∀ a, dx a (c a) = dx' a (c a)) (ho : old = old') : dvFun tr geom d x dx old c = dvFun tr geom d x dx' old' c := by
  subst ho
  unfold dvFun
  rw [h 0, h 1, h 2]

theorem dsFun_old (tr : Trig K) (geom : Geom) (x dx x' dx' : Fin 3 → ℤ → K) (c : Cell) :
    dsFun tr geom d x dx (dsFun tr geom d x' dx' 0 c) c = dsFun tr geom d x dx 0 c := by
  unfold dsFun
  cases geom
  · rfl
  · by_cases h1 : d = 1
    · simp [h1]
    · by_cases h2 : d = 2
      · simp [h2]
      · by_cases h3 : d = 3 <;> simp [h1, h2, h3]

theorem dvFun_old (tr : Trig K) (geom : Geom) (x dx x' dx' : Fin 3 → ℤ → K) (c : Cell) :
    dvFun tr geom d x dx (dvFun tr geom d x' dx' 0 c) c = dvFun tr geom d x dx 0 c := by
  unfold dvFun
  cases geom
  · rfl
  · by_cases h1 : d = 1
    · simp [h1]
    · by_cases h2 : d = 2
      · simp [h2]
      · by_cases h3 : d = 3 <;> simp [h1, h2, h3]

/-- `set_grid` on a grid already set (or just allocated). -/
theorem setGrid_holds (tr : Trig K) (geom : Geom) {nx dims rank : Cell} {ng : ℤ} (hN : ∀ a, 0 ≤ nx a) (hdm : ∀ a, 0 < dims a)
    (hr : inBox 0 dims rank) {topo : GridTopo} (ht : GridTopo.mk? d nx dims rank ng = .ok topo) {l1 : Fin 3 → List ℤ}
    (h1 : ∀ a, IsLineSchedule (l1 a) (topo.nxLocalWg a)) {l l' : List Cell} (hl : IsSchedule l 0 topo.nxLocalWg)
    (hl' : IsSchedule l' 0 topo.nxLocalWg) (X : Fin 3 → ℤ → K) (g : GridData K)
    (hg : g = GridData.alloc topo.nxLocalWg ∨ ∃ Y, GridHolds tr geom topo d Y g) :
    ∃ g', setGrid tr geom d topo l1 l l' (fun a => View.line (nx a + 2 * topo.nghost a + 1) (X a)) g = some g' ∧
      GridHolds tr geom topo d X g' := by
  have hshape : (∀ a, (g.xc a).dom = (View.line (topo.nxLocalWg a) (0 : ℤ → K)).dom) ∧
      (∀ a, (g.dx a).dom = (View.line (topo.nxLocalWg a) (0 : ℤ → K)).dom) ∧ g.ds.dom = inExt topo.nxLocalWg ∧
      g.dv.dom = inExt topo.nxLocalWg := by
    rcases hg with rfl | ⟨Y, hY⟩
    · exact ⟨fun a => rfl, fun a => rfl, rfl, rfl⟩
    · exact hY.shape
  have hds : ∀ x dx c, inExt topo.nxLocalWg c = true → dsFun tr geom d x dx (g.ds.val c) c = dsFun tr geom d x dx 0 c := by
    intro x dx c hc
    rcases hg with rfl | ⟨Y, hY⟩
    · rfl
    · rw [hY.ds c hc, dsFun_old]
  have hdv : ∀ x dx c, inExt topo.nxLocalWg c = true → dvFun tr geom d x dx (g.dv.val c) c = dvFun tr geom d x dx 0 c := by
    intro x dx c hc
    rcases hg with rfl | ⟨Y, hY⟩
    · rfl
    · rw [hY.dv c hc, dvFun_old]
  obtain ⟨s1, s2, s3, s4⟩ := hshape
  have hgeq : g = ⟨g.x, fun a => View.line (topo.nxLocalWg a) (g.xc a).val, fun a => View.line (topo.nxLocalWg a) (g.dx a).val,
      ⟨inExt topo.nxLocalWg, g.ds.val⟩, ⟨inExt topo.nxLocalWg, g.dv.val⟩⟩ := by
    obtain ⟨x, xc, dx, ds, dv⟩ := g
    congr 1
    · exact funext fun a => View.ext' (s1 a) rfl
    · exact funext fun a => View.ext' (s2 a) rfl
    · exact View.ext' s3 rfl
    · exact View.ext' s4 rfl
  have hset := setGrid_eq tr geom hN hdm hr ht h1 hl hl' X g.x (fun a => (g.xc a).val) (fun a => (g.dx a).val) g.ds.val g.dv.val
  rw [← hgeq] at hset
  have hcell : ∀ (f : Fin 3 → ℤ → K) (y : Fin 3 → ℤ → K) c, inExt topo.nxLocalWg c = true → ∀ a,
      (fun a i => if 0 ≤ i ∧ i < topo.nxLocalWg a then f a (i + 1) - f a i else y a i) a (c a) = f a (c a + 1) - f a (c a) :=
    fun f y c hc a => if_pos (inExt_iff.1 hc a)
  refine ⟨_, hset, ⟨fun a => rfl, fun a => rfl, rfl, rfl⟩, fun a i => rfl, fun a i h0 h1 => ?_, fun a i h0 h1 => ?_, fun c hc => ?_, fun c hc => ?_⟩
  · exact if_pos ⟨h0, h1⟩
  · exact if_pos ⟨h0, h1⟩
  · refine (if_pos hc).trans ?_
    rw [hds _ _ c hc]
    exact dsFun_congr tr geom _ _ _ _ _ c (fun a => hcell (fun a i => X a (topo.range.cornerMin a + i)) (fun a => (g.dx a).val) c hc a) rfl
  · refine (if_pos hc).trans ?_
    rw [hdv _ _ c hc]
    exact dvFun_congr tr geom _ _ _ _ _ c (fun a => hcell (fun a i => X a (topo.range.cornerMin a + i)) (fun a => (g.dx a).val) c hc a) rfl

theorem dsFun_shift (tr : Trig K) (geom : Geom) (x y : Fin 3 → ℤ → K) (c : Cell) (h0 : y 0 (c 0) = x 0 (c 0 + 1))
    (h0' : y 0 (c 0 + 1) = x 0 (c 0 + 2)) (h1 : y 1 = x 1) (h2 : y 2 = x 2) :
    dsFun tr geom d y (fun a i => y a (i + 1) - y a i) 0 c = dsFun tr geom d x (fun a i => x a (i + 1) - x a i) 0 (nextCell c) := by
  have e : (2 : ℤ) = 1 + 1 := rfl
  unfold dsFun nextCell
  simp only [h0, h0', h1, h2, Matrix.cons_val_zero, Matrix.cons_val_one, Matrix.cons_val_two, Matrix.head_cons, Matrix.tail_cons,
    e, ← add_assoc, Matrix.cons_val]

theorem dvFun_shift (tr : Trig K) (geom : Geom) (x y : Fin 3 → ℤ → K) (c : Cell) (h0 : y 0 (c 0) = x 0 (c 0 + 1))
    (h0' : y 0 (c 0 + 1) = x 0 (c 0 + 2)) (h1 : y 1 = x 1) (h2 : y 2 = x 2) :
    dvFun tr geom d y (fun a i => y a (i + 1) - y a i) 0 c = dvFun tr geom d x (fun a i => x a (i + 1) - x a i) 0 (nextCell c) := by
  have e : (2 : ℤ) = 1 + 1 := rfl
  unfold dvFun nextCell
  simp only [h0, h0', h1, h2, Matrix.cons_val_zero, Matrix.cons_val_one, Matrix.cons_val_two, Matrix.head_cons, Matrix.tail_cons,
    e, ← add_assoc, Matrix.cons_val]

/-- C50: the whole shift on a rank. It stays in bounds; every cell of the rank but those of the last plane has, after the shift, the value, the
bounds, the centre, the size, the face areas and the volume that the next cell along the first direction had before: the value sits at the same
physical position. In the other directions the coordinates are unchanged. -/
theorem C50_shift (tr : Trig K) (geom : Geom) {nx dims rank : Cell} {ng : ℤ} (hN : ∀ a, 0 ≤ nx a) (hdm : ∀ a, 0 < dims a)
    (hr : inBox 0 dims rank) {topo : GridTopo} (ht : GridTopo.mk? d nx dims rank ng = .ok topo)
    (hn : 4 ≤ nx 0 + 2 * topo.nghost 0 + 1) {lc : List Cell} {l1 : Fin 3 → List ℤ} {l l' : List Cell}
    (hlc : IsSchedule lc 0 ![topo.nxLocalWg 0 - 1, topo.nxLocalWg 1, topo.nxLocalWg 2])
    (h1 : ∀ a, IsLineSchedule (l1 a) (topo.nxLocalWg a)) (hl : IsSchedule l 0 topo.nxLocalWg) (hl' : IsSchedule l' 0 topo.nxLocalWg)
    (X : Fin 3 → ℤ → K) (f h : Cell → V) (g : GridData K) (hg : GridHolds tr geom topo d X g) :
    ∃ w Y g', shiftGrid tr geom d topo lc l1 l l' ⟨inExt topo.nxLocalWg, f⟩ ⟨inExt topo.nxLocalWg, h⟩ (nx 0 + 2 * topo.nghost 0 + 1)
        (fun a => View.line (nx a + 2 * topo.nghost a + 1) (X a)) g =
          some (w, fun a => View.line (nx a + 2 * topo.nghost a + 1) (Y a), g') ∧ GridHolds tr geom topo d Y g' ∧
      (∀ a, a ≠ 0 → Y a = X a) ∧ (∀ i, 0 ≤ i → i < nx 0 + 2 * topo.nghost 0 → Y 0 i = X 0 (i + 1)) ∧
      (∀ c, inExt topo.nxLocalWg c = true → c 0 + 1 < topo.nxLocalWg 0 →
        w.val c = f (nextCell c) ∧ (∀ a, (g'.x a).val (c a) = (g.x a).val (nextCell c a) ∧
          (g'.x a).val (c a + 1) = (g.x a).val (nextCell c a + 1) ∧ (g'.xc a).val (c a) = (g.xc a).val (nextCell c a) ∧
          (g'.dx a).val (c a) = (g.dx a).val (nextCell c a)) ∧
        g'.ds.val c = g.ds.val (nextCell c) ∧ g'.dv.val c = g.dv.val (nextCell c)) := by
  obtain ⟨w, w1, _, w3, _⟩ := C50_fields hlc f h
  obtain ⟨e1, e2, e3, -, -⟩ := range_box hN hdm hr ht
  have hY : ∃ Y : Fin 3 → ℤ → K, (∀ a, a ≠ 0 → Y a = X a) ∧ Y 0 = shiftedNodes (nx 0 + 2 * topo.nghost 0 + 1) (X 0) :=
    ⟨fun a => if a = 0 then shiftedNodes (nx 0 + 2 * topo.nghost 0 + 1) (X 0) else X a, fun a ha => if_neg ha, if_pos rfl⟩
  obtain ⟨Y, y1, y2⟩ := hY
  obtain ⟨g', s1, s2⟩ := setGrid_holds tr geom hN hdm hr ht h1 hl hl' Y g (Or.inr ⟨X, hg⟩)
  have hy0 : ∀ i, 0 ≤ i → i < nx 0 + 2 * topo.nghost 0 → Y 0 i = X 0 (i + 1) := by
    intro i h0 h1
    rw [y2]
    unfold shiftedNodes
    rw [if_neg (by omega), if_pos (by omega)]
  have hviews : (fun a => if a = (0 : Fin 3) then View.line (nx 0 + 2 * topo.nghost 0 + 1) (Y 0) else
      View.line (nx a + 2 * topo.nghost a + 1) (X a)) = fun a => View.line (nx a + 2 * topo.nghost a + 1) (Y a) := by
    funext a
    by_cases ha : a = 0
    · subst ha
      exact if_pos rfl
    · rw [if_neg ha, y1 a ha]
  refine ⟨w, Y, g', ?_, s2, y1, hy0, fun c hc h0 => ?_⟩
  · unfold shiftGrid
    rw [w1]
    simp only [Option.bind_eq_bind, Option.bind_some]
    rw [shiftNodes_eq _ hn, ← y2]
    simp only [Option.bind_some]
    rw [hviews, s1]
    rfl
  · have hi := inExt_iff.1 hc
    have hs := localStart_nonneg (r := rank 0) (hN 0) (hdm 0) (hr 0).1
    have he := localStart_add_size_le (r := rank 0) (hN 0) (hdm 0) (hr 0).2
    have hw : topo.nxLocalWg 0 = localSize (nx 0) (dims 0) (rank 0) + 2 * topo.nghost 0 := by rw [e1, e3]; rfl
    have hcm : topo.range.cornerMin 0 = localStart (nx 0) (dims 0) (rank 0) := by rw [e2]
    have i0 := hi 0
    have x0 : (g'.x 0).val (c 0) = (g.x 0).val (c 0 + 1) := by
      rw [s2.x, hg.x, hy0 _ (by omega) (by omega), add_assoc]
    have x1 : (g'.x 0).val (c 0 + 1) = (g.x 0).val (c 0 + 2) := by
      rw [s2.x, hg.x, hy0 _ (by omega) (by omega)]
      congr 1
      ring
    have xa : ∀ a, a ≠ 0 → (g'.x a).val = (g.x a).val := by
      intro a ha
      funext i
      rw [s2.x, hg.x, y1 a ha]
    have hin : inExt topo.nxLocalWg (nextCell c) = true := by
      have i1 := hi 1
      have i2 := hi 2
      refine inExt_iff.2 fun a => ?_
      fin_cases a <;> simp [nextCell] <;> omega
    have hni := inExt_iff.1 hin
    have hxx : ∀ a, (g'.x a).val (c a) = (g.x a).val (nextCell c a) ∧ (g'.x a).val (c a + 1) = (g.x a).val (nextCell c a + 1) := by
      intro a
      by_cases ha : a = 0
      · subst ha
        exact ⟨x0, x1.trans (by rw [show nextCell c 0 = c 0 + 1 from rfl, add_assoc]; rfl)⟩
      · have : nextCell c a = c a := by
          fin_cases a
          · exact absurd rfl ha
          · rfl
          · rfl
        rw [xa a ha, this]
        exact ⟨rfl, rfl⟩
    refine ⟨w3 c hc h0, fun a => ⟨(hxx a).1, (hxx a).2, ?_, ?_⟩, ?_, ?_⟩
    · rw [s2.xc a _ (hi a).1 (hi a).2, hg.xc a _ (hni a).1 (hni a).2, (hxx a).1, (hxx a).2]
    · rw [s2.dx a _ (hi a).1 (hi a).2, hg.dx a _ (hni a).1 (hni a).2, (hxx a).1, (hxx a).2]
    · rw [s2.ds c hc, hg.ds _ hin]
      exact dsFun_shift tr geom _ _ c x0 x1 (xa 1 (by decide)) (xa 2 (by decide))
    · rw [s2.dv c hc, hg.dv _ hin]
      exact dvFun_shift tr geom _ _ c x0 x1 (xa 1 (by decide)) (xa 2 (by decide))

end grid

/-- A geometric mesh of five nodes with ratio 2. -/
example : ∃ y, shiftNodes 5 (View.line 5 fun i : ℤ => (2 : ℚ) ^ i.toNat) = some (View.line 5 y) ∧ y 4 = 32 ∧ y 0 = 2 := by
  refine ⟨_, shiftNodes_eq 5 (by norm_num) _, ?_, ?_⟩ <;> simp [shiftedNodes] <;> norm_num

/-- The hypotheses of `C50_shift` hold for a two-dimensional grid of 4 x 3 cells in one rank, just set. -/
example : ∃ (topo : GridTopo) (g : GridData ℚ), GridTopo.mk? 2 ![4, 3, 1] ![1, 1, 1] 0 2 = .ok topo ∧
    4 ≤ (![4, 3, 1] : Cell) 0 + 2 * topo.nghost 0 + 1 ∧
    GridHolds ⟨fun x => x, fun x => 1 - x, 3⟩ .spherical topo 2 (fun _ i => (i : ℚ) + 1) g := by
  obtain ⟨topo, ht, e1, e2, e3, e4, e5, -⟩ := GridTopo.mk?_ok (ndim := 2) (nx := ![4, 3, 1]) (dims := ![1, 1, 1]) (rank := 0) (ng := 2)
    (by decide) (by decide) (by decide)
  have hn : topo.nghost 0 = 2 := by rw [e4]; rfl
  obtain ⟨g, -, hg⟩ := setGrid_holds (d := 2) ⟨fun x => x, fun x => 1 - x, 3⟩ .spherical (nx := ![4, 3, 1]) (dims := ![1, 1, 1]) (rank := 0)
    (ng := 2) (by decide) (by decide) (by decide) ht (l1 := fun a => intRange 0 (topo.nxLocalWg a))
    (fun a => ⟨intRange_nodup _ _, fun i => mem_intRange⟩) (boxList_isSchedule _ _) (boxList_isSchedule _ _) (fun _ i => (i : ℚ) + 1)
    (GridData.alloc topo.nxLocalWg) (Or.inl rfl)
  refine ⟨topo, g, ht, ?_, hg⟩
  rw [hn]
  decide

end Heracles

import Verif.Lemmas.Scheme

/-!
# The grid arrays as functions of the node coordinates
-/

namespace Heracles

variable {d n : ℕ} {K : Type} [Field K]

/-- Pure version of `dsCell`. -/
def dsFun (tr : Trig K) (geom : Geom) (d : ℕ) (x dx : Fin 3 → ℤ → K) (old : Fin 3 → K) (c : Cell) : Fin 3 → K :=
  match geom with
  | .cartesian => fun idim =>
    (if idim = 0 then 1 else dx 0 (c 0)) * (if idim = 1 then 1 else dx 1 (c 1)) * (if idim = 2 then 1 else dx 2 (c 2))
  | .spherical =>
    let r := x 0 (c 0)
    let rp := x 0 (c 0 + 1)
    let t := x 1 (c 1)
    let tp := x 1 (c 1 + 1)
    let dcos := tr.cos t - tr.cos tp
    if d = 1 then ![4 * tr.pi * r * r, old 1, old 2]
    else if d = 2 then ![2 * tr.pi * r * r * dcos, 2 * tr.pi / 2 * (rp * rp - r * r) * tr.sin t, old 2]
    else if d = 3 then ![r * r * dcos * dx 2 (c 2), 1 / 2 * (rp * rp - r * r) * tr.sin t * dx 2 (c 2),
      r * dx 0 (c 0) * dx 1 (c 1)]
    else old

/-- Pure version of `dvCell`. -/
def dvFun (tr : Trig K) (geom : Geom) (d : ℕ) (x dx : Fin 3 → ℤ → K) (old : K) (c : Cell) : K :=
  match geom with
  | .cartesian => dx 0 (c 0) * dx 1 (c 1) * dx 2 (c 2)
  | .spherical =>
    let r := x 0 (c 0)
    let rp := x 0 (c 0 + 1)
    let t := x 1 (c 1)
    let tp := x 1 (c 1 + 1)
    if d = 1 then 4 * tr.pi * (rp * rp * rp - r * r * r) / 3
    else if d = 2 then 2 * tr.pi / 3 * (rp * rp * rp - r * r * r) * (tr.cos t - tr.cos tp)
    else if d = 3 then 1 / 3 * (rp * rp * rp - r * r * r) * (tr.cos t - tr.cos tp) * dx 2 (c 2)
    else old

theorem dsCell_eq (tr : Trig K) (geom : Geom) (d : ℕ) (ext : Cell) (x dx : Fin 3 → ℤ → K) (old : Fin 3 → K) (c : Cell)
    (hc : inExt ext c = true) :
    dsCell tr geom d (fun a => View.line (ext a + 1) (x a)) (fun a => View.line (ext a) (dx a)) old c =
      some (dsFun tr geom d x dx old c) := by
  have h := inExt_iff.1 hc
  have h0 := h 0
  have h1 := h 1
  have h2 := h 2
  unfold dsCell dsFun
  cases geom
  · simp only [line_rd h0.1 h0.2, line_rd h1.1 h1.2, line_rd h2.1 h2.2, Option.bind_eq_bind, Option.bind_some]
    rfl
  · simp only [line_rd h0.1 h0.2, line_rd h1.1 h1.2, line_rd h2.1 h2.2,
      line_rd h0.1 (show c 0 < ext 0 + 1 by omega), line_rd h1.1 (show c 1 < ext 1 + 1 by omega),
      line_rd (show 0 ≤ c 0 + 1 by omega) (show c 0 + 1 < ext 0 + 1 by omega),
      line_rd (show 0 ≤ c 1 + 1 by omega) (show c 1 + 1 < ext 1 + 1 by omega), Option.bind_eq_bind, Option.bind_some]
    split
    · rfl
    · split
      · rfl
      · split <;> rfl

theorem dvCell_eq (tr : Trig K) (geom : Geom) (d : ℕ) (ext : Cell) (x dx : Fin 3 → ℤ → K) (old : K) (c : Cell)
    (hc : inExt ext c = true) :
    dvCell tr geom d (fun a => View.line (ext a + 1) (x a)) (fun a => View.line (ext a) (dx a)) old c =
      some (dvFun tr geom d x dx old c) := by
  have h := inExt_iff.1 hc
  have h0 := h 0
  have h1 := h 1
  have h2 := h 2
  unfold dvCell dvFun
  cases geom
  · simp only [line_rd h0.1 h0.2, line_rd h1.1 h1.2, line_rd h2.1 h2.2, Option.bind_eq_bind, Option.bind_some]
    rfl
  · simp only [line_rd h2.1 h2.2,
      line_rd h0.1 (show c 0 < ext 0 + 1 by omega), line_rd h1.1 (show c 1 < ext 1 + 1 by omega),
      line_rd (show 0 ≤ c 0 + 1 by omega) (show c 0 + 1 < ext 0 + 1 by omega),
      line_rd (show 0 ≤ c 1 + 1 by omega) (show c 1 + 1 < ext 1 + 1 by omega), Option.bind_eq_bind, Option.bind_some]
    split
    · rfl
    · split
      · rfl
      · split <;> rfl

/-- The measures stored in the arrays are those computed from the nodes. -/
structure GeoOf (tr : Trig K) (geom : Geom) (ext : Cell) (p : PGrid d K) : Prop where
  dx : ∀ a i, 0 ≤ i → i < ext a → p.dx a i = p.x a (i + 1) - p.x a i
  ds : ∀ c, inExt ext c = true → p.ds c = dsFun tr geom d p.x p.dx 0 c
  dv : ∀ c, inExt ext c = true → p.dv c = dvFun tr geom d p.x p.dx 0 c

/-- One possible order of a loop over `[0, n)`. -/
def IsLineSchedule (l : List ℤ) (n : ℤ) : Prop := l.Nodup ∧ ∀ i, i ∈ l ↔ 0 ≤ i ∧ i < n

theorem computeCellSize_eq {l : List ℤ} {m : ℤ} (hl : IsLineSchedule l m) (x old : ℤ → K) :
    computeCellSize l (View.line (m + 1) x) (View.line m old) =
      some (View.line m fun i => if 0 ≤ i ∧ i < m then x (i + 1) - x i else old i) := by
  unfold computeCellSize
  rw [parFor_update l hl.1 _ _ (fun i => x (i + 1) - x i) ?_]
  · congr 1
    refine View.ext' rfl (funext fun i => ?_)
    simp only [hl.2, View.line]
  · intro i hi w hw _
    have h := (hl.2 i).1 hi
    unfold cellSize
    rw [line_rd (by omega) (by omega), line_rd h.1 (by omega)]
    simp only [Option.bind_eq_bind, Option.bind_some]
    exact View.wr_of_dom (by rw [hw]; exact decide_eq_true h)

theorem computeCellCenter_eq {l : List ℤ} {m : ℤ} (hl : IsLineSchedule l m) (x old : ℤ → K) :
    computeCellCenter l (View.line (m + 1) x) (View.line m old) =
      some (View.line m fun i => if 0 ≤ i ∧ i < m then (x i + x (i + 1)) / 2 else old i) := by
  unfold computeCellCenter
  rw [parFor_update l hl.1 _ _ (fun i => (x i + x (i + 1)) / 2) ?_]
  · congr 1
    refine View.ext' rfl (funext fun i => ?_)
    simp only [hl.2, View.line]
  · intro i hi w hw _
    have h := (hl.2 i).1 hi
    unfold cellCenter
    rw [line_rd h.1 (by omega), line_rd (by omega) (by omega)]
    simp only [Option.bind_eq_bind, Option.bind_some]
    exact View.wr_of_dom (by rw [hw]; exact decide_eq_true h)

theorem fillDs_eq (tr : Trig K) (geom : Geom) (d : ℕ) {l : List Cell} {ext : Cell} (hl : IsSchedule l 0 ext)
    (x dx : Fin 3 → ℤ → K) (old : Cell → Fin 3 → K) :
    fillDs tr geom d (fun a => View.line (ext a + 1) (x a)) (fun a => View.line (ext a) (dx a)) l ⟨inExt ext, old⟩ =
      some ⟨inExt ext, fun c => if inExt ext c then dsFun tr geom d x dx (old c) c else old c⟩ := by
  unfold fillDs
  rw [parFor_update l hl.1 _ _ (fun c => dsFun tr geom d x dx (old c) c) ?_]
  · congr 1
    refine View.ext' rfl (funext fun c => ?_)
    have : (c ∈ l) = (inExt ext c = true) := propext ((hl.2 c).trans inExt_iff.symm)
    simp only [this]
  · intro c hc w hw hv
    have h : inExt ext c = true := inExt_iff.2 ((hl.2 c).1 hc)
    have hdom : w.dom c = true := by rw [hw]; exact h
    rw [View.rd_of_dom hdom, hv c (Or.inr rfl)]
    simp only [Option.bind_eq_bind, Option.bind_some]
    rw [dsCell_eq tr geom d ext x dx _ c h]
    exact View.wr_of_dom hdom

theorem fillDv_eq (tr : Trig K) (geom : Geom) (d : ℕ) {l : List Cell} {ext : Cell} (hl : IsSchedule l 0 ext)
    (x dx : Fin 3 → ℤ → K) (old : Cell → K) :
    fillDv tr geom d (fun a => View.line (ext a + 1) (x a)) (fun a => View.line (ext a) (dx a)) l ⟨inExt ext, old⟩ =
      some ⟨inExt ext, fun c => if inExt ext c then dvFun tr geom d x dx (old c) c else old c⟩ := by
  unfold fillDv
  rw [parFor_update l hl.1 _ _ (fun c => dvFun tr geom d x dx (old c) c) ?_]
  · congr 1
    refine View.ext' rfl (funext fun c => ?_)
    have : (c ∈ l) = (inExt ext c = true) := propext ((hl.2 c).trans inExt_iff.symm)
    simp only [this]
  · intro c hc w hw hv
    have h : inExt ext c = true := inExt_iff.2 ((hl.2 c).1 hc)
    have hdom : w.dom c = true := by rw [hw]; exact h
    rw [View.rd_of_dom hdom, hv c (Or.inr rfl)]
    simp only [Option.bind_eq_bind, Option.bind_some]
    rw [dvCell_eq tr geom d ext x dx _ c h]
    exact View.wr_of_dom hdom

/-- Boxes of the ranges of a grid, relative to the local extents. -/
theorem range_box {nx dims rank : Cell} {ng : ℤ} (hN : ∀ a, 0 ≤ nx a) (hdm : ∀ a, 0 < dims a) (hr : inBox 0 dims rank)
    {topo : GridTopo} (ht : GridTopo.mk? d nx dims rank ng = .ok topo) :
    topo.nxLocalWg = localExt nx dims (nghostOf d ng) rank ∧
    topo.range.cornerMin = (fun a => localStart (nx a) (dims a) (rank a)) ∧ topo.nghost = nghostOf d ng ∧
    topo.range.ng = ng ∧
    ∀ m r, topo.range.withGhosts m = .ok r → r.cellBegin d = nghostOf d (ng - m) ∧
      r.cellEnd d = fun a => topo.nxLocalWg a - nghostOf d (ng - m) a := by
  obtain ⟨t', ht', e1, e2, e3, e4, e5, e6, e7, e8, e9, e10, e11, e12, e13⟩ :=
    GridTopo.mk?_ok (ndim := d) (ng := ng) hN hdm (fun a => (hr a).1)
  rw [ht] at ht'
  cases ht'
  refine ⟨by rw [e5]; rfl, e1, by rw [e4]; rfl, e11, fun m r hm => ?_⟩
  unfold Range.withGhosts at hm
  split at hm
  · cases hm
  · cases hm
    constructor
    · funext a
      simp only [Range.cellBegin, e13, nghostOf]
      split <;> rfl
    · funext a
      simp only [Range.cellEnd, e13, nghostOf, e1, e2, e5]
      split <;> omega

/-- `set_grid` succeeds, and its arrays are given by the nodes. -/
theorem setGrid_spec (tr : Trig K) (geom : Geom) {nx dims rank : Cell} {ng : ℤ} (hN : ∀ a, 0 ≤ nx a)
    (hdm : ∀ a, 0 < dims a) (hr : inBox 0 dims rank) {topo : GridTopo} (ht : GridTopo.mk? d nx dims rank ng = .ok topo)
    {l1 : Fin 3 → List ℤ} (h1 : ∀ a, IsLineSchedule (l1 a) (topo.nxLocalWg a)) {r : Range}
    (hrg : topo.range.allGhosts = .ok r) {l l' : List Cell} (hl : IsSchedule l (r.cellBegin d) (r.cellEnd d))
    (hl' : IsSchedule l' (r.cellBegin d) (r.cellEnd d)) (X : Fin 3 → ℤ → K) :
    ∃ g, setGrid tr geom d topo l1 l l' (fun a => View.line (nx a + 2 * topo.nghost a + 1) (X a))
        (GridData.alloc topo.nxLocalWg) = some g ∧
      (∀ a, g.xc a = View.line (topo.nxLocalWg a) fun i => if 0 ≤ i ∧ i < topo.nxLocalWg a then
        (X a (topo.range.cornerMin a + i) + X a (topo.range.cornerMin a + (i + 1))) / 2 else 0) ∧
      ∀ (G : Cell → Fin d → K) (grav : GravField d K),
        (∀ c, inExt topo.nxLocalWg c = true → ∀ a, grav c a = some (G c a)) →
        ∃ p : PGrid d K, g.Fits grav topo.nxLocalWg p ∧ GeoOf tr geom topo.nxLocalWg p ∧ p.grav = G ∧
          ∀ a i, p.x a i = X a (topo.range.cornerMin a + i) := by
  obtain ⟨e1, e2, e3, e4, e5⟩ := range_box hN hdm hr ht
  obtain ⟨f1, f2⟩ := e5 ng r (by rw [← hrg, Range.allGhosts, e4])
  have fb : r.cellBegin d = 0 := by rw [f1]; funext a; simp [nghostOf]
  have fe : r.cellEnd d = topo.nxLocalWg := by rw [f2]; funext a; simp [nghostOf]
  rw [fb, fe] at hl hl'
  have hx : ∀ a, topo.setNodes a (View.line (nx a + 2 * topo.nghost a + 1) (X a)) =
      some (View.line (topo.nxLocalWg a + 1) fun i => X a (topo.range.cornerMin a + i)) := by
    intro a
    have hs := localStart_nonneg (r := rank a) (hN a) (hdm a) (hr a).1
    have he := localStart_add_size_le (r := rank a) (hN a) (hdm a) (hr a).2
    unfold GridTopo.setNodes copySlice
    refine if_pos ?_
    intro i hi
    rw [mem_intRange, e1] at hi
    refine decide_eq_true ?_
    rw [e2, e3]
    simp only [localExt] at hi
    simp only at hi he hs ⊢
    omega
  unfold setGrid
  rw [seqFin_some hx]
  simp only [Option.bind_eq_bind, Option.bind_some, GridData.alloc]
  rw [seqFin_some (fun a => computeCellSize_eq (h1 a) _ _), seqFin_some (fun a => computeCellCenter_eq (h1 a) _ _)]
  simp only [Option.bind_some]
  rw [fillDs_eq tr geom d hl, fillDv_eq tr geom d hl']
  simp only [Option.bind_some]
  refine ⟨_, rfl, fun a => rfl, fun G grav hG => ?_⟩
  refine ⟨⟨_, _, _, _, G⟩, ⟨fun a => rfl, fun a => rfl, rfl, rfl, hG⟩, ⟨?_, ?_, ?_⟩, rfl, fun a i => rfl⟩
  · intro a i h0 h1
    exact if_pos ⟨h0, h1⟩
  · intro c hc
    exact if_pos hc
  · intro c hc
    exact if_pos hc

end Heracles

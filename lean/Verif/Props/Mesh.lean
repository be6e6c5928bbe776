import Verif.Lemmas.Mesh
import Mathlib.Tactic.FieldSimp
import Mathlib.Tactic.NormNum
import Mathlib.Tactic.Positivity
import Mathlib.Algebra.Order.Field.Basic
import Mathlib.Algebra.Order.Field.Rat

/-!
# Properties of the decomposition, ranges and mesh (C01, C02, C03, C12, C13, C38, C48)
-/

namespace Heracles

/-! ## C01 Domain decomposition is an exact balanced tiling -/

/-- C01, one direction: intervals start at 0, end at `N`, follow each other in rank order, and their
lengths are non-negative and differ by at most one. -/
theorem C01_consecutive_balanced (N d : ℤ) (hN : 0 ≤ N) (hd : 0 < d) :
    localStart N d 0 = 0 ∧
    localStart N d (d - 1) + localSize N d (d - 1) = N ∧
    (∀ r, 0 ≤ r → r < d - 1 → localStart N d (r + 1) = localStart N d r + localSize N d r) ∧
    (∀ r, 0 ≤ r → r < d → 0 ≤ localSize N d r) ∧
    (∀ r s, 0 ≤ r → r ≤ s → s < d →
      localSize N d s ≤ localSize N d r ∧ localSize N d r ≤ localSize N d s + 1) := by
  refine ⟨localStart_zero hN hd, ?_, fun r _ _ => localStart_succ hN hd,
    fun r _ _ => localSize_nonneg hN hd, fun r s h1 h2 h3 => ?_⟩
  · rw [← localStart_succ hN hd, sub_add_cancel, localStart_top hN hd]
  · rw [localSize_eq hN hd, localSize_eq hN hd]
    split <;> split <;> omega

example : (0 : ℤ) ≤ 10 ∧ (0 : ℤ) < 4 ∧ localSize 10 4 1 = 3 ∧ localStart 10 4 3 = 8 := by decide

/-- C01, full 3D statement on what the grid of each rank reports: construction succeeds on every
rank, and every global cell lies in the corner box of exactly one rank. -/
theorem C01_unique_owner (ndim : ℕ) (nx dims : Cell) (ng : ℤ)
    (hN : ∀ a, 0 ≤ nx a) (hd : ∀ a, 0 < dims a) :
    (∀ rank, inBox 0 dims rank → ∃ g, GridTopo.mk? ndim nx dims rank ng = .ok g) ∧
    (∀ c, inBox 0 nx c → ∃! rank, inBox 0 dims rank ∧
      ∃ g, GridTopo.mk? ndim nx dims rank ng = .ok g ∧ inBox g.range.cornerMin g.range.cornerMax c) ∧
    (∀ rank, inBox 0 dims rank → ∀ g, GridTopo.mk? ndim nx dims rank ng = .ok g →
      (∀ a, g.range.cornerMax a - g.range.cornerMin a = g.nxLocal a) ∧
      ∀ c, inBox g.range.cornerMin g.range.cornerMax c → inBox 0 nx c) := by
  refine ⟨fun rank hr => ?_, fun c hc => ?_, fun rank hr g hg => ?_⟩
  · obtain ⟨g, hg, _⟩ := GridTopo.mk?_ok (ndim := ndim) (ng := ng) hN hd (fun a => (hr a).1)
    exact ⟨g, hg⟩
  · have hex : ∀ a, ∃ r : ℤ, 0 ≤ r ∧ r < dims a ∧ localStart (nx a) (dims a) r ≤ c a ∧
        c a < localStart (nx a) (dims a) r + localSize (nx a) (dims a) r :=
      fun a => exists_owner (hN a) (hd a) (hc a).1 (hc a).2
    choose rank h1 h2 h3 h4 using hex
    refine ⟨rank, ⟨fun a => ⟨h1 a, h2 a⟩, ?_⟩, ?_⟩
    · obtain ⟨g, hg, e1, e2, _⟩ := GridTopo.mk?_ok (ndim := ndim) (ng := ng) hN hd h1
      refine ⟨g, hg, fun a => ?_⟩
      rw [e1, e2]
      exact ⟨h3 a, h4 a⟩
    · rintro rank' ⟨hr', g', hg', hc'⟩
      obtain ⟨g, hg, e1, e2, _⟩ := GridTopo.mk?_ok (ndim := ndim) (ng := ng) hN hd (fun a => (hr' a).1)
      rw [hg] at hg'
      cases hg'
      funext a
      have := hc' a
      rw [e1, e2] at this
      exact owner_unique (hN a) (hd a) this ⟨h3 a, h4 a⟩
  · obtain ⟨g', hg', e1, e2, e3, _⟩ := GridTopo.mk?_ok (ndim := ndim) (ng := ng) hN hd (fun a => (hr a).1)
    rw [hg] at hg'
    cases hg'
    refine ⟨fun a => by rw [e1, e2, e3]; simp, fun c hc a => ?_⟩
    have h1 := hc a
    rw [e1, e2] at h1
    have h2 := localStart_add_size_le (r := rank a) (hN a) (hd a) (hr a).2
    have h3 := localStart_nonneg (r := rank a) (hN a) (hd a) (hr a).1
    simp only at h1
    exact ⟨by simpa using h3.trans h1.1, lt_of_lt_of_le h1.2 h2⟩

example : (∀ a, 0 ≤ (![10, 7, 1] : Cell) a) ∧ (∀ a, 0 < (![4, 3, 1] : Cell) a) ∧
    inBox 0 ![10, 7, 1] ![9, 6, 0] := by decide

/-- C01, error branch: a negative global size is rejected on every rank. -/
theorem C01_negative_size_rejected (ndim : ℕ) (nx dims rank : Cell) (ng : ℤ)
    (hd : ∀ a, 0 < dims a) (hr : ∀ a, 0 ≤ rank a) (a : Fin 3) (ha : nx a < 0) :
    ∃ e, GridTopo.mk? ndim nx dims rank ng = .error e := by
  obtain ⟨e, he⟩ := Range.mk?_error (ndim := ndim) (ng := ng)
    (cmin := fun a => localStart (nx a) (dims a) (rank a))
    (cmax := fun a => localStart (nx a) (dims a) (rank a) + localSize (nx a) (dims a) (rank a)) (by
      intro h
      have h1 := h a
      simp only [localStart, localSize] at h1
      have hq : (nx a).tdiv (dims a) ≤ 0 := by
        have := Int.tdiv_nonneg (a := -(nx a)) (b := dims a) (by omega) (hd a).le
        rw [Int.neg_tdiv] at this
        omega
      have hm : (nx a).tmod (dims a) ≤ 0 := by
        have := Int.tmod_nonneg (a := -(nx a)) (dims a) (by omega)
        rw [Int.neg_tmod] at this
        omega
      have hdm := Int.mul_tdiv_add_tmod (nx a) (dims a)
      have hra := hr a
      have hqr : (nx a).tdiv (dims a) * rank a ≤ 0 := mul_nonpos_of_nonpos_of_nonneg hq hra
      rw [if_neg (by omega), if_neg (by omega)] at h1
      have hq0 : (nx a).tdiv (dims a) = 0 := by omega
      have hm0 : (nx a).tmod (dims a) = 0 := by omega
      rw [hq0, hm0] at hdm
      simp at hdm
      omega)
  unfold GridTopo.mk?
  simp only [he]
  exact ⟨e, rfl⟩

example : (∀ a, 0 < (![2, 1, 1] : Cell) a) ∧ (∀ a, 0 ≤ (![1, 0, 0] : Cell) a) ∧
    (![-3, 1, 1] : Cell) 0 < 0 := by decide

/-! ## C02 Border flags -/

/-- C02: when every rank owns at least one cell (`dims ≤ nx`), the left (right) border flag is set
exactly on the ranks whose cells start at the beginning (end at the end) of the domain. -/
theorem C02_border_iff (ndim : ℕ) (nx dims rank : Cell) (ng : ℤ) (hd : ∀ a, 0 < dims a)
    (hne : ∀ a, dims a ≤ nx a) (hr : inBox 0 dims rank) (g : GridTopo)
    (hg : GridTopo.mk? ndim nx dims rank ng = .ok g) (a : Fin 3) :
    (g.isBorder a 0 = true ↔ g.range.cornerMin a = 0) ∧
    (g.isBorder a 1 = true ↔ g.range.cornerMax a = nx a) := by
  have hN : ∀ a, 0 ≤ nx a := fun a => (hd a).le.trans (hne a)
  obtain ⟨g', hg', e1, e2, e3, e4, e5, e6, _⟩ :=
    GridTopo.mk?_ok (ndim := ndim) (ng := ng) hN hd (fun a => (hr a).1)
  rw [hg] at hg'
  cases hg'
  have hq : 1 ≤ nx a / dims a := by
    rw [Int.le_ediv_iff_mul_le (hd a)]; simpa using hne a
  have hpos : ∀ r, 0 < localSize (nx a) (dims a) r := by
    intro r; rw [localSize_eq (hN a) (hd a)]; split <;> omega
  have h0 := (hr a).1
  have h1 := (hr a).2
  simp only [Pi.zero_apply] at h0
  rw [e6, e1, e2]
  refine ⟨?_, ?_⟩
  · simp only [if_true, decide_eq_true_eq]
    constructor
    · intro h; rw [h, localStart_zero (hN a) (hd a)]
    · intro h
      by_contra hne'
      have h2 := localStart_mono (N := nx a) (d := dims a) (r := 0 + 1) (s := rank a) (hN a) (hd a) (by omega)
      rw [localStart_succ (hN a) (hd a), localStart_zero (hN a) (hd a)] at h2
      have := hpos 0
      omega
  · simp only [Fin.one_eq_zero_iff]
    rw [← localStart_succ (hN a) (hd a)]
    constructor
    · intro h
      have : rank a = dims a - 1 := by simpa using h
      rw [this, sub_add_cancel, localStart_top (hN a) (hd a)]
    · intro h
      simp
      by_contra hne'
      have h2 := localStart_mono (N := nx a) (d := dims a) (r := rank a + 1 + 1) (s := dims a) (hN a) (hd a) (by omega)
      rw [localStart_succ (hN a) (hd a), h, localStart_top (hN a) (hd a)] at h2
      have := hpos (rank a + 1)
      omega

example : ∃ g, GridTopo.mk? 2 ![10, 7, 1] ![4, 3, 1] ![3, 0, 0] 2 = .ok g ∧ g.isBorder 0 1 = true ∧
    g.isBorder 1 1 = false ∧ (∀ a, (![4, 3, 1] : Cell) a ≤ (![10, 7, 1] : Cell) a) := by
  obtain ⟨g, h, _, _, _, _, _, e, _⟩ := GridTopo.mk?_ok (ndim := 2) (nx := ![10, 7, 1]) (dims := ![4, 3, 1])
    (rank := ![3, 0, 0]) (ng := 2) (by decide) (by decide) (by decide)
  exact ⟨g, h, by rw [e]; rfl, by rw [e]; rfl, by decide⟩

/-- C02 fails for more ranks than cells: rank 1 of 3 on a 1-cell direction ends at the domain end
but is not flagged as a border (its own cell range is empty). -/
theorem C02_more_ranks_than_cells :
    ∃ (nx dims rank : Cell) (g : GridTopo), (∀ a, 0 < dims a) ∧ inBox 0 dims rank ∧
      GridTopo.mk? 1 nx dims rank 2 = .ok g ∧ g.range.cornerMax 0 = nx 0 ∧ g.isBorder 0 1 = false ∧
      g.nxLocal 0 = 0 := by
  obtain ⟨g, h, _, e2, e3, _, _, e, _⟩ := GridTopo.mk?_ok (ndim := 1) (nx := ![1, 1, 1]) (dims := ![3, 1, 1])
    (rank := ![1, 0, 0]) (ng := 2) (by decide) (by decide) (by decide)
  exact ⟨![1, 1, 1], ![3, 1, 1], ![1, 0, 0], g, by decide, by decide, h, by rw [e2]; decide,
    by rw [e]; rfl, by rw [e3]; decide⟩

/-! ## C03 Local node coordinates are the right slice of the global mesh -/

variable {K : Type}

/-- C03: setting the nodes never reads outside the global array (of extent `nx + 2 ng + 1`), yields an
array of `local + 2 ng + 1` nodes, and node `l` is global node `start + l`. -/
theorem C03_nodes (ndim : ℕ) (nx dims rank : Cell) (ng : ℤ) (hN : ∀ a, 0 ≤ nx a)
    (hd : ∀ a, 0 < dims a) (hr : inBox 0 dims rank) (g : GridTopo)
    (hg : GridTopo.mk? ndim nx dims rank ng = .ok g) (a : Fin 3) (x : ℤ → K) :
    ∃ v, g.setNodes a (View.line (nx a + 2 * g.nghost a + 1) x) = some v ∧
      (∀ l, v.dom l = true ↔ 0 ≤ l ∧ l < g.nxLocal a + 2 * g.nghost a + 1) ∧
      (∀ l, v.val l = x (g.range.cornerMin a + l)) := by
  obtain ⟨g', hg', e1, e2, e3, e4, e5, e6, _⟩ :=
    GridTopo.mk?_ok (ndim := ndim) (ng := ng) hN hd (fun a => (hr a).1)
  rw [hg] at hg'
  cases hg'
  have hs := localStart_nonneg (r := rank a) (hN a) (hd a) (hr a).1
  have he := localStart_add_size_le (r := rank a) (hN a) (hd a) (hr a).2
  unfold GridTopo.setNodes copySlice
  rw [if_pos]
  · refine ⟨_, rfl, fun l => ?_, fun l => rfl⟩
    simp only [View.line, decide_eq_true_eq]
    rw [e5, e3, e4]
  · intro l hl
    rw [mem_intRange, e5] at hl
    simp only [View.line, decide_eq_true_eq, e1, e4]
    simp only at hl he hs
    omega

/-- C03: consecutive ranks along a direction agree on the `2 ng + 1` nodes they share (the ghosts of
one are the interior nodes of the other). -/
theorem C03_neighbours_agree (ndim : ℕ) (nx dims rank : Cell) (ng : ℤ) (hN : ∀ a, 0 ≤ nx a)
    (hd : ∀ a, 0 < dims a) (a : Fin 3) (hr : inBox 0 dims rank) (hr' : rank a + 1 < dims a)
    (g g' : GridTopo) (hg : GridTopo.mk? ndim nx dims rank ng = .ok g)
    (hg' : GridTopo.mk? ndim nx dims (Function.update rank a (rank a + 1)) ng = .ok g') (x : ℤ → K)
    (v v' : View ℤ K)
    (hv : g.setNodes a (View.line (nx a + 2 * g.nghost a + 1) x) = some v)
    (hv' : g'.setNodes a (View.line (nx a + 2 * g'.nghost a + 1) x) = some v') (l : ℤ)
    (hl : 0 ≤ l ∧ l ≤ 2 * g.nghost a) :
    v.dom (g.nxLocal a + l) = true ∧ v.val (g.nxLocal a + l) = v'.val l := by
  have hru : inBox 0 dims (Function.update rank a (rank a + 1)) := by
    intro b
    by_cases hb : b = a
    · subst hb; have := hr b; simp at this ⊢; omega
    · simpa [Function.update_of_ne hb] using hr b
  obtain ⟨w, h1, h2, h3⟩ := C03_nodes ndim nx dims rank ng hN hd hr g hg a x
  obtain ⟨w', h1', h2', h3'⟩ := C03_nodes ndim nx dims _ ng hN hd hru g' hg' a x
  rw [hv] at h1; cases h1
  rw [hv'] at h1'; cases h1'
  obtain ⟨q, hq, e1, e2, e3, e4, e5, e6, _⟩ :=
    GridTopo.mk?_ok (ndim := ndim) (ng := ng) hN hd (fun a => (hr a).1)
  rw [hg] at hq; cases hq
  obtain ⟨q, hq, f1, f2, f3, f4, f5, f6, _⟩ :=
    GridTopo.mk?_ok (ndim := ndim) (ng := ng) hN hd (fun a => (hru a).1)
  rw [hg'] at hq; cases hq
  have hsz := localSize_nonneg (r := rank a) (hN a) (hd a)
  refine ⟨?_, ?_⟩
  · rw [h2, e3]; simp only; omega
  · rw [h3, h3', e1, f1, e3]
    simp only [Function.update_self]
    rw [localStart_succ (hN a) (hd a), add_assoc]

example : ∃ g, GridTopo.mk? 1 ![10, 1, 1] ![4, 1, 1] ![1, 0, 0] 2 = .ok g ∧ g.range.cornerMin 0 = 3 ∧
    g.nxLocal 0 = 3 ∧ inBox 0 ![4, 1, 1] ![1, 0, 0] := by
  obtain ⟨g, h, e1, _, e3, _, _, e, _⟩ := GridTopo.mk?_ok (ndim := 1) (nx := ![10, 1, 1]) (dims := ![4, 1, 1])
    (rank := ![1, 0, 0]) (ng := 2) (by decide) (by decide) (by decide)
  exact ⟨g, h, by rw [e1]; decide, by rw [e3]; decide, by decide⟩

/-! ## C12 Index ranges -/

/-- C12: a range is accepted exactly for non-negative ordered corners. -/
theorem C12_accepts_iff (ndim : ℕ) (cmin cmax : Cell) (ng : ℤ) :
    (∃ r, Range.mk? ndim cmin cmax ng = .ok r) ↔ ∀ a, 0 ≤ cmin a ∧ 0 ≤ cmax a ∧ cmin a ≤ cmax a := by
  constructor
  · rintro ⟨r, hr⟩
    by_contra h
    obtain ⟨e, he⟩ := Range.mk?_error (ndim := ndim) (cmin := cmin) (cmax := cmax) (ng := ng) (by
      intro h'; apply h; intro a; have := h' a; omega)
    rw [hr] at he; cases he
  · intro h
    obtain ⟨r, hr, _⟩ := Range.mk?_ok (ndim := ndim) (cmin := cmin) (cmax := cmax) (ng := ng)
      (fun a => ⟨(h a).1, (h a).2.2⟩)
    exact ⟨r, hr⟩

/-- Specification: the layer bounds documented for a range, as "first interior index minus `m`" and
"one past the last interior index plus `m`", where the enlargement `m` and the ghost offset apply only
in the first `ndim` directions. -/
def rangeLo (ndim : ℕ) (ng m : ℤ) (a : Fin 3) : ℤ := if a.val < ndim then ng - m else 0

/-- See `rangeLo`; `n` is the number of interior cells in direction `a`. -/
def rangeHi (ndim : ℕ) (ng m n : ℤ) (a : Fin 3) : ℤ := if a.val < ndim then ng + n + m else n

/-- C12: all twelve layer bounds of an accepted range; faces are one longer than cells; no ghosts in
inactive directions; the corners are kept and no effective ghosts are set. -/
theorem C12_layer_bounds (ndim : ℕ) (cmin cmax : Cell) (ng : ℤ) (r : Range)
    (h : Range.mk? ndim cmin cmax ng = .ok r) (a : Fin 3) :
    r.cornerMin a = cmin a ∧ r.cornerMax a = cmax a ∧ r.ng = ng ∧ r.ngEff = 0 ∧
    r.nghost a = rangeLo ndim ng 0 a ∧
    r.ncMin0g a = rangeLo ndim ng 0 a ∧ r.ncMax0g a = rangeHi ndim ng 0 (cmax a - cmin a) a ∧
    r.ncMin1g a = rangeLo ndim ng 1 a ∧ r.ncMax1g a = rangeHi ndim ng 1 (cmax a - cmin a) a ∧
    r.ncMin2g a = rangeLo ndim ng 2 a ∧ r.ncMax2g a = rangeHi ndim ng 2 (cmax a - cmin a) a ∧
    r.nfMin0g a = r.ncMin0g a ∧ r.nfMax0g a = r.ncMax0g a + 1 ∧
    r.nfMin1g a = r.ncMin1g a ∧ r.nfMax1g a = r.ncMax1g a + 1 ∧
    r.nfMin2g a = r.ncMin2g a ∧ r.nfMax2g a = r.ncMax2g a + 1 := by
  unfold Range.mk? at h
  cases hc : Range.check cmin cmax with
  | error e => rw [hc] at h; cases h
  | ok u =>
    rw [hc] at h
    cases h
    simp only [rangeLo, rangeHi]
    by_cases ha : a.val < ndim <;> (simp [ha]; try omega)

example : ∃ r, Range.mk? 2 ![2, 3, 4] ![4, 5, 6] 3 = .ok r := by
  rw [C12_accepts_iff]; decide

/-- C12: asking for more effective ghosts than available is rejected; otherwise only the effective
ghost count changes. (A negative count is accepted.) -/
theorem C12_withGhosts (r : Range) (n : ℤ) :
    (r.ng < n → ∃ e, r.withGhosts n = .error e) ∧
    (n ≤ r.ng → r.withGhosts n = .ok { r with ngEff := n }) ∧
    (0 ≤ r.ng → r.noGhosts = .ok { r with ngEff := 0 }) ∧
    r.allGhosts = .ok { r with ngEff := r.ng } := by
  refine ⟨fun h => ⟨_, by rw [Range.withGhosts, if_pos h]⟩, fun h => by
    rw [Range.withGhosts, if_neg (by omega)], fun h => ?_, ?_⟩
  · rw [Range.noGhosts, Range.withGhosts, if_neg (by omega)]
  · rw [Range.allGhosts, Range.withGhosts, if_neg (by omega)]

/-! ## C13 Parallel loops visit each cell of a range exactly once -/

/-- C13: the loop box of a rank's range with `n` effective ghosts contains precisely the cells at
distance at most `n` layers from the interior cells `[ng, ng + local)` in active directions, and the
interior cells in inactive directions. -/
theorem C13_box (ndim : ℕ) (cmin cmax : Cell) (ng n : ℤ) (r r' : Range)
    (h : Range.mk? ndim cmin cmax ng = .ok r) (h' : r.withGhosts n = .ok r') (c : Cell) :
    inBox (r'.cellBegin ndim) (r'.cellEnd ndim) c ↔
      ∀ a, (a.val < ndim → ng - n ≤ c a ∧ c a < ng + (cmax a - cmin a) + n) ∧
           (¬ a.val < ndim → 0 ≤ c a ∧ c a < cmax a - cmin a) := by
  have hr : r' = { r with ngEff := n } := by
    unfold Range.withGhosts at h'
    split at h'
    · cases h'
    · cases h'; rfl
  have hb := fun a => C12_layer_bounds ndim cmin cmax ng r h a
  subst hr
  unfold inBox
  refine forall_congr' fun a => ?_
  obtain ⟨e1, e2, e3, e4, e5, _⟩ := hb a
  simp only [Range.cellBegin, Range.cellEnd, e1, e2, e5, rangeLo]
  by_cases ha : a.val < ndim <;> (simp [ha]; try omega)

/-- C13: the loop box lies inside the local array (extents `local + 2 ng` in active directions,
`local` otherwise) whenever `n ≤ ng`, and boxes grow with `n`. -/
theorem C13_inside_and_nested (ndim : ℕ) (nx dims rank : Cell) (ng n m : ℤ)
    (hN : ∀ a, 0 ≤ nx a) (hd : ∀ a, 0 < dims a) (hr : inBox 0 dims rank) (g : GridTopo)
    (hg : GridTopo.mk? ndim nx dims rank ng = .ok g) (rn rm : Range) (hnm : n ≤ m)
    (hn : g.range.withGhosts n = .ok rn) (hm : g.range.withGhosts m = .ok rm) (c : Cell)
    (hc : inBox (rn.cellBegin ndim) (rn.cellEnd ndim) c) :
    inExt g.nxLocalWg c = true ∧ inBox (rm.cellBegin ndim) (rm.cellEnd ndim) c := by
  obtain ⟨g', hg', e1, e2, e3, e4, e5, e6, e7, e8, e9, e10, e11, e12, e13⟩ :=
    GridTopo.mk?_ok (ndim := ndim) (ng := ng) hN hd (fun a => (hr a).1)
  rw [hg] at hg'
  cases hg'
  have hrn : rn = { g.range with ngEff := n } ∧ n ≤ g.range.ng := by
    unfold Range.withGhosts at hn
    split at hn
    · cases hn
    · cases hn; exact ⟨rfl, by omega⟩
  have hrm : rm = { g.range with ngEff := m } := by
    unfold Range.withGhosts at hm
    split at hm
    · cases hm
    · cases hm; rfl
  obtain ⟨hrn, hnng⟩ := hrn
  subst hrn hrm
  rw [e11] at hnng
  rw [inExt_iff]
  refine ⟨fun a => ?_, fun a => ?_⟩ <;>
  · have := hc a
    simp only [Range.cellBegin, Range.cellEnd, e1, e2, e13, e5] at this ⊢
    by_cases ha : a.val < ndim <;> simp [ha] at this ⊢ <;> omega

/-- C13: every iteration order of the loop executes each cell of the box exactly once; such orders
exist. -/
theorem C13_each_once (ndim : ℕ) (r : Range) :
    (∃ l, IsSchedule l (r.cellBegin ndim) (r.cellEnd ndim)) ∧
    ∀ l, IsSchedule l (r.cellBegin ndim) (r.cellEnd ndim) → ∀ c,
      l.count c = if inBox (r.cellBegin ndim) (r.cellEnd ndim) c then 1 else 0 := by
  refine ⟨⟨_, boxList_isSchedule _ _⟩, fun l hl c => ?_⟩
  split
  · exact List.count_eq_one_of_mem hl.1 ((hl.2 c).mpr ‹_›)
  · exact List.count_eq_zero_of_not_mem fun h => ‹¬ _› ((hl.2 c).mp h)

example : ∃ g rn, GridTopo.mk? 2 ![10, 7, 1] ![4, 3, 1] ![3, 0, 0] 2 = .ok g ∧
    g.range.withGhosts 1 = .ok rn ∧ inBox (rn.cellBegin 2) (rn.cellEnd 2) ![1, 1, 0] := by
  obtain ⟨g, h, e1, e2, _, _, _, _, _, _, _, _, e11, _, e13⟩ := GridTopo.mk?_ok (ndim := 2) (nx := ![10, 7, 1])
    (dims := ![4, 3, 1]) (rank := ![3, 0, 0]) (ng := 2) (by decide) (by decide) (by decide)
  refine ⟨g, { g.range with ngEff := 1 }, h, by rw [Range.withGhosts, if_neg (by rw [e11]; decide)], ?_⟩
  intro a
  simp only [Range.cellBegin, Range.cellEnd, e1, e2, e13]
  revert a
  decide

/-! ## C38 Regular mesh -/

section Regular
variable {K : Type} [Field K] [LinearOrder K] [IsStrictOrderedRing K]

/-- C38: the regular mesh has constant spacing, node `ng` is `xmin`, node `ng + N` is `xmax`, and
nodes are strictly increasing when `xmin < xmax`. -/
theorem C38_regular (ng N : ℤ) (xmin xmax : K) (hN : 0 < N) :
    (regularExecute ng N xmin xmax).val ng = xmin ∧
    (regularExecute ng N xmin xmax).val (ng + N) = xmax ∧
    (∀ i, (regularExecute ng N xmin xmax).val (i + 1) - (regularExecute ng N xmin xmax).val i
      = (xmax - xmin) / N) ∧
    (xmin < xmax → StrictMono (regularExecute ng N xmin xmax).val) ∧
    (∀ i, (regularExecute ng N xmin xmax).dom i = true ↔ 0 ≤ i ∧ i ≤ N + 2 * ng) := by
  have hK : (0 : K) < N := by exact_mod_cast hN
  refine ⟨by simp [regularExecute, regularMesh, View.line], ?_, fun i => ?_, fun h => ?_, fun i => ?_⟩
  · simp only [regularExecute, regularMesh, View.line]
    push_cast
    field_simp
    ring
  · simp only [regularExecute, regularMesh, View.line]
    push_cast
    ring
  · intro i j hij
    simp only [regularExecute, regularMesh, View.line]
    have hdx : 0 < (xmax - xmin) / (N : K) := div_pos (sub_pos.mpr h) hK
    have hlt : ((i - ng : ℤ) : K) < ((j - ng : ℤ) : K) := by exact_mod_cast (by omega : i - ng < j - ng)
    have := mul_lt_mul_of_pos_right hlt hdx
    linarith
  · simp only [regularExecute, regularMesh, View.line, decide_eq_true_eq]
    omega

/-- C38: on any increasing node array, every cell of the array gets a positive size equal to the
distance of its nodes, and a centre strictly inside, at equal distance from both nodes; no access is
out of bounds for the `n` cells of an array of `n + 1` nodes. -/
theorem C38_cell_size_center (n : ℤ) (x : ℤ → K) (hx : StrictMono x) (i : ℤ) (hi : 0 ≤ i ∧ i < n) :
    ∃ dx xc, cellSize (View.line (n + 1) x) i = some dx ∧ cellCenter (View.line (n + 1) x) i = some xc ∧
      0 < dx ∧ x i + dx = x (i + 1) ∧ x i < xc ∧ xc < x (i + 1) ∧ xc - x i = x (i + 1) - xc := by
  have h1 : (View.line (n + 1) x).dom i = true := by simp [View.line]; omega
  have h2 : (View.line (n + 1) x).dom (i + 1) = true := by simp [View.line]; omega
  have hlt : x i < x (i + 1) := hx (by omega)
  refine ⟨x (i + 1) - x i, (x i + x (i + 1)) / 2, ?_, ?_, by linarith, by ring, by linarith, by linarith,
    by ring⟩
  · simp [cellSize, View.rd, h1, h2]; rfl
  · simp [cellCenter, View.rd, h1, h2]; rfl

example : (0 : ℤ) < 4 ∧ StrictMono (fun i : ℤ => (i : ℚ)) ∧
    (regularExecute 2 4 (1 : ℚ) 3).val 4 = 2 := by
  refine ⟨by norm_num, fun a b h => by simpa using h, ?_⟩
  norm_num [regularExecute, regularMesh, View.line]

end Regular

/-! ## C48 Neighbour index helpers -/

/-- C48: for an axis `a`, the helpers change exactly coordinate `a` by one and are mutually inverse. -/
theorem C48_neighbours (a : Fin 3) (c : Cell) :
    lindex a.val c = Function.update c a (c a - 1) ∧
    rindex a.val c = Function.update c a (c a + 1) ∧
    lindex a.val (rindex a.val c) = c ∧ rindex a.val (lindex a.val c) = c := by
  have key : ∀ f g : Cell, f 0 = g 0 → f 1 = g 1 → f 2 = g 2 → f = g := by
    intro f g h0 h1 h2; funext b; fin_cases b <;> assumption
  fin_cases a <;> refine ⟨?_, ?_, ?_, ?_⟩ <;> apply key <;> simp [lindex, rindex, kron]

example : rindex 1 ![4, 5, 6] = ![4, 6, 6] := by decide

end Heracles

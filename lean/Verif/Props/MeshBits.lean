import Verif.Lemmas.InitBits

/-!
# C92: the regular mesh in double precision
-/

namespace Heracles

variable {rnd : ℚ → ℚ}

/-- Node `i` of the regular mesh of `N` cells from `xmin` to `xmax` with `ng` ghosts, as the code computes it with the rounding `rnd`. -/
def roundedNode (hr : Nearest rnd) (tr : Trig FinDbl) (ng N : ℤ) (xmin xmax : FinDbl) (i : ℤ) : ℚ :=
  letI := dblArith rnd hr tr
  (oNode ng xmin (oLength N xmin xmax) i).1

theorem ofInt_val (hr : Nearest rnd) (tr : Trig FinDbl) {z : ℤ} (h : |z| ≤ 2 ^ 53) : (@ofInt FinDbl (dblArith rnd hr tr) z).1 = z := by
  have hn : rnd (z.natAbs : ℚ) = (z.natAbs : ℚ) := by
    have h1 : IsDouble (((z.natAbs : ℤ)) : ℚ) := isDouble_int (by rw [← Int.abs_eq_natAbs, abs_abs]; exact h)
    have := hr.eq_self h1
    simpa using this
  unfold ofInt
  split
  · rename_i hz
    show -(rnd (z.natAbs : ℚ)) = z
    rw [hn, Nat.cast_natAbs, abs_of_neg hz]
    push_cast
    ring
  · rename_i hz
    show rnd (z.natAbs : ℚ) = z
    rw [hn, Nat.cast_natAbs, abs_of_nonneg (not_lt.1 hz)]

theorem roundedNode_eq (hr : Nearest rnd) (tr : Trig FinDbl) {ng N i : ℤ} (hN : |N| ≤ 2 ^ 53) (hi : |i - ng| ≤ 2 ^ 53) (xmin xmax : FinDbl) :
    roundedNode hr tr ng N xmin xmax i = rnd (xmin.1 + rnd (((i - ng : ℤ) : ℚ) * rnd (rnd (xmax.1 - xmin.1) / N))) := by
  unfold roundedNode oNode oLength
  show rnd (xmin.1 + rnd ((@ofInt FinDbl (dblArith rnd hr tr) (i - ng)).1 * rnd (rnd (xmax.1 - xmin.1) / (@ofInt FinDbl (dblArith rnd hr tr) N).1))) = _
  rw [ofInt_val hr tr hN, ofInt_val hr tr hi]

theorem three_roundings {u : ℚ} (h0 : 0 ≤ u) (h1 : u ≤ 1 / 100) : u * (1 + 2 * u + u * u) + (2 * u + u * u) ≤ 4 * u := by
  have h2 : u * u ≤ u * (1 / 100) := mul_le_mul_of_nonneg_left h1 h0
  have h3 : u * (u * u) ≤ u * (u * (1 / 100)) := mul_le_mul_of_nonneg_left h2 h0
  linarith

/-- Three roundings. -/
theorem round_mul (hr : Nearest rnd) {D : ℚ} (hD : 0 ≤ D) {N : ℚ} (hN : 0 < N) (k : ℚ) :
    |rnd (k * rnd (rnd D / N)) - k * (D / N)| ≤ 4 * (|k| * (D / N)) / 2 ^ 53 := by
  set u : ℚ := 1 / 2 ^ 53 with hu
  have hu0 : 0 ≤ u := by rw [hu]; norm_num
  have hu1 : u ≤ 1 / 100 := by rw [hu]; norm_num
  have h1 : |rnd D / N - D / N| ≤ u * (D / N) := by
    have := hr.rel D
    rw [abs_of_nonneg hD, abs_sub_comm] at this
    rw [← sub_div, abs_div, abs_of_pos hN, hu]
    calc |rnd D - D| / N ≤ D / 2 ^ 53 / N := div_le_div_of_nonneg_right this hN.le
      _ = 1 / 2 ^ 53 * (D / N) := by ring
  set q := D / N with hq
  have hq0 : 0 ≤ q := div_nonneg hD hN.le
  set y := rnd D / N with hy
  have hy0 : 0 ≤ y := div_nonneg (hr.nonneg hD) hN.le
  have hy1 : y ≤ (1 + u) * q := by have := (abs_le.1 h1).2; linarith
  have h2 : |rnd y - q| ≤ (2 * u + u * u) * q := by
    have h := hr.rel y
    rw [abs_of_nonneg hy0, abs_sub_comm] at h
    have h' : |rnd y - y| ≤ u * y := by rw [hu]; linarith
    calc |rnd y - q| ≤ |rnd y - y| + |y - q| := abs_sub_le _ _ _
      _ ≤ u * ((1 + u) * q) + u * q := add_le_add (h'.trans (mul_le_mul_of_nonneg_left hy1 hu0)) h1
      _ = _ := by ring
  set z := rnd y with hz
  have h3 : |k * z - k * q| ≤ (2 * u + u * u) * (|k| * q) := by
    rw [← mul_sub, abs_mul]
    calc |k| * |z - q| ≤ |k| * ((2 * u + u * u) * q) := mul_le_mul_of_nonneg_left h2 (abs_nonneg k)
      _ = _ := by ring
  have h4 : |rnd (k * z) - k * z| ≤ u * |k * z| := by
    have := hr.rel (k * z)
    rw [abs_sub_comm] at this
    rw [hu]
    linarith
  have hz1 : |z| ≤ (1 + 2 * u + u * u) * q := by
    have := abs_sub_abs_le_abs_sub z q
    rw [abs_of_nonneg hq0] at this
    linarith
  have hkq : 0 ≤ |k| * q := mul_nonneg (abs_nonneg k) hq0
  have h5 : |k * z| ≤ (1 + 2 * u + u * u) * (|k| * q) := by
    rw [abs_mul]
    calc |k| * |z| ≤ |k| * ((1 + 2 * u + u * u) * q) := mul_le_mul_of_nonneg_left hz1 (abs_nonneg k)
      _ = _ := by ring
  have h6 : |rnd (k * z) - k * q| ≤ u * ((1 + 2 * u + u * u) * (|k| * q)) + (2 * u + u * u) * (|k| * q) :=
    (abs_sub_le _ (k * z) _).trans (add_le_add (h4.trans (mul_le_mul_of_nonneg_left h5 hu0)) h3)
  refine h6.trans ?_
  have h7 : u * (1 + 2 * u + u * u) + (2 * u + u * u) ≤ 4 * u := by
    exact three_roundings hu0 hu1
  calc u * ((1 + 2 * u + u * u) * (|k| * q)) + (2 * u + u * u) * (|k| * q) = (u * (1 + 2 * u + u * u) + (2 * u + u * u)) * (|k| * q) := by ring
    _ ≤ 4 * u * (|k| * q) := mul_le_mul_of_nonneg_right h7 hkq
    _ = 4 * (|k| * q) / 2 ^ 53 := by rw [hu]; ring

/-- **C92, the nodes of a regular mesh.** For every rounding to nearest, every box and every number of cells and ghosts that an `int` can hold,
without overflow and underflow: the first node of the domain is exactly the lower limit of the box, the nodes never decrease, and every node is the
exact one up to 6 units of the last digit of its distance to the lower limit, and one of the lower limit. -/
theorem C92_nodes (hr : Nearest rnd) (tr : Trig FinDbl) {ng N : ℤ} (hN : 0 < N) (hN' : N ≤ 2 ^ 53) {xmin xmax : FinDbl} (hx : xmin.1 ≤ xmax.1) :
    roundedNode hr tr ng N xmin xmax ng = xmin.1 ∧
    (∀ i j, |i - ng| ≤ 2 ^ 53 → |j - ng| ≤ 2 ^ 53 → i ≤ j → roundedNode hr tr ng N xmin xmax i ≤ roundedNode hr tr ng N xmin xmax j) ∧
    ∀ i, |i - ng| ≤ 2 ^ 53 → |roundedNode hr tr ng N xmin xmax i - (xmin.1 + ((i - ng : ℤ) : ℚ) * ((xmax.1 - xmin.1) / N))| ≤
      (|xmin.1| + 6 * |((i - ng : ℤ) : ℚ) * ((xmax.1 - xmin.1) / N)|) / 2 ^ 53 := by
  have hNa : |N| ≤ 2 ^ 53 := by rwa [abs_of_pos hN]
  have hNq : (0 : ℚ) < N := by exact_mod_cast hN
  have hD : 0 ≤ xmax.1 - xmin.1 := sub_nonneg.2 hx
  have hdx : 0 ≤ rnd (rnd (xmax.1 - xmin.1) / N) := hr.nonneg (div_nonneg (hr.nonneg hD) hNq.le)
  refine ⟨?_, fun i j hi hj hij => ?_, fun i hi => ?_⟩
  · rw [roundedNode_eq hr tr hNa (by simp)]
    simp only [sub_self, Int.cast_zero, zero_mul]
    rw [hr.eq_self isDouble_zero, add_zero, hr.eq_self xmin.2]
  · rw [roundedNode_eq hr tr hNa hi, roundedNode_eq hr tr hNa hj]
    have : ((i - ng : ℤ) : ℚ) ≤ ((j - ng : ℤ) : ℚ) := by exact_mod_cast sub_le_sub_right hij ng
    exact hr.mono (add_le_add le_rfl (hr.mono (mul_le_mul_of_nonneg_right this hdx)))
  · rw [roundedNode_eq hr tr hNa hi]
    have h := round_mul hr hD hNq ((i - ng : ℤ) : ℚ)
    set k := ((i - ng : ℤ) : ℚ) with hk
    set p := rnd (k * rnd (rnd (xmax.1 - xmin.1) / N)) with hp
    set q := (xmax.1 - xmin.1) / N with hq
    have hq0 : 0 ≤ q := div_nonneg hD hNq.le
    have hkq : |k * q| = |k| * q := by rw [abs_mul, abs_of_nonneg hq0]
    have hkq0 : 0 ≤ |k| * q := mul_nonneg (abs_nonneg k) hq0
    have h1 : |rnd (xmin.1 + p) - (xmin.1 + p)| ≤ (|xmin.1| + |p|) / 2 ^ 53 := by
      have := hr.rel (xmin.1 + p)
      rw [abs_sub_comm] at this
      exact this.trans (div_le_div_of_nonneg_right (abs_add_le _ _) (by norm_num))
    have h2 : |p| ≤ |k| * q + 4 * (|k| * q) / 2 ^ 53 := by
      have := abs_sub_abs_le_abs_sub p (k * q)
      rw [hkq] at this
      linarith
    have h3 : |rnd (xmin.1 + p) - (xmin.1 + k * q)| ≤ |rnd (xmin.1 + p) - (xmin.1 + p)| + |p - k * q| := by
      have := abs_sub_le (rnd (xmin.1 + p)) (xmin.1 + p) (xmin.1 + k * q)
      rwa [add_sub_add_left_eq_sub] at this
    rw [hkq]
    have h4 : 4 * (|k| * q) / 2 ^ 53 ≤ |k| * q := by
      rw [div_le_iff₀ (by norm_num)]
      nlinarith
    have h5 : (|xmin.1| + |p|) / 2 ^ 53 ≤ (|xmin.1| + 2 * (|k| * q)) / 2 ^ 53 :=
      div_le_div_of_nonneg_right (by linarith) (by norm_num)
    calc _ ≤ (|xmin.1| + 2 * (|k| * q)) / 2 ^ 53 + 4 * (|k| * q) / 2 ^ 53 := h3.trans (add_le_add (h1.trans h5) h)
      _ = _ := by ring

/-- **C92, the cells of a regular mesh.** For every rounding to nearest, when the cells are larger than the rounding errors of the nodes: the
nodes of cell `i` (of the domain and of the ghosts) are different, its size is positive, and its centre lies between its nodes. -/
theorem C92_cells (hr : Nearest rnd) (tr : Trig FinDbl) {ng N : ℤ} (hN : 0 < N) (hN' : N + ng ≤ 2 ^ 53) (hng : 0 ≤ ng) {xmin xmax : FinDbl}
    (hx : xmin.1 < xmax.1) (hres : 2 * (|xmin.1| * N + 6 * (N + ng) * (xmax.1 - xmin.1)) < 2 ^ 53 * (xmax.1 - xmin.1)) {i : ℤ} (h0 : 0 ≤ i)
    (h1 : i < N + 2 * ng) :
    letI := dblArith rnd hr tr
    let x := oNode ng xmin (oLength N xmin xmax)
    (x i).1 < (x (i + 1)).1 ∧ 0 < (x (i + 1) - x i).1 ∧ (x i).1 ≤ ((x i + x (i + 1)) / Arith.lit 2).1 ∧
      ((x i + x (i + 1)) / Arith.lit 2).1 ≤ (x (i + 1)).1 := by
  letI := dblArith rnd hr tr
  intro x
  have hb : ∀ j, 0 ≤ j → j ≤ N + 2 * ng → |j - ng| ≤ N + ng := fun j a b => abs_le.2 ⟨by omega, by omega⟩
  obtain ⟨-, hmono, herr⟩ := C92_nodes hr tr (ng := ng) hN (by omega) hx.le
  have hNq : (0 : ℚ) < N := by exact_mod_cast hN
  have e1 := herr i ((hb i h0 (by omega)).trans hN')
  have e2 := herr (i + 1) ((hb (i + 1) (by omega) (by omega)).trans hN')
  set q := (xmax.1 - xmin.1) / N with hq
  have hqN : q * N = xmax.1 - xmin.1 := div_mul_cancel₀ _ hNq.ne'
  have hq0 : 0 < q := div_pos (sub_pos.2 hx) hNq
  have hk : ∀ j, 0 ≤ j → j ≤ N + 2 * ng → |((j - ng : ℤ) : ℚ) * q| ≤ (N + ng) * q := by
    intro j a b
    rw [abs_mul, abs_of_pos hq0]
    refine mul_le_mul_of_nonneg_right ?_ hq0.le
    have := hb j a b
    have h' : ((|j - ng| : ℤ) : ℚ) ≤ ((N + ng : ℤ) : ℚ) := by exact_mod_cast this
    rw [Int.cast_abs] at h'
    push_cast at h' ⊢
    exact h'
  have hlt : roundedNode hr tr ng N xmin xmax i < roundedNode hr tr ng N xmin xmax (i + 1) := by
    have k1 := hk i h0 (by omega)
    have k2 := hk (i + 1) (by omega) (by omega)
    have a1 := (abs_le.1 e1).2
    have a2 := (abs_le.1 e2).1
    have b1 : (|xmin.1| + 6 * |((i - ng : ℤ) : ℚ) * q|) / 2 ^ 53 ≤ (|xmin.1| + 6 * ((N + ng) * q)) / 2 ^ 53 :=
      div_le_div_of_nonneg_right (by linarith) (by norm_num)
    have b2 : (|xmin.1| + 6 * |((i + 1 - ng : ℤ) : ℚ) * q|) / 2 ^ 53 ≤ (|xmin.1| + 6 * ((N + ng) * q)) / 2 ^ 53 :=
      div_le_div_of_nonneg_right (by linarith) (by norm_num)
    have hstep : ((i + 1 - ng : ℤ) : ℚ) * q = ((i - ng : ℤ) : ℚ) * q + q := by push_cast; ring
    have hs : 2 * ((|xmin.1| + 6 * ((N + ng) * q)) / 2 ^ 53) < q := by
      rw [← mul_div_assoc, div_lt_iff₀ (by norm_num)]
      have : 2 * (|xmin.1| + 6 * ((N + ng) * q)) * N < q * 2 ^ 53 * N := by
        rw [← hqN] at hres
        linarith
      exact lt_of_mul_lt_mul_right this hNq.le
    rw [hstep] at a2 b2
    linarith
  have hlt' : (x i).1 < (x (i + 1)).1 := hlt
  have l2 : (Arith.lit 2 : FinDbl).1 = 2 := by
    show rnd ((2 : ℕ) : ℚ) = 2
    have := hr.eq_self (isDouble_int (m := 2) (by norm_num))
    simpa using this
  have hdouble : ∀ y : FinDbl, IsDouble (2 * y.1) := by
    intro y
    obtain ⟨m, e, hm, hy⟩ := y.2
    refine ⟨m, e + 1, hm, ?_⟩
    rw [hy, zpow_add₀ (by norm_num), zpow_one]
    ring
  refine ⟨hlt', hr.pos (sub_pos.2 hlt'), ?_, ?_⟩
  · show (x i).1 ≤ rnd (rnd ((x i).1 + (x (i + 1)).1) / (Arith.lit 2 : FinDbl).1)
    rw [l2]
    have h1 := hr.mono (show 2 * (x i).1 ≤ (x i).1 + (x (i + 1)).1 by linarith)
    rw [hr.eq_self (hdouble _)] at h1
    have h2 := hr.mono (show (x i).1 ≤ rnd ((x i).1 + (x (i + 1)).1) / 2 by linarith)
    rwa [hr.eq_self (x i).2] at h2
  · show rnd (rnd ((x i).1 + (x (i + 1)).1) / (Arith.lit 2 : FinDbl).1) ≤ (x (i + 1)).1
    rw [l2]
    have h1 := hr.mono (show (x i).1 + (x (i + 1)).1 ≤ 2 * (x (i + 1)).1 by linarith)
    rw [hr.eq_self (hdouble _)] at h1
    have h2 := hr.mono (show rnd ((x i).1 + (x (i + 1)).1) / 2 ≤ (x (i + 1)).1 by linarith)
    rwa [hr.eq_self (x (i + 1)).2] at h2

/-- The hypotheses of `C92_cells` for the mesh of inputs/sedov2d.ini. -/
example : (2 * (|(-5 : ℚ)| * (400 : ℤ) + 6 * ((400 : ℤ) + (2 : ℤ)) * (5 - -5)) < 2 ^ 53 * (5 - -5)) ∧ IsDouble (-5) ∧ IsDouble 5 := by
  refine ⟨by norm_num, ?_, ?_⟩
  · exact_mod_cast isDouble_int (m := -5) (by norm_num)
  · exact_mod_cast isDouble_int (m := 5) (by norm_num)

/-- **C92, the last node, violated.** The last node of the domain is not always the upper limit of the box: 49 cells from 0 to 1, in IEEE
`double`s. -/
theorem C92_last_node_violated : bNode 49 .zero (.lit 1) 49 ≠ .lit 1 ∧ bNode 49 .zero (.lit 1) 49 = .lit (1 - 1 / 2 ^ 53) := by decide +kernel

/-- **C92, equal cells, violated.** The cells of a regular mesh do not all have the same size in the arrays of the grid: 10 cells from 0 to 1.
The mesh of inputs/sedov2d.ini, symmetric about the origin, is not symmetric in the arrays of the grid. -/
theorem C92_sizes_violated : bSize 10 .zero (.lit 1) 1 ≠ bSize 10 .zero (.lit 1) 2 ∧
    bNode 400 (.lit (-5)) (.lit 5) 199 ≠ (bNode 400 (.lit (-5)) (.lit 5) 201).neg := by decide +kernel

/-- A mesh with a node at the upper limit and cells of the same size: 8 cells from 0 to 1. -/
example : bNode 8 .zero (.lit 1) 8 = .lit 1 ∧ ∀ i : Fin 8, bSize 8 .zero (.lit 1) (i : ℕ) = .lit (1 / 8) := by decide +kernel

end Heracles

import Verif.Lemmas.TotalVariation
import Verif.Spec.WindError
import Mathlib.Analysis.SpecialFunctions.Pow.NNReal

/-!
# The error of an advected row, measured by the primitive
-/

namespace Heracles

/-- The sum over a period does not depend on where it begins. -/
theorem period_sum {N : ℕ} {f : ℤ → ℝ} (hf : ∀ i, f (i + N) = f i) (s : ℤ) : ∑ i ∈ Finset.range N, f (i + s) = ∑ i ∈ Finset.range N, f i := by
  have one : ∀ g : ℤ → ℝ, (∀ i, g (i + N) = g i) → ∑ i ∈ Finset.range N, g ((i : ℤ) + 1) = ∑ i ∈ Finset.range N, g i := by
    intro g hg
    have h1 := Finset.sum_range_succ (fun i : ℕ => g i) N
    have h2 := Finset.sum_range_succ' (fun i : ℕ => g i) N
    have h0 := hg 0
    rw [zero_add] at h0
    rw [h0] at h1
    push_cast at h2
    linarith
  induction s using Int.induction_on with
  | zero => simp
  | succ s ih =>
    rw [← ih]
    have := one (fun i => f (i + s)) fun i => by
      rw [show i + (N : ℤ) + s = i + s + N by ring, hf]
    rw [← this]
    refine Finset.sum_congr rfl fun i _ => ?_
    congr 1
    ring
  | pred s ih =>
    rw [← ih]
    have := one (fun i => f (i + (-(s : ℤ) - 1))) fun i => by
      rw [show i + (N : ℤ) + (-(s : ℤ) - 1) = i + (-(s : ℤ) - 1) + N by ring, hf]
    rw [← this]
    refine Finset.sum_congr rfl fun i _ => ?_
    congr 1
    ring

/-- A row of numbers has a primitive. -/
theorem exists_primitive (q : ℤ → ℝ) : ∃ P : ℤ → ℝ, ∀ i, P (i + 1) - P i = q i := by
  refine ⟨fun i => ∑ j ∈ Finset.range i.toNat, q j - ∑ j ∈ Finset.range (-i).toNat, q (-((j : ℤ) + 1)), fun i => ?_⟩
  rcases le_or_gt 0 i with h | h
  · obtain ⟨k, rfl⟩ := Int.eq_ofNat_of_zero_le h
    have e1 : ((k : ℤ) + 1).toNat = k + 1 := by omega
    have e2 : (-((k : ℤ) + 1)).toNat = 0 := by omega
    have e3 : (-(k : ℤ)).toNat = 0 := by omega
    have e4 : (k : ℤ).toNat = k := by omega
    dsimp only
    rw [e1, e2, e3, e4, Finset.sum_range_succ]
    simp
  · obtain ⟨k, hk⟩ : ∃ k : ℕ, i = -((k : ℤ) + 1) := ⟨(-i - 1).toNat, by omega⟩
    subst hk
    have e1 : (-((k : ℤ) + 1) + 1).toNat = 0 := by omega
    have e2 : (-(-((k : ℤ) + 1) + 1)).toNat = k := by omega
    have e3 : (-(-((k : ℤ) + 1))).toNat = k + 1 := by omega
    have e4 : (-((k : ℤ) + 1)).toNat = 0 := by omega
    dsimp only
    rw [e1, e2, e3, e4, Finset.sum_range_succ]
    simp

/-- The primitive grows by the same amount over each period. -/
theorem primitive_period {N : ℕ} {q P : ℤ → ℝ} (hq : ∀ i, q (i + N) = q i) (hP : ∀ i, P (i + 1) - P i = q i) : ∀ i, P (i + N) = P i + ∑ j ∈ Finset.range N, q j := by
  intro i
  have := Finset.sum_range_sub (fun j : ℕ => P (j + i)) N
  have h1 : ∑ j ∈ Finset.range N, (P (((j + 1 : ℕ) : ℤ) + i) - P ((j : ℤ) + i)) = ∑ j ∈ Finset.range N, q ((j : ℤ) + i) := by
    refine Finset.sum_congr rfl fun j _ => ?_
    rw [← hP]
    congr 2
    push_cast
    ring
  rw [h1, period_sum hq] at this
  rw [add_comm i]
  push_cast at this
  rw [zero_add] at this
  linarith

/-- Linear interpolation. -/
noncomputable def linOf (P : ℤ → ℝ) (x : ℝ) : ℝ := P ⌊x⌋ + Int.fract x * (P (⌊x⌋ + 1) - P ⌊x⌋)

theorem linOf_int (P : ℤ → ℝ) (i : ℤ) : linOf P i = P i := by simp [linOf]

theorem linOf_add (P : ℤ → ℝ) (m : ℝ) (N : ℤ) (h : ∀ i, P (i + N) = P i + m) (x : ℝ) : linOf P (x + N) = linOf P x + m := by
  unfold linOf
  rw [Int.floor_add_intCast, Int.fract_add_intCast, h, add_right_comm ⌊x⌋ N 1, h]
  ring

/-- The mean of what was moved is a difference of the interpolated primitive. -/
theorem linOf_moved {q P : ℤ → ℝ} (hP : ∀ i, P (i + 1) - P i = q i) (s : ℝ) (i : ℤ) :
    linOf P (((i + 1 : ℤ) : ℝ) - s) - linOf P ((i : ℝ) - s) = movedMean q s i := by
  have e : ((i + 1 : ℤ) : ℝ) - s = ((i : ℝ) - s) + (1 : ℤ) := by push_cast; ring
  unfold linOf movedMean
  rw [e, Int.floor_add_intCast, Int.fract_add_intCast]
  have h1 := hP ⌊(i : ℝ) - s⌋
  have h2 := hP (⌊(i : ℝ) - s⌋ + 1)
  linear_combination h1 + Int.fract ((i : ℝ) - s) * h2 - Int.fract ((i : ℝ) - s) * h1

/-- The interpolated primitive is nearly linear over the length of a cell. -/
theorem linOf_bend {q P : ℤ → ℝ} (hP : ∀ i, P (i + 1) - P i = q i) (x : ℝ) {c : ℝ} (h0 : 0 ≤ c) (h1 : c ≤ 1) :
    |linOf P (x - c) - ((1 - c) * linOf P x + c * linOf P (x - 1))| ≤ c * |q ⌊x⌋ - q (⌊x⌋ - 1)| ∧
    |linOf P (x - c) - ((1 - c) * linOf P x + c * linOf P (x - 1))| ≤ (1 - c) * |q ⌊x⌋ - q (⌊x⌋ - 1)| := by
  have em : linOf P (x - 1) = P (⌊x⌋ - 1) + Int.fract x * q (⌊x⌋ - 1) := by
    have e : x - 1 = x - (1 : ℤ) := by push_cast; ring
    unfold linOf
    rw [e, Int.floor_sub_intCast, Int.fract_sub_intCast, hP]
  have ex : linOf P x = P ⌊x⌋ + Int.fract x * q ⌊x⌋ := by
    unfold linOf
    rw [hP]
  have hk := hP (⌊x⌋ - 1)
  rw [sub_add_cancel] at hk
  have f0 := Int.fract_nonneg x
  have f1 := (Int.fract_lt_one x).le
  have hfx := Int.floor_add_fract x
  set f := Int.fract x with hf
  set k := ⌊x⌋ with hkdef
  have ab := abs_nonneg (q k - q (k - 1))
  rcases le_or_gt c f with h | h
  · have e : linOf P (x - c) = P k + (f - c) * q k := by
      have e1 : x - c = (k : ℝ) + (f - c) := by rw [← hfx]; ring
      have e2 : ⌊x - c⌋ = k := by
        rw [Int.floor_eq_iff, e1]
        have := Int.fract_lt_one x
        rw [← hf] at this
        constructor <;> linarith
      have e3 : Int.fract (x - c) = f - c := by
        rw [Int.fract, e2, e1]
        ring
      unfold linOf
      rw [e2, e3, hP]
    have : linOf P (x - c) - ((1 - c) * linOf P x + c * linOf P (x - 1)) = -(c * (1 - f)) * (q k - q (k - 1)) := by
      rw [e, ex, em]
      linear_combination c * hk
    rw [this, abs_mul, abs_neg, abs_of_nonneg (mul_nonneg h0 (by linarith))]
    constructor <;> refine mul_le_mul_of_nonneg_right ?_ ab <;> nlinarith
  · have e : linOf P (x - c) = P (k - 1) + (1 + f - c) * q (k - 1) := by
      have e1 : x - c = ((k - 1 : ℤ) : ℝ) + (1 + f - c) := by rw [← hfx]; push_cast; ring
      have e2 : ⌊x - c⌋ = k - 1 := by
        rw [Int.floor_eq_iff, e1]
        constructor <;> linarith
      have e3 : Int.fract (x - c) = 1 + f - c := by
        rw [Int.fract, e2, e1]
        ring
      unfold linOf
      rw [e2, e3, hP]
    have : linOf P (x - c) - ((1 - c) * linOf P x + c * linOf P (x - 1)) = -((1 - c) * f) * (q k - q (k - 1)) := by
      rw [e, ex, em]
      linear_combination (c - 1) * hk
    rw [this, abs_mul, abs_neg, abs_of_nonneg (mul_nonneg (by linarith) f0)]
    constructor <;> refine mul_le_mul_of_nonneg_right ?_ ab <;> nlinarith

/-- The value taken to a face is that of the cell upstream up to a jump. -/
theorem rowUp_near (lim : Limiter) (q : ℤ → ℝ) {c : ℝ} (hc : |c| ≤ 1) (i : ℤ) :
    |rowUp lim q c i - if 0 < c then q (i - 1) else q i| ≤ |q i - q (i - 1)| := by
  have lim2 : ∀ {s D m : ℝ}, Limited s D → 0 ≤ m → m ≤ 1 → |m / 2 * s| ≤ |D| := by
    intro s D m h h0 h1
    rcases h with ⟨a, b⟩ | ⟨a, b⟩
    · rw [abs_of_nonneg (by positivity)]
      refine le_trans ?_ (le_abs_self D)
      nlinarith
    · rw [abs_of_nonpos (mul_nonpos_of_nonneg_of_nonpos (by positivity) b)]
      refine le_trans ?_ (neg_le_abs D)
      nlinarith
  obtain ⟨c1, c2⟩ := abs_le.1 hc
  unfold rowUp
  by_cases h : 0 < c
  · rw [if_pos h, if_pos h, add_sub_cancel_left]
    have := (rowSlope_limited lim q (i - 1)).2
    rw [sub_add_cancel] at this
    exact lim2 this (by linarith) (by linarith)
  · rw [if_neg h, if_neg h, sub_sub_cancel_left, abs_neg]
    exact lim2 (rowSlope_limited lim q i).1 (by linarith) (by linarith)

theorem rowUp_periodic (lim : Limiter) {r : ℤ → ℝ} {N : ℤ} (hr : ∀ i, r (i + N) = r i) (c : ℝ) (i : ℤ) : rowUp lim r c (i + N) = rowUp lim r c i := by
  have h1 : r (i + N + 1) = r (i + 1) := by rw [add_right_comm, hr]
  have h3 : r (i + N - 1) = r (i - 1) := by rw [add_sub_right_comm, hr]
  have h4 : r (i + N - 1 - 1) = r (i - 1 - 1) := by rw [add_sub_right_comm, add_sub_right_comm, hr]
  unfold rowUp rowSlope
  simp only [sub_add_cancel, hr, h1, h3, h4]

/-- One step adds at most the variations to the error of the primitive. -/
theorem row_error_step (lim : Limiter) {N : ℕ} {q q0 P P0 : ℤ → ℝ} {m : ℝ} (hq : ∀ i, q (i + N) = q i) (hq0 : ∀ i, q0 (i + N) = q0 i)
    (hP : ∀ i, P (i + 1) - P i = q i) (hP0 : ∀ i, P0 (i + 1) - P0 i = q0 i) (hm : ∀ i, P (i + N) = P i + m) (hm0 : ∀ i, P0 (i + N) = P0 i + m)
    {c : ℝ} (hc : |c| ≤ 1) (s : ℝ) :
    (∀ i, (P (i + 1) - c * rowUp lim q c (i + 1)) - (P i - c * rowUp lim q c i) = rowStep lim q c i) ∧
    (∀ i, P (i + N) - c * rowUp lim q c (i + N) = P i - c * rowUp lim q c i + m) ∧
    ∑ i ∈ Finset.range N, |(P i - c * rowUp lim q c i) - linOf P0 ((i : ℝ) - (s + c))| ≤
      ∑ i ∈ Finset.range N, |P i - linOf P0 ((i : ℝ) - s)| + |c| * (circleVar N q + circleVar N q0) := by
  refine ⟨fun i => ?_, fun i => ?_, ?_⟩
  · unfold rowStep
    have := hP i
    linear_combination this
  · rw [hm, rowUp_periodic lim hq]
    ring
  obtain ⟨c1, c2⟩ := abs_le.1 hc
  set W : ℤ → ℝ := fun i => |P i - linOf P0 ((i : ℝ) - s)| with hW
  have hWp : ∀ i, W (i + N) = W i := fun i => by
    simp only [hW]
    have e : (((i + N : ℤ)) : ℝ) - s = ((i : ℝ) - s) + ((N : ℤ) : ℝ) := by push_cast; ring
    rw [hm, e, linOf_add P0 m N hm0]
    congr 1
    ring
  set J : ℤ → ℝ := fun i => |q (i + 1) - q i| with hJ
  set J0 : ℤ → ℝ := fun i => |q0 (i + 1) - q0 i| with hJ0
  have hJp : ∀ i, J (i + N) = J i := fun i => by simp only [hJ, hq, add_right_comm i (N : ℤ) 1]
  have hJ0p : ∀ i, J0 (i + N) = J0 i := fun i => by simp only [hJ0, hq0, add_right_comm i (N : ℤ) 1]
  have v1 : circleVar N q = ∑ i ∈ Finset.range N, J i := circleVar_periodic hq
  have v2 : circleVar N q0 = ∑ i ∈ Finset.range N, J0 i := circleVar_periodic hq0
  obtain ⟨sg, k0, main⟩ : ∃ sg k0 : ℤ, ∀ i : ℤ, |(P i - c * rowUp lim q c i) - linOf P0 ((i : ℝ) - (s + c))| ≤
      (1 - |c|) * W i + |c| * W (i + sg) + |c| * J (i + -1) + |c| * J0 (i + k0) := by
    have near : ∀ i, |c * (rowUp lim q c i - if 0 < c then q (i - 1) else q i)| ≤ |c| * J (i + -1) := fun i => by
      rw [abs_mul]
      refine mul_le_mul_of_nonneg_left ((rowUp_near lim q hc i).trans (le_of_eq ?_)) (abs_nonneg _)
      simp only [hJ]
      rw [neg_add_cancel_right, ← sub_eq_add_neg]
    by_cases h : 0 < c
    · have ca : |c| = c := abs_of_pos h
      rw [ca] at near hc ⊢
      refine ⟨-1, ⌊-s⌋ - 1, fun i => ?_⟩
      have n := near i
      rw [if_pos h] at n
      have b := (linOf_bend hP0 ((i : ℝ) - s) h.le c2).1
      have ek : ⌊(i : ℝ) - s⌋ = i + ⌊-s⌋ := by rw [sub_eq_add_neg, Int.floor_intCast_add]
      rw [ek] at b
      have eJ : J0 (i + (⌊-s⌋ - 1)) = |q0 (i + ⌊-s⌋) - q0 (i + ⌊-s⌋ - 1)| := by
        simp only [hJ0]
        congr 2 <;> congr 1 <;> ring
      have hp := hP (i - 1)
      rw [sub_add_cancel] at hp
      have ew : W (i + -1) = |P (i - 1) - linOf P0 ((i : ℝ) - s - 1)| := by
        simp only [hW]
        rw [← sub_eq_add_neg]
        congr 3
        push_cast
        ring
      rw [eJ, ew]
      have split : (P i - c * rowUp lim q c i) - linOf P0 ((i : ℝ) - (s + c)) =
          ((1 - c) * (P i - linOf P0 ((i : ℝ) - s)) + c * (P (i - 1) - linOf P0 ((i : ℝ) - s - 1))) + (- (c * (rowUp lim q c i - q (i - 1)))) +
          (- (linOf P0 ((i : ℝ) - s - c) - ((1 - c) * linOf P0 ((i : ℝ) - s) + c * linOf P0 ((i : ℝ) - s - 1)))) := by
        rw [show (i : ℝ) - (s + c) = (i : ℝ) - s - c by ring]
        linear_combination c * hp
      rw [split]
      refine (abs_add_three _ _ _).trans ?_
      rw [abs_neg, abs_neg]
      have t : |(1 - c) * (P i - linOf P0 ((i : ℝ) - s)) + c * (P (i - 1) - linOf P0 ((i : ℝ) - s - 1))| ≤ (1 - c) * W i + c * |P (i - 1) - linOf P0 ((i : ℝ) - s - 1)| := by
        refine (abs_add_le _ _).trans (le_of_eq ?_)
        rw [abs_mul, abs_mul, abs_of_nonneg (sub_nonneg.2 c2), ca]
      linarith
    · have ca : |c| = -c := abs_of_nonpos (not_lt.1 h)
      rw [ca] at near ⊢
      refine ⟨1, ⌊-s⌋, fun i => ?_⟩
      have n := near i
      rw [if_neg h] at n
      have b := (linOf_bend hP0 ((i : ℝ) - s + 1) (c := 1 + c) (by linarith) (by linarith)).2
      have ek : ⌊(i : ℝ) - s + 1⌋ = i + ⌊-s⌋ + 1 := by rw [Int.floor_add_one, sub_eq_add_neg, Int.floor_intCast_add]
      rw [ek] at b
      have eJ : J0 (i + ⌊-s⌋) = |q0 (i + ⌊-s⌋ + 1) - q0 (i + ⌊-s⌋ + 1 - 1)| := by
        simp only [hJ0, add_sub_cancel_right]
      have hp := hP i
      have ew : W (i + 1) = |P (i + 1) - linOf P0 ((i : ℝ) - s + 1)| := by
        simp only [hW]
        congr 3
        push_cast
        ring
      rw [eJ, ew]
      have split : (P i - c * rowUp lim q c i) - linOf P0 ((i : ℝ) - (s + c)) =
          ((1 - -c) * (P i - linOf P0 ((i : ℝ) - s)) + -c * (P (i + 1) - linOf P0 ((i : ℝ) - s + 1))) + (- (c * (rowUp lim q c i - q i))) +
          (- (linOf P0 ((i : ℝ) - s + 1 - (1 + c)) - ((1 - (1 + c)) * linOf P0 ((i : ℝ) - s + 1) + (1 + c) * linOf P0 ((i : ℝ) - s + 1 - 1)))) := by
        rw [show (i : ℝ) - (s + c) = (i : ℝ) - s + 1 - (1 + c) by ring, add_sub_cancel_right]
        linear_combination c * hp
      rw [split]
      refine (abs_add_three _ _ _).trans ?_
      rw [abs_neg, abs_neg]
      have t : |(1 - -c) * (P i - linOf P0 ((i : ℝ) - s)) + -c * (P (i + 1) - linOf P0 ((i : ℝ) - s + 1))| ≤ (1 - -c) * W i + -c * |P (i + 1) - linOf P0 ((i : ℝ) - s + 1)| := by
        refine (abs_add_le _ _).trans (le_of_eq ?_)
        rw [abs_mul, abs_mul, abs_neg, ca, abs_of_nonneg (by linarith : 0 ≤ 1 - -c)]
      have e1 : 1 - (1 + c) = -c := by ring
      rw [e1] at b ⊢
      linarith
  have main' : ∀ i ∈ Finset.range N, |(P i - c * rowUp lim q c i) - linOf P0 ((i : ℝ) - (s + c))| ≤
      (1 - |c|) * W i + |c| * W (i + sg) + |c| * J (i + -1) + |c| * J0 (i + k0) := fun i _ => by
    have := main i
    rwa [Int.cast_natCast] at this
  have eW : ∑ i ∈ Finset.range N, |P i - linOf P0 ((i : ℝ) - s)| = ∑ i ∈ Finset.range N, W i := Finset.sum_congr rfl fun i _ => by
    simp only [hW]
    rw [Int.cast_natCast]
  refine (Finset.sum_le_sum main').trans (le_of_eq ?_)
  rw [eW, Finset.sum_add_distrib, Finset.sum_add_distrib, Finset.sum_add_distrib, ← Finset.mul_sum, ← Finset.mul_sum, ← Finset.mul_sum, ← Finset.mul_sum,
    period_sum hWp, period_sum hJp, period_sum hJ0p, v1, v2]
  ring

/-- Small primitive and bounded variation make a row small. -/
theorem row_interpolate {N : ℕ} {W : ℤ → ℝ} (hW : ∀ i, W (i + N) = W i) {k : ℕ} (hk : 0 < k) :
    ∑ i ∈ Finset.range N, |W ((i : ℤ) + 1) - W i| ≤ (k - 1) / 2 * circleVar N (fun i => W (i + 1) - W i) + 2 / k * ∑ i ∈ Finset.range N, |W i| := by
  set e : ℤ → ℝ := fun i => W (i + 1) - W i with he
  have hep : ∀ i, e (i + N) = e i := fun i => by simp only [he, hW, add_right_comm i (N : ℤ) 1]
  have hV : circleVar N e = ∑ i ∈ Finset.range N, |e (i + 1) - e i| := circleVar_periodic hep
  have hdp : ∀ i : ℤ, |e (i + N + 1) - e (i + N)| = |e (i + 1) - e i| := fun i => by rw [hep, add_right_comm, hep]
  have far : ∀ j : ℕ, ∑ i ∈ Finset.range N, |e ((i : ℤ) + j) - e i| ≤ j * circleVar N e := by
    intro j
    induction j with
    | zero => simp
    | succ j ih =>
      have : ∑ i ∈ Finset.range N, |e ((i : ℤ) + (j + 1 : ℕ)) - e i| ≤ ∑ i ∈ Finset.range N, |e ((i : ℤ) + j) - e i| + ∑ i ∈ Finset.range N, |e ((i : ℤ) + j + 1) - e ((i : ℤ) + j)| := by
        rw [← Finset.sum_add_distrib]
        refine Finset.sum_le_sum fun i _ => ?_
        have t := abs_add_le (e ((i : ℤ) + j) - e i) (e ((i : ℤ) + j + 1) - e ((i : ℤ) + j))
        rw [show (i : ℤ) + (j + 1 : ℕ) = (i : ℤ) + j + 1 by push_cast; ring]
        refine le_trans (le_of_eq ?_) t
        congr 1
        ring
      rw [period_sum (f := fun i => |e (i + 1) - e i|) hdp, ← hV] at this
      have ej : ((j + 1 : ℕ) : ℝ) = (j : ℝ) + 1 := by push_cast; ring
      rw [ej]
      linarith
  have tel : ∀ i : ℤ, ∑ j ∈ Finset.range k, e (i + j) = W (i + k) - W i := fun i => by
    have := Finset.sum_range_sub (fun j : ℕ => W (i + j)) k
    simp only [Nat.cast_zero, add_zero] at this
    rw [← this]
    refine Finset.sum_congr rfl fun j _ => ?_
    simp only [he]
    congr 2
    push_cast
    ring
  have hk' : (0 : ℝ) < k := by exact_mod_cast hk
  have each : ∀ i : ℤ, (k : ℝ) * |e i| ≤ |W (i + k)| + |W i| + ∑ j ∈ Finset.range k, |e (i + j) - e i| := by
    intro i
    have h1 : (k : ℝ) * e i = W (i + k) - W i - ∑ j ∈ Finset.range k, (e (i + j) - e i) := by
      rw [Finset.sum_sub_distrib, tel, Finset.sum_const, Finset.card_range, nsmul_eq_mul]
      ring
    have h2 : (k : ℝ) * |e i| = |(k : ℝ) * e i| := by rw [abs_mul, abs_of_pos hk']
    rw [h2, h1]
    refine (abs_sub _ _).trans (add_le_add (abs_sub _ _) (Finset.abs_sum_le_sum_abs _ _))
  have hsum := Finset.sum_le_sum fun i (_ : i ∈ Finset.range N) => each (i : ℤ)
  rw [← Finset.mul_sum, Finset.sum_add_distrib, Finset.sum_add_distrib, Finset.sum_comm, period_sum (f := fun i => |W i|) (fun i => by rw [hW])] at hsum
  have hfar : ∑ j ∈ Finset.range k, ∑ i ∈ Finset.range N, |e ((i : ℤ) + j) - e i| ≤ (k * (k - 1) / 2) * circleVar N e := by
    refine (Finset.sum_le_sum fun j _ => far j).trans (le_of_eq ?_)
    rw [← Finset.sum_mul]
    congr 1
    have := Finset.sum_range_id_mul_two k
    have h2 : ((∑ j ∈ Finset.range k, j : ℕ) : ℝ) * 2 = k * (k - 1) := by
      obtain ⟨l, rfl⟩ : ∃ l, k = l + 1 := ⟨k - 1, by omega⟩
      rw [Nat.add_sub_cancel] at this
      rw [Nat.cast_add_one, add_sub_cancel_right]
      exact_mod_cast this
    push_cast at h2
    linarith
  have hfin : (k : ℝ) * ∑ i ∈ Finset.range N, |e i| ≤ k * ((k - 1) / 2 * circleVar N e + 2 / k * ∑ i ∈ Finset.range N, |W i|) := by
    refine hsum.trans ?_
    have : (k : ℝ) * ((k - 1) / 2 * circleVar N e + 2 / k * ∑ i ∈ Finset.range N, |W i|) = (k * (k - 1) / 2) * circleVar N e + 2 * ∑ i ∈ Finset.range N, |W i| := by
      field_simp
    rw [this]
    linarith
  exact le_of_mul_le_mul_left hfin hk'

/-- The moved means do not vary more. -/
theorem movedMean_var {N : ℕ} {q : ℤ → ℝ} (hq : ∀ i, q (i + N) = q i) (s : ℝ) :
    (∀ i, movedMean q s (i + N) = movedMean q s i) ∧ circleVar N (movedMean q s) ≤ circleVar N q := by
  have ek : ∀ i : ℤ, ⌊(i : ℝ) - s⌋ = i + ⌊-s⌋ := fun i => by rw [sub_eq_add_neg, Int.floor_intCast_add]
  have ef : ∀ i : ℤ, Int.fract ((i : ℝ) - s) = Int.fract (-s) := fun i => by rw [sub_eq_add_neg, Int.fract_intCast_add]
  have em : ∀ i, movedMean q s i = (1 - Int.fract (-s)) * q (i + ⌊-s⌋) + Int.fract (-s) * q (i + ⌊-s⌋ + 1) := fun i => by
    unfold movedMean
    rw [ek, ef]
  have hper : ∀ i, movedMean q s (i + N) = movedMean q s i := fun i => by
    rw [em, em, add_right_comm i, hq, add_right_comm _ (N : ℤ) 1, hq]
  refine ⟨hper, ?_⟩
  rw [circleVar_periodic hper, circleVar_periodic hq]
  have f0 := Int.fract_nonneg (-s)
  have f1 := (Int.fract_lt_one (-s)).le
  set f := Int.fract (-s)
  set k := ⌊-s⌋
  have hJ : ∀ i : ℤ, |q (i + N + 1) - q (i + N)| = |q (i + 1) - q i| := fun i => by rw [hq, add_right_comm, hq]
  have each : ∀ i ∈ Finset.range N, |movedMean q s ((i : ℤ) + 1) - movedMean q s i| ≤ (1 - f) * |q ((i : ℤ) + k + 1) - q ((i : ℤ) + k)| + f * |q ((i : ℤ) + (k + 1) + 1) - q ((i : ℤ) + (k + 1))| := by
    intro i _
    rw [em, em]
    have : (1 - f) * q ((i : ℤ) + 1 + k) + f * q ((i : ℤ) + 1 + k + 1) - ((1 - f) * q ((i : ℤ) + k) + f * q ((i : ℤ) + k + 1)) =
        (1 - f) * (q ((i : ℤ) + k + 1) - q ((i : ℤ) + k)) + f * (q ((i : ℤ) + (k + 1) + 1) - q ((i : ℤ) + (k + 1))) := by
      rw [add_right_comm (i : ℤ) 1 k, ← add_assoc]
      ring
    rw [this]
    refine (abs_add_le _ _).trans (le_of_eq ?_)
    rw [abs_mul, abs_mul, abs_of_nonneg f0, abs_of_nonneg (sub_nonneg.2 f1)]
  refine (Finset.sum_le_sum each).trans (le_of_eq ?_)
  rw [Finset.sum_add_distrib, ← Finset.mul_sum, ← Finset.mul_sum, period_sum (f := fun i => |q (i + 1) - q i|) hJ, period_sum (f := fun i => |q (i + 1) - q i|) hJ]
  ring

/-- The error of a row against the exact solution, from that of the primitive. -/
theorem row_error {N : ℕ} {q q0 P P0 : ℤ → ℝ} {m T s mu : ℝ} (hq : ∀ i, q (i + N) = q i) (hq0 : ∀ i, q0 (i + N) = q0 i)
    (hP : ∀ i, P (i + 1) - P i = q i) (hP0 : ∀ i, P0 (i + 1) - P0 i = q0 i) (hm : ∀ i, P (i + N) = P i + m) (hm0 : ∀ i, P0 (i + N) = P0 i + m)
    (hT : circleVar N q ≤ T) (hT0 : circleVar N q0 ≤ T) (hmu : 0 ≤ mu) (hE : ∑ i ∈ Finset.range N, |P i - linOf P0 ((i : ℝ) - s)| ≤ 2 * T * mu) :
    ∑ i ∈ Finset.range N, |q i - movedMean q0 s i| ≤ 4 * T * Real.sqrt mu := by
  set W : ℤ → ℝ := fun i => P i - linOf P0 ((i : ℝ) - s) with hW
  have hWp : ∀ i, W (i + N) = W i := fun i => by
    simp only [hW]
    have e : (((i + N : ℤ)) : ℝ) - s = ((i : ℝ) - s) + ((N : ℤ) : ℝ) := by push_cast; ring
    rw [hm, e, linOf_add P0 m N hm0]
    ring
  have hE : ∑ i ∈ Finset.range N, |W i| ≤ 2 * T * mu := by
    refine le_trans (le_of_eq (Finset.sum_congr rfl fun i _ => ?_)) hE
    simp only [hW]
    rw [Int.cast_natCast]
  have hT1 : 0 ≤ T := le_trans (by unfold circleVar; exact Finset.sum_nonneg fun i _ => abs_nonneg _) hT
  have ee : ∀ i, W (i + 1) - W i = q i - movedMean q0 s i := fun i => by
    rw [← linOf_moved hP0, ← hP i]
    simp only [hW]
    ring
  have hvar : circleVar N (fun i => W (i + 1) - W i) ≤ 2 * T := by
    obtain ⟨p1, p2⟩ := movedMean_var hq0 s
    have e1 : (fun i => W (i + 1) - W i) = fun i => q i - movedMean q0 s i := funext ee
    rw [e1, circleVar_periodic (fun i => by rw [hq, p1])]
    rw [circleVar_periodic p1] at p2
    rw [circleVar_periodic hq] at hT
    have : ∑ i ∈ Finset.range N, |q ((i : ℤ) + 1) - movedMean q0 s ((i : ℤ) + 1) - (q i - movedMean q0 s i)| ≤
        ∑ i ∈ Finset.range N, |q ((i : ℤ) + 1) - q i| + ∑ i ∈ Finset.range N, |movedMean q0 s ((i : ℤ) + 1) - movedMean q0 s i| := by
      rw [← Finset.sum_add_distrib]
      refine Finset.sum_le_sum fun i _ => ?_
      rw [show q ((i : ℤ) + 1) - movedMean q0 s ((i : ℤ) + 1) - (q i - movedMean q0 s i) = (q ((i : ℤ) + 1) - q i) - (movedMean q0 s ((i : ℤ) + 1) - movedMean q0 s i) by ring]
      exact abs_sub _ _
    linarith
  have inter : ∀ k : ℕ, 0 < k → ∑ i ∈ Finset.range N, |q i - movedMean q0 s i| ≤ (k - 1) * T + 4 * T * mu / k := by
    intro k hk
    have h := row_interpolate hWp hk
    simp only [ee] at h
    have e1 : (fun i => W (i + 1) - W i) = fun i => q i - movedMean q0 s i := funext ee
    rw [e1] at hvar
    have hk' : (1 : ℝ) ≤ k := by exact_mod_cast hk
    have b1 : ((k : ℝ) - 1) / 2 * circleVar N (fun i => q i - movedMean q0 s i) ≤ (k - 1) * T := by
      calc ((k : ℝ) - 1) / 2 * circleVar N (fun i => q i - movedMean q0 s i) ≤ ((k : ℝ) - 1) / 2 * (2 * T) := mul_le_mul_of_nonneg_left hvar (by linarith)
        _ = (k - 1) * T := by ring
    have b2 : 2 / (k : ℝ) * ∑ i ∈ Finset.range N, |W i| ≤ 4 * T * mu / k := by
      calc 2 / (k : ℝ) * ∑ i ∈ Finset.range N, |W i| ≤ 2 / (k : ℝ) * (2 * T * mu) := mul_le_mul_of_nonneg_left hE (by positivity)
        _ = 4 * T * mu / k := by ring
    linarith
  rcases hmu.eq_or_lt with rfl | hmu
  · have := inter 1 one_pos
    simp at this ⊢
    exact this
  have hs : 0 < Real.sqrt mu := Real.sqrt_pos.2 hmu
  have hss : Real.sqrt mu * Real.sqrt mu = mu := Real.mul_self_sqrt hmu.le
  have hk : 0 < ⌈2 * Real.sqrt mu⌉₊ := Nat.ceil_pos.2 (by positivity)
  have h1 := Nat.ceil_lt_add_one (a := 2 * Real.sqrt mu) (by positivity)
  have h2 := Nat.le_ceil (2 * Real.sqrt mu)
  refine (inter _ hk).trans ?_
  have hk' : (0 : ℝ) < (⌈2 * Real.sqrt mu⌉₊ : ℝ) := by exact_mod_cast hk
  have b1 : ((⌈2 * Real.sqrt mu⌉₊ : ℝ) - 1) * T ≤ 2 * Real.sqrt mu * T := mul_le_mul_of_nonneg_right (by linarith) hT1
  have b2 : 4 * T * mu / (⌈2 * Real.sqrt mu⌉₊ : ℝ) ≤ 2 * T * Real.sqrt mu := by
    rw [div_le_iff₀ hk']
    calc 4 * T * mu = 2 * T * Real.sqrt mu * (2 * Real.sqrt mu) := by linear_combination (-4 * T) * hss
      _ ≤ _ := mul_le_mul_of_nonneg_left h2 (by positivity)
  linarith

end Heracles

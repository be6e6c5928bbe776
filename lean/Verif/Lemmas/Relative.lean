import Verif.Lemmas.Doubles
import Mathlib.Tactic.Positivity
import Mathlib.Tactic.GCongr
import Mathlib.Algebra.Order.Ring.Pow

/-!
# Relative errors of rounded formulas

`Near k x y`: the numbers `x` and `y`, not negative, differ by at most `k` roundings to nearest.
-/

namespace Heracles

/-- The relative error of one rounding to nearest. -/
def eps53 : ℚ := 1 / 2 ^ 53

theorem eps53_pos : 0 < eps53 := by unfold eps53; norm_num
theorem eps53_lt : eps53 < 1 := by unfold eps53; norm_num

/-- `x` and `y` differ by at most `k` roundings. -/
structure Near (k : ℕ) (x y : ℚ) : Prop where
  left : 0 ≤ x
  right : 0 ≤ y
  le : x * (1 - eps53) ^ k ≤ y
  ge : y * (1 - eps53) ^ k ≤ x

theorem near_base : 0 < 1 - eps53 ∧ 1 - eps53 ≤ 1 := ⟨by linarith [eps53_lt], by linarith [eps53_pos]⟩

theorem near_pow (k : ℕ) : 0 < (1 - eps53) ^ k ∧ (1 - eps53) ^ k ≤ 1 :=
  ⟨pow_pos near_base.1 k, pow_le_one₀ near_base.1.le near_base.2⟩

namespace Near
variable {k l : ℕ} {x y z a b a' b' : ℚ}

theorem refl (h : 0 ≤ x) : Near 0 x x := ⟨h, h, by simp, by simp⟩

theorem symm (h : Near k x y) : Near k y x := ⟨h.right, h.left, h.ge, h.le⟩

theorem mono (h : Near k x y) (hl : k ≤ l) : Near l x y := by
  have hp : (1 - eps53) ^ l ≤ (1 - eps53) ^ k := pow_le_pow_of_le_one near_base.1.le near_base.2 hl
  exact ⟨h.left, h.right, (mul_le_mul_of_nonneg_left hp h.left).trans h.le, (mul_le_mul_of_nonneg_left hp h.right).trans h.ge⟩

theorem trans (h : Near k x y) (h' : Near l y z) : Near (k + l) x z := by
  refine ⟨h.left, h'.right, ?_, ?_⟩
  · rw [pow_add, ← mul_assoc]
    exact (mul_le_mul_of_nonneg_right h.le (near_pow l).1.le).trans h'.le
  · rw [pow_add, mul_comm ((1 - eps53) ^ k), ← mul_assoc]
    exact (mul_le_mul_of_nonneg_right h'.ge (near_pow k).1.le).trans h.ge

theorem add (h : Near k a a') (h' : Near k b b') : Near k (a + b) (a' + b') :=
  ⟨add_nonneg h.left h'.left, add_nonneg h.right h'.right, by rw [add_mul]; exact add_le_add h.le h'.le,
    by rw [add_mul]; exact add_le_add h.ge h'.ge⟩

theorem mul (h : Near k a a') (h' : Near l b b') : Near (k + l) (a * b) (a' * b') := by
  refine ⟨mul_nonneg h.left h'.left, mul_nonneg h.right h'.right, ?_, ?_⟩
  · rw [pow_add, show a * b * ((1 - eps53) ^ k * (1 - eps53) ^ l) = a * (1 - eps53) ^ k * (b * (1 - eps53) ^ l) by ring]
    exact mul_le_mul h.le h'.le (mul_nonneg h'.left (near_pow l).1.le) h.right
  · rw [pow_add, show a' * b' * ((1 - eps53) ^ k * (1 - eps53) ^ l) = a' * (1 - eps53) ^ k * (b' * (1 - eps53) ^ l) by ring]
    exact mul_le_mul h.ge h'.ge (mul_nonneg h'.right (near_pow l).1.le) h.left

theorem inv (h : Near k a a') (ha : 0 < a) : 0 < a' ∧ Near k a⁻¹ a'⁻¹ := by
  have ha' : 0 < a' := lt_of_lt_of_le (mul_pos ha (near_pow k).1) h.le
  refine ⟨ha', inv_nonneg.2 ha.le, inv_nonneg.2 ha'.le, ?_, ?_⟩
  · rw [inv_mul_le_iff₀ ha, le_mul_inv_iff₀ ha', mul_comm]
    exact h.ge
  · rw [inv_mul_le_iff₀ ha', le_mul_inv_iff₀ ha, mul_comm]
    exact h.le

theorem div (h : Near k a a') (h' : Near l b b') (hb : 0 < b) : Near (k + l) (a / b) (a' / b') := by
  rw [div_eq_mul_inv, div_eq_mul_inv]
  exact h.mul (h'.inv hb).2

/-- Rounding to nearest. -/
theorem rnd {r : ℚ → ℚ} (hr : Nearest r) (x : ℚ) : Near 1 |x| |r x| := by
  have h := hr.rel x
  have h1 : |x| - |r x| ≤ |x - r x| := abs_sub_abs_le_abs_sub x (r x)
  have h2 : |r x| - |x| ≤ |x - r x| := by rw [abs_sub_comm]; exact abs_sub_abs_le_abs_sub (r x) x
  have h3 : |x - r x| ≤ |x| * eps53 := by unfold eps53; rw [mul_one_div]; exact h
  have hx := abs_nonneg x
  refine ⟨hx, abs_nonneg _, ?_, ?_⟩
  · rw [pow_one]; linarith
  · rw [pow_one]
    have h4 : |r x| ≤ |x| * (1 + eps53) := by linarith
    calc |r x| * (1 - eps53) ≤ |x| * (1 + eps53) * (1 - eps53) := mul_le_mul_of_nonneg_right h4 near_base.1.le
      _ = |x| * (1 - eps53 ^ 2) := by ring
      _ ≤ |x| := mul_le_of_le_one_right hx (by nlinarith [eps53_pos])

theorem rnd_pos {r : ℚ → ℚ} (hr : Nearest r) (h : Near k x y) : Near (k + 1) x (r y) := by
  have h1 := rnd hr y
  rw [abs_of_nonneg h.right, abs_of_nonneg (hr.nonneg h.right)] at h1
  exact h.trans h1

/-- The relative error. -/
theorem abs_sub_le (h : Near k x y) (hk : (k : ℚ) * (k + 1) * eps53 ≤ 1) : |y - x| ≤ (k + 1) * eps53 * x := by
  have he := eps53_pos
  have hb : 1 - k * eps53 ≤ (1 - eps53) ^ k := by
    have := one_add_mul_le_pow (a := -eps53) (by linarith [eps53_lt]) k
    rw [← sub_eq_add_neg] at this
    linarith
  have hx := h.left
  have hy := h.right
  have hk0 : (0 : ℚ) ≤ k := Nat.cast_nonneg k
  rw [abs_le]
  constructor
  · have := (mul_le_mul_of_nonneg_left hb hx).trans h.le
    nlinarith
  · have h1 := (mul_le_mul_of_nonneg_left hb hy).trans h.ge
    -- y (1 - k e) ≤ x and (1 - k e) (1 + (k + 1) e) ≥ 1
    have h2 : 1 ≤ (1 - k * eps53) * (1 + (k + 1) * eps53) := by nlinarith
    have h3 : 0 ≤ 1 + ((k : ℚ) + 1) * eps53 := by positivity
    have h4 : y ≤ x * (1 + (k + 1) * eps53) := by
      calc y = y * 1 := (mul_one y).symm
        _ ≤ y * ((1 - k * eps53) * (1 + (k + 1) * eps53)) := mul_le_mul_of_nonneg_left h2 hy
        _ = y * (1 - k * eps53) * (1 + (k + 1) * eps53) := by ring
        _ ≤ _ := mul_le_mul_of_nonneg_right h1 h3
    linarith

end Near

end Heracles

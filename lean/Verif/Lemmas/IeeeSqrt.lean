import Verif.Model.Ieee
import Mathlib.Tactic.NormNum

/-!
# The square root of the machine

What `sqrtMag` (Model/Ieee.lean) has to do with square roots, and rounding of numbers with the opposite sign.
-/

namespace Heracles

namespace Ieee

theorem sqrtDigits_spec {N : ℕ} : ∀ (k r : ℕ), r * r ≤ N → N < (r + 2 ^ k) * (r + 2 ^ k) →
    sqrtDigits N k r * sqrtDigits N k r ≤ N ∧ N < (sqrtDigits N k r + 1) * (sqrtDigits N k r + 1)
  | 0, r, h1, h2 => ⟨h1, h2⟩
  | k + 1, r, h1, h2 => by
    unfold sqrtDigits
    split
    · rename_i h
      refine sqrtDigits_spec k _ h ?_
      rwa [add_assoc, ← two_mul, ← pow_succ']
    · rename_i h
      exact sqrtDigits_spec k _ h1 (not_le.1 h)

/-- The exponent of the last of the digits `sqrtMag` computes. -/
def sqrtExp (m : ℚ) : ℤ := Int.log 2 m / 2 - 60

/-- `sqrtMag` rounds as the square root does: it is on the same side of every multiple of the last digit that was computed, a digit 8
places behind the last one of a `double`, or equal to it when the square root is. All `double`s close to the square root and all
numbers in the middle between two of them are such multiples. -/
theorem sqrtMag_side {m : ℚ} (hm : 0 < m) (k : ℕ) :
    (((k : ℚ) * 2 ^ sqrtExp m) * (k * 2 ^ sqrtExp m) < m ↔ (k : ℚ) * 2 ^ sqrtExp m < sqrtMag m) ∧
    (((k : ℚ) * 2 ^ sqrtExp m) * (k * 2 ^ sqrtExp m) = m ↔ (k : ℚ) * 2 ^ sqrtExp m = sqrtMag m) := by
  set j := sqrtExp m with hj
  have hp := two_zpow_pos j
  have hpp : (0 : ℚ) < 2 ^ j * 2 ^ j := mul_pos hp hp
  set q := m / (2 ^ j * 2 ^ j) with hq
  have hq0 : 0 < q := div_pos hm hpp
  have hmq : m = q * (2 ^ j * 2 ^ j) := (div_mul_cancel₀ _ hpp.ne').symm
  set s := sqrtDigits ⌊q⌋.toNat 62 0 with hs
  have hdef : sqrtMag m = (if (s * s : ℚ) = q then (s : ℚ) else s + 1 / 2) * 2 ^ j := rfl
  have hlt : q < 2 ^ 124 := by
    rw [hq, div_lt_iff₀ hpp]
    have h1 := Int.lt_zpow_succ_log_self (b := 2) (by norm_num) m
    refine lt_of_lt_of_le (by exact_mod_cast h1) ?_
    rw [← zpow_natCast, ← zpow_add₀ (by norm_num), ← zpow_add₀ (by norm_num)]
    refine zpow_le_zpow_right₀ (by norm_num) ?_
    rw [hj]
    unfold sqrtExp
    push_cast
    omega
  have hfl : 0 ≤ ⌊q⌋ := Int.floor_nonneg.2 hq0.le
  have hN : ⌊q⌋.toNat < 2 ^ 124 := by
    have : ⌊q⌋ < 2 ^ 124 := Int.floor_lt.2 (by exact_mod_cast hlt)
    omega
  obtain ⟨h1, h2⟩ := sqrtDigits_spec (N := ⌊q⌋.toNat) 62 0 (by simp) (by
    have : ((0 : ℕ) + 2 ^ 62) * (0 + 2 ^ 62) = 2 ^ 124 := by norm_num
    omega)
  rw [← hs] at h1 h2
  have hc : ((⌊q⌋.toNat : ℕ) : ℤ) = ⌊q⌋ := Int.toNat_of_nonneg hfl
  have g1 : (s * s : ℚ) ≤ q := by
    have : ((s * s : ℕ) : ℤ) ≤ ⌊q⌋ := by rw [← hc]; exact_mod_cast h1
    have := Int.le_floor.1 this
    exact_mod_cast this
  have g2 : q < ((s : ℚ) + 1) * (s + 1) := by
    have : ⌊q⌋ < (((s + 1) * (s + 1) : ℕ) : ℤ) := by rw [← hc]; exact_mod_cast h2
    have := Int.floor_lt.1 this
    exact_mod_cast this
  have e1 : ((k : ℚ) * 2 ^ j) * (k * 2 ^ j) = (k * k) * (2 ^ j * 2 ^ j) := by ring
  have hk0 : (0 : ℚ) ≤ k := Nat.cast_nonneg k
  have hs0 : (0 : ℚ) ≤ s := Nat.cast_nonneg s
  have key : ((k : ℚ) * k < q ↔ (k : ℚ) < if (s * s : ℚ) = q then (s : ℚ) else s + 1 / 2) ∧
      ((k : ℚ) * k = q ↔ (k : ℚ) = if (s * s : ℚ) = q then (s : ℚ) else s + 1 / 2) := by
    split
    · rename_i h
      rw [← h]
      exact ⟨⟨fun h => lt_of_mul_self_lt_mul_self₀ hs0 h, fun h => mul_self_lt_mul_self hk0 h⟩,
        ⟨fun h => (mul_self_inj hk0 hs0).1 h, fun h => by rw [h]⟩⟩
    · rename_i h
      have g1' : (s * s : ℚ) < q := lt_of_le_of_ne g1 h
      have hhalf : ∀ t : ℕ, (t : ℚ) ≠ s + 1 / 2 := by
        intro t ht
        have h2 : (2 * t : ℚ) = 2 * s + 1 := by rw [ht]; ring
        have : 2 * t = 2 * s + 1 := by exact_mod_cast h2
        omega
      rcases le_or_gt k s with hks | hks
      · have hks' : (k : ℚ) ≤ s := by exact_mod_cast hks
        have h3 : (k : ℚ) * k ≤ s * s := mul_self_le_mul_self hk0 hks'
        exact ⟨⟨fun _ => by linarith, fun _ => by linarith⟩, ⟨fun e => by linarith, fun e => absurd e (hhalf k)⟩⟩
      · have hks' : (s : ℚ) + 1 ≤ k := by exact_mod_cast hks
        have h3 : ((s : ℚ) + 1) * (s + 1) ≤ k * k := mul_self_le_mul_self (by linarith) hks'
        exact ⟨⟨fun _ => by linarith, fun _ => by linarith⟩, ⟨fun e => by linarith, fun e => absurd e (hhalf k)⟩⟩
  rw [hdef, e1]
  refine ⟨?_, ?_⟩
  · rw [mul_lt_mul_iff_left₀ hp, ← key.1]
    conv_lhs => rw [hmq]
    rw [mul_lt_mul_iff_left₀ hpp]
  · rw [mul_left_inj' hp.ne', ← key.2]
    conv_lhs => rw [hmq]
    rw [mul_left_inj' hpp.ne']

example : Ieee.sqrt (.lit 4) = .lit 2 ∧ Ieee.sqrt (.lit 2) = .lit (6369051672525773 / 2 ^ 52) ∧
    Ieee.sqrt (.lit (1 / 10)) = .lit (5696652996790543 / 2 ^ 54) ∧ Ieee.sqrt (.lit (-1)) = .nan := by decide +kernel

end Ieee

theorem roundEven_neg (x : ℚ) : roundEven (-x) = -roundEven x := by
  have h1 := Int.floor_le x
  have h2 := Int.lt_floor_add_one x
  by_cases hx : x = ⌊x⌋
  · have : ⌊-x⌋ = -⌊x⌋ := Int.floor_eq_iff.2 ⟨by push_cast; linarith, by push_cast; linarith⟩
    unfold roundEven
    rw [this]
    have e1 : -x - ((-⌊x⌋ : ℤ) : ℚ) = 0 := by push_cast; linarith
    have e2 : x - (⌊x⌋ : ℚ) = 0 := by linarith
    rw [e1, e2]
    norm_num
  · have hlt : (⌊x⌋ : ℚ) < x := lt_of_le_of_ne h1 (Ne.symm hx)
    have : ⌊-x⌋ = -⌊x⌋ - 1 := by
      rw [Int.floor_eq_iff]
      push_cast
      constructor <;> linarith
    unfold roundEven
    rw [this]
    have e1 : -x - ((-⌊x⌋ - 1 : ℤ) : ℚ) = 1 - (x - ⌊x⌋) := by push_cast; ring
    rw [e1]
    generalize x - (⌊x⌋ : ℚ) = t
    split_ifs <;> first | omega | (exfalso; linarith)

theorem roundDouble_neg (x : ℚ) : roundDouble (-x) = -roundDouble x := by
  have : ulpExp (-x) = ulpExp x := by unfold ulpExp; rw [abs_neg]
  unfold roundDouble
  rw [this, neg_div, roundEven_neg]
  push_cast
  ring

end Heracles

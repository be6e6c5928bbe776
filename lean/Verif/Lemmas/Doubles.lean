import Verif.Model.Doubles
import Mathlib.Tactic.Linarith
import Mathlib.Tactic.NormNum
import Mathlib.Tactic.Ring
import Mathlib.Tactic.Positivity
import Mathlib.Tactic.FieldSimp
import Mathlib.Tactic.Push

/-!
# Facts about double precision numbers
-/

namespace Heracles

theorem two_zpow_pos (e : ℤ) : (0 : ℚ) < 2 ^ e := zpow_pos (by norm_num) e

theorem IsDouble.of_le {m e : ℤ} (h : |m| ≤ 2 ^ 53) : IsDouble (m * 2 ^ e) := ⟨m, e, h, rfl⟩

theorem isDouble_int {m : ℤ} (h : |m| ≤ 2 ^ 53) : IsDouble m := ⟨m, 0, h, by simp⟩

theorem isDouble_zero : IsDouble 0 := ⟨0, 0, by simp, by simp⟩

theorem IsDouble.neg {x : ℚ} (h : IsDouble x) : IsDouble (-x) := by
  obtain ⟨m, e, h1, rfl⟩ := h
  exact ⟨-m, e, by rwa [abs_neg], by push_cast; ring⟩

/-- A multiple of `2 ^ e` that is small enough is a `double`. -/
theorem isDouble_of_multiple {k e : ℤ} {b : ℚ} (hb : b ≤ 2 ^ 53 * 2 ^ e) (h : |(k : ℚ) * 2 ^ e| ≤ b) : IsDouble (k * 2 ^ e) := by
  refine ⟨k, e, ?_, rfl⟩
  rw [abs_mul, abs_of_pos (two_zpow_pos e)] at h
  have : |(k : ℚ)| ≤ 2 ^ 53 := le_of_mul_le_mul_right (h.trans hb) (two_zpow_pos e)
  exact_mod_cast this

/-- A number written with a larger exponent. -/
theorem zpow_split {e e' : ℤ} (h : e ≤ e') (m : ℤ) : (m : ℚ) * 2 ^ e' = ((m * 2 ^ (e' - e).toNat : ℤ) : ℚ) * 2 ^ e := by
  have : e' = ((e' - e).toNat : ℤ) + e := by omega
  rw [this, zpow_add₀ (by norm_num : (2 : ℚ) ≠ 0), zpow_natCast]
  push_cast
  rw [← this]
  ring

/-- The difference of two close `double`s is a `double` (Sterbenz). -/
theorem IsDouble.sub {a b : ℚ} (ha : IsDouble a) (hb : IsDouble b) (h1 : b ≤ 2 * a) (h2 : a ≤ 2 * b) : IsDouble (a - b) := by
  obtain ⟨m, e, hm, rfl⟩ := ha
  obtain ⟨m', e', hm', rfl⟩ := hb
  have hp := two_zpow_pos e
  have hp' := two_zpow_pos e'
  have hmq : |(m : ℚ)| ≤ 2 ^ 53 := by exact_mod_cast hm
  have hmq' : |(m' : ℚ)| ≤ 2 ^ 53 := by exact_mod_cast hm'
  rcases le_total e e' with h | h
  · have hb : (m : ℚ) * 2 ^ e ≤ 2 ^ 53 * 2 ^ e := mul_le_mul_of_nonneg_right ((le_abs_self _).trans hmq) hp.le
    have he : (m : ℚ) * 2 ^ e - m' * 2 ^ e' = ((m - m' * 2 ^ (e' - e).toNat : ℤ) : ℚ) * 2 ^ e := by
      rw [zpow_split h m']
      push_cast
      ring
    rw [he]
    refine isDouble_of_multiple hb ?_
    rw [← he, abs_le]
    constructor <;> linarith
  · have hb : (m' : ℚ) * 2 ^ e' ≤ 2 ^ 53 * 2 ^ e' := mul_le_mul_of_nonneg_right ((le_abs_self _).trans hmq') hp'.le
    have he : (m : ℚ) * 2 ^ e - m' * 2 ^ e' = ((m * 2 ^ (e - e').toNat - m' : ℤ) : ℚ) * 2 ^ e' := by
      rw [zpow_split h m]
      push_cast
      ring
    rw [he]
    refine isDouble_of_multiple hb ?_
    rw [← he, abs_le]
    constructor <;> linarith

namespace Nearest

variable {rnd : ℚ → ℚ} (hr : Nearest rnd)
include hr

theorem eq_self {x : ℚ} (h : IsDouble x) : rnd x = x := by
  have := hr.nearest x x h
  rw [sub_self, abs_zero] at this
  have := abs_eq_zero.1 (le_antisymm this (abs_nonneg _))
  linarith

theorem mono {x y : ℚ} (h : x ≤ y) : rnd x ≤ rnd y := by
  rcases h.eq_or_lt with rfl | h
  · exact le_rfl
  by_contra hc
  push Not at hc
  have h1 := hr.nearest x _ (hr.double y)
  have h2 := hr.nearest y _ (hr.double x)
  rcases le_total x (rnd y) with a | a
  · rw [abs_of_nonpos (by linarith), abs_of_nonpos (by linarith)] at h1
    linarith
  · rcases le_total (rnd x) y with b | b
    · rw [abs_of_nonneg (by linarith), abs_of_nonneg (by linarith)] at h2
      linarith
    · rw [abs_of_nonpos (by linarith [a, b] : x - rnd x ≤ 0), abs_of_nonneg (by linarith : 0 ≤ x - rnd y)] at h1
      rw [abs_of_nonneg (by linarith : 0 ≤ y - rnd y), abs_of_nonpos (by linarith : y - rnd x ≤ 0)] at h2
      linarith

/-- The exact value of a rounded number: the only `double` within half a digit. -/
theorem eq_of_close {m e : ℤ} {x : ℚ} (h0 : 2 ^ 52 < m) (h1 : m ≤ 2 ^ 53) (h : |x - m * 2 ^ e| < 2 ^ e / 2) : rnd x = m * 2 ^ e := by
  have hp := two_zpow_pos e
  have hd : IsDouble ((m : ℚ) * 2 ^ e) := ⟨m, e, by rw [abs_of_nonneg (by linarith [pow_pos (by norm_num : (0 : ℤ) < 2) 52])]; exact h1, rfl⟩
  have hn := (hr.nearest x _ hd).trans_lt h
  obtain ⟨m', e', hm', hx⟩ := hr.double x
  have hdist : |rnd x - m * 2 ^ e| < 2 ^ e := by
    have e1 := abs_lt.1 h
    have e2 := abs_lt.1 hn
    rw [abs_lt]
    constructor <;> linarith
  rcases le_total e e' with he | he
  · rw [hx, zpow_split he] at hdist ⊢
    rw [← sub_mul, abs_mul, abs_of_pos hp] at hdist
    have h3 : |((m' * 2 ^ (e' - e).toNat : ℤ) : ℚ) - m| < 1 := by
      by_contra hc
      push Not at hc
      have := mul_le_mul_of_nonneg_right hc hp.le
      linarith
    have h4 : |m' * 2 ^ (e' - e).toNat - m| < 1 := by exact_mod_cast h3
    rw [sub_eq_zero.1 (Int.abs_lt_one_iff.1 h4)]
  · rcases he.eq_or_lt with he | he
    · subst he
      rw [hx] at hdist ⊢
      rw [← sub_mul, abs_mul, abs_of_pos hp] at hdist
      have h3 : |(m' : ℚ) - m| < 1 := by
        by_contra hc
        push Not at hc
        have := mul_le_mul_of_nonneg_right hc hp.le
        linarith
      have h4 : |m' - m| < 1 := by exact_mod_cast h3
      rw [sub_eq_zero.1 (Int.abs_lt_one_iff.1 h4)]
    · exfalso
      have h5 : rnd x ≤ 2 ^ 52 * 2 ^ e := by
        have hq : (m' : ℚ) ≤ 2 ^ 53 := (le_abs_self _).trans (by exact_mod_cast hm')
        have h6 : (2 : ℚ) ^ e' ≤ 2 ^ (e - 1) := zpow_le_zpow_right₀ (by norm_num) (by omega)
        have h7 : (2 : ℚ) ^ (e - 1) = 2 ^ e / 2 := by rw [zpow_sub₀ (by norm_num)]; norm_num
        rw [hx]
        calc (m' : ℚ) * 2 ^ e' ≤ 2 ^ 53 * 2 ^ e' := mul_le_mul_of_nonneg_right hq (two_zpow_pos _).le
          _ ≤ 2 ^ 53 * (2 ^ e / 2) := by rw [← h7]; exact mul_le_mul_of_nonneg_left h6 (by norm_num)
          _ = 2 ^ 52 * 2 ^ e := by ring
      have h8 : (2 : ℚ) ^ 52 + 1 ≤ m := by exact_mod_cast h0
      have h9 := mul_le_mul_of_nonneg_right h8 hp.le
      have := (abs_lt.1 hdist).1
      linarith

end Nearest

theorem roundEven_near (x : ℚ) (k : ℤ) : |x - roundEven x| ≤ |x - k| := by
  have h1 := Int.floor_le x
  have h2 := Int.lt_floor_add_one x
  have key : |x - roundEven x| ≤ 1 / 2 ∧ (roundEven x = ⌊x⌋ ∨ roundEven x = ⌊x⌋ + 1) := by
    unfold roundEven
    split
    · rename_i h
      exact ⟨by rw [abs_of_nonneg (by linarith)]; linarith, Or.inl rfl⟩
    · rename_i h
      split
      · rename_i h'
        exact ⟨by push_cast; rw [abs_of_nonpos (by linarith)]; linarith, Or.inr rfl⟩
      · rename_i h'
        split
        · exact ⟨by rw [abs_of_nonneg (by linarith)]; linarith, Or.inl rfl⟩
        · exact ⟨by push_cast; rw [abs_of_nonpos (by linarith)]; linarith, Or.inr rfl⟩
  by_cases hk : roundEven x = k
  · rw [hk]
  · have h3 : (1 : ℚ) ≤ |(roundEven x : ℚ) - k| := by
      have : 1 ≤ |roundEven x - k| := Int.one_le_abs (sub_ne_zero.2 hk)
      exact_mod_cast this
    have h4 : |(roundEven x : ℚ) - k| ≤ |x - roundEven x| + |x - k| := by
      have : (roundEven x : ℚ) - k = (x - k) - (x - roundEven x) := by ring
      rw [this]
      linarith [abs_sub (x - k) (x - roundEven x)]
    linarith [key.1]

theorem ulpExp_spec {x : ℚ} (hx : x ≠ 0) : 2 ^ 52 * 2 ^ ulpExp x ≤ |x| ∧ |x| < 2 ^ 53 * 2 ^ ulpExp x := by
  have hp : 0 < |x| := abs_pos.2 hx
  have h1 := Int.zpow_log_le_self (b := 2) (by norm_num) hp
  have h2 := Int.lt_zpow_succ_log_self (b := 2) (by norm_num) |x|
  have e1 : (2 : ℚ) ^ 52 * 2 ^ ulpExp x = 2 ^ Int.log 2 |x| := by
    rw [← zpow_natCast, ← zpow_add₀ (by norm_num)]
    congr 1
    unfold ulpExp
    push_cast
    ring
  have e2 : (2 : ℚ) ^ 53 * 2 ^ ulpExp x = 2 ^ (Int.log 2 |x| + 1) := by
    rw [← zpow_natCast, ← zpow_add₀ (by norm_num)]
    congr 1
    unfold ulpExp
    push_cast
    ring
  rw [e1, e2]
  exact ⟨by exact_mod_cast h1, by exact_mod_cast h2⟩

theorem roundDouble_sub (x : ℚ) : x - roundDouble x = (x / 2 ^ ulpExp x - roundEven (x / 2 ^ ulpExp x)) * 2 ^ ulpExp x := by
  have hp := two_zpow_pos (ulpExp x)
  unfold roundDouble
  rw [sub_mul, div_mul_cancel₀ _ hp.ne']

/-- The default rounding is a rounding to nearest. -/
theorem roundDouble_nearest : Nearest roundDouble := by
  constructor
  · intro x
    rcases eq_or_ne x 0 with rfl | hx
    · refine ⟨roundEven (0 / 2 ^ ulpExp 0), ulpExp 0, ?_, rfl⟩
      have h0 : roundEven ((0 : ℚ) / 2 ^ ulpExp 0) = 0 := by
        rw [zero_div]
        norm_num [roundEven]
      rw [h0]
      norm_num
    · refine ⟨roundEven (x / 2 ^ ulpExp x), ulpExp x, ?_, rfl⟩
      obtain ⟨-, h2⟩ := ulpExp_spec hx
      have hp := two_zpow_pos (ulpExp x)
      have h3 : |x / 2 ^ ulpExp x| < 2 ^ 53 := by
        rw [abs_div, abs_of_pos hp, div_lt_iff₀ hp]
        exact h2
      set q := x / 2 ^ ulpExp x
      have h4 := abs_lt.1 h3
      rw [abs_le]
      have h5 := Int.floor_le q
      have h6 := Int.lt_floor_add_one q
      have h7 : ⌊q⌋ < 2 ^ 53 := Int.floor_lt.2 (by push_cast; exact h4.2)
      have h8 : -(2 ^ 53) ≤ ⌊q⌋ := Int.le_floor.2 (by push_cast; linarith [h4.1])
      unfold roundEven
      constructor <;> (repeat' split) <;> omega
  · intro x y hy
    rcases eq_or_ne x 0 with rfl | hx
    · have h0 : roundDouble 0 = 0 := by
        unfold roundDouble
        rw [zero_div]
        norm_num [roundEven]
      rw [h0]
      simp
    obtain ⟨m, e, hm, rfl⟩ := hy
    obtain ⟨h1, h2⟩ := ulpExp_spec hx
    have hp := two_zpow_pos (ulpExp x)
    have key : ∀ k : ℤ, |x - roundDouble x| ≤ |x - k * 2 ^ ulpExp x| := by
      intro k
      have : x - k * 2 ^ ulpExp x = (x / 2 ^ ulpExp x - k) * 2 ^ ulpExp x := by
        rw [sub_mul, div_mul_cancel₀ _ hp.ne']
      rw [this, roundDouble_sub, abs_mul, abs_mul]
      exact mul_le_mul_of_nonneg_right (roundEven_near _ _) (abs_nonneg _)
    rcases le_or_gt (ulpExp x) e with he | he
    · rw [zpow_split he]
      exact key _
    · have hq : |(m : ℚ)| ≤ 2 ^ 53 := by exact_mod_cast hm
      have h6 : (2 : ℚ) ^ e ≤ 2 ^ (ulpExp x - 1) := zpow_le_zpow_right₀ (by norm_num) (by omega)
      have h7 : (2 : ℚ) ^ (ulpExp x - 1) = 2 ^ ulpExp x / 2 := by rw [zpow_sub₀ (by norm_num)]; norm_num
      have hy : |(m : ℚ) * 2 ^ e| ≤ 2 ^ 52 * 2 ^ ulpExp x := by
        rw [abs_mul, abs_of_pos (two_zpow_pos e)]
        calc |(m : ℚ)| * 2 ^ e ≤ 2 ^ 53 * 2 ^ e := mul_le_mul_of_nonneg_right hq (two_zpow_pos _).le
          _ ≤ 2 ^ 53 * (2 ^ ulpExp x / 2) := by rw [← h7]; exact mul_le_mul_of_nonneg_left h6 (by norm_num)
          _ = 2 ^ 52 * 2 ^ ulpExp x := by ring
      have h8 := abs_le.1 hy
      rcases lt_or_gt_of_ne hx with hneg | hpos
      · refine (key (-2 ^ 52)).trans ?_
        rw [abs_of_neg hneg] at h1
        push_cast
        rw [abs_of_nonpos (by linarith), abs_of_nonpos (by linarith)]
        linarith
      · refine (key (2 ^ 52)).trans ?_
        rw [abs_of_pos hpos] at h1
        push_cast
        rw [abs_of_nonneg (by linarith), abs_of_nonneg (by linarith)]
        linarith

namespace Nearest

variable {rnd : ℚ → ℚ} (hr : Nearest rnd)
include hr

/-- Relative error of a rounding to nearest. -/
theorem rel (x : ℚ) : |x - rnd x| ≤ |x| / 2 ^ 53 := by
  refine (hr.nearest x _ (roundDouble_nearest.double x)).trans ?_
  rcases eq_or_ne x 0 with rfl | hx
  · have h0 : roundDouble 0 = 0 := roundDouble_nearest.eq_self isDouble_zero
    simp [h0]
  obtain ⟨h1, -⟩ := ulpExp_spec hx
  have hp := two_zpow_pos (ulpExp x)
  have hh : |x / 2 ^ ulpExp x - roundEven (x / 2 ^ ulpExp x)| ≤ 1 / 2 :=
    (roundEven_near _ (round (x / 2 ^ ulpExp x))).trans (abs_sub_round _)
  rw [roundDouble_sub, abs_mul, abs_of_pos hp, le_div_iff₀ (by norm_num)]
  have := mul_le_mul_of_nonneg_right hh hp.le
  linarith

theorem pos {x : ℚ} (hx : 0 < x) : 0 < rnd x := by
  have h1 := hr.rel x
  rw [abs_of_pos hx] at h1
  have h2 := (abs_le.1 h1).2
  have h3 : x / 2 ^ 53 < x := div_lt_self hx (by norm_num)
  linarith

theorem nonneg {x : ℚ} (hx : 0 ≤ x) : 0 ≤ rnd x := by
  rw [← hr.eq_self isDouble_zero]
  exact hr.mono hx

theorem neg_pos {x : ℚ} (hx : x ≤ 0) : rnd x ≤ 0 := by
  rw [← hr.eq_self isDouble_zero]
  exact hr.mono hx

/-- Adding the rounded difference comes back to the target up to two roundings. -/
theorem land {t n : ℚ} (hn : IsDouble n) : |rnd (t + rnd (n - t)) - n| ≤ |n - t| / 2 ^ 52 := by
  have h1 := hr.rel (n - t)
  have h2 := hr.nearest (t + rnd (n - t)) n hn
  have h3 : |t + rnd (n - t) - n| ≤ |n - t| / 2 ^ 53 := by
    rw [abs_sub_comm] at h1
    refine le_trans (le_of_eq ?_) h1
    congr 1
    ring
  have h4 := abs_le.1 (h2.trans h3)
  have h5 := abs_le.1 h3
  have h6 : |n - t| / 2 ^ 52 = |n - t| / 2 ^ 53 + |n - t| / 2 ^ 53 := by ring
  rw [h6, abs_le]
  constructor <;> linarith [h4.1, h4.2, h5.1, h5.2]

/-- From the second half of the interval the target is hit exactly. -/
theorem land_exact {t n : ℚ} (ht : IsDouble t) (hn : IsDouble n) (h : n ≤ 2 * t) (h' : t ≤ 2 * n) : rnd (t + rnd (n - t)) = n := by
  rw [hr.eq_self (hn.sub ht (by linarith) (by linarith)), add_sub_cancel, hr.eq_self hn]

end Nearest

/-- A tie is rounded to the even side. -/
theorem roundDouble_tie {m e : ℤ} (h0 : 2 ^ 52 ≤ m) (h1 : m < 2 ^ 53) (hm : m % 2 = 0) :
    roundDouble ((m + 1 / 2) * 2 ^ e) = m * 2 ^ e := by
  have hp := two_zpow_pos e
  have hmq : (2 : ℚ) ^ 52 ≤ m := by exact_mod_cast h0
  have hmq1 : (m : ℚ) + 1 ≤ 2 ^ 53 := by exact_mod_cast h1
  have hx : ((m : ℚ) + 1 / 2) * 2 ^ e ≠ 0 := by positivity
  have he : ulpExp (((m : ℚ) + 1 / 2) * 2 ^ e) = e := by
    obtain ⟨a, b⟩ := ulpExp_spec hx
    rw [abs_of_pos (by positivity)] at a b
    set u := ulpExp (((m : ℚ) + 1 / 2) * 2 ^ e)
    have a' : (2 : ℚ) ^ 52 * 2 ^ u < 2 ^ 53 * 2 ^ e := by
      refine a.trans_lt (mul_lt_mul_of_pos_right ?_ hp)
      linarith
    have b' : (2 : ℚ) ^ 52 * 2 ^ e < 2 ^ 53 * 2 ^ u := by
      refine lt_of_le_of_lt (mul_le_mul_of_nonneg_right ?_ hp.le) b
      linarith
    have a2 : (2 : ℚ) ^ u < 2 ^ (e + 1) := by
      rw [zpow_add₀ (by norm_num)]
      norm_num at a' ⊢
      linarith
    have b2 : (2 : ℚ) ^ e < 2 ^ (u + 1) := by
      rw [zpow_add₀ (by norm_num)]
      norm_num at b' ⊢
      linarith
    have a3 := (zpow_lt_zpow_iff_right₀ (by norm_num : (1 : ℚ) < 2)).1 a2
    have b3 := (zpow_lt_zpow_iff_right₀ (by norm_num : (1 : ℚ) < 2)).1 b2
    omega
  unfold roundDouble
  rw [he, mul_div_cancel_right₀ _ hp.ne']
  congr 2
  have hf : ⌊(m : ℚ) + 1 / 2⌋ = m := by
    rw [Int.floor_eq_iff]
    constructor <;> linarith
  unfold roundEven
  rw [hf, if_neg (by linarith), if_neg (by linarith), if_pos hm]

end Heracles

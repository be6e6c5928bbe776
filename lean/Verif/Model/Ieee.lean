import Verif.Lemmas.Doubles
import Verif.Model.Ordered
import Verif.Model.Reduce

/-!
# IEEE 754 double precision: infinities, NaN, signed zeros, overflow, underflow

The type `double` of the code with everything in it: the numbers of the format binary64, two zeros, two infinities, NaN. The
operations are those of IEEE 754 with the default rounding (to nearest, ties to even). The payload and the sign of a NaN are left
out: there is one NaN.
-/

namespace Heracles

/-- The absolute values of finite `double`s: 53 binary digits, exponents from -1074 to 971. -/
def IsMag (x : ℚ) : Prop := ∃ (m : ℕ) (e : ℤ), m < 2 ^ 53 ∧ -1074 ≤ e ∧ e ≤ 971 ∧ x = m * 2 ^ e

/-- The exponent of the last digit of the `double`s close to `x`: not below -1074, where the numbers are subnormal. -/
def ieeeExp (x : ℚ) : ℤ := max (ulpExp x) (-1074)

/-- Rounding to nearest, ties to even, of a positive `x`, before the test for overflow. -/
def roundMag (x : ℚ) : ℚ := roundEven (x / 2 ^ ieeeExp x) * 2 ^ ieeeExp x

theorem two_pos_zpow_ne (e : ℤ) : (2 : ℚ) ^ e ≠ 0 := (two_zpow_pos e).ne'

theorem roundEven_mono_nat {x : ℚ} {k : ℕ} (h : x < k) : roundEven x ≤ k := by
  have h1 : ⌊x⌋ < (k : ℤ) := Int.floor_lt.2 (by exact_mod_cast h)
  unfold roundEven
  split_ifs <;> omega

theorem roundEven_nonneg {x : ℚ} (h : 0 ≤ x) : 0 ≤ roundEven x := by
  have h1 : 0 ≤ ⌊x⌋ := Int.floor_nonneg.2 h
  unfold roundEven
  split_ifs <;> omega

theorem two_pow_split {m : ℕ} {e : ℤ} (h : (m : ℤ) + e = 1024) : (2 : ℚ) ^ m * 2 ^ e = 2 ^ 1024 := by
  rw [← zpow_natCast, ← zpow_add₀ (by norm_num), h]
  exact zpow_natCast 2 1024

/-- What is rounded and does not overflow is a `double`. -/
theorem roundMag_isMag {x : ℚ} (h0 : 0 ≤ x) (h : roundMag x < 2 ^ 1024) : IsMag (roundMag x) := by
  have hp := two_zpow_pos (ieeeExp x)
  have hq : 0 ≤ x / 2 ^ ieeeExp x := div_nonneg h0 hp.le
  have hlt : x / 2 ^ ieeeExp x < (2 ^ 53 : ℕ) := by
    rw [div_lt_iff₀ hp]
    push_cast
    rcases h0.eq_or_lt with e | hx
    · have h53 : (0 : ℚ) < 2 ^ 53 * 2 ^ ieeeExp x := mul_pos (by norm_num) hp
      rwa [← e] at h53 ⊢
    · have := (ulpExp_spec hx.ne').2
      rw [abs_of_pos hx] at this
      refine this.trans_le (mul_le_mul_of_nonneg_left ?_ (by norm_num))
      exact zpow_le_zpow_right₀ (by norm_num) (le_max_left _ _)
  have hk1 := roundEven_mono_nat hlt
  have hk0 := roundEven_nonneg hq
  obtain ⟨k, hk⟩ := Int.eq_ofNat_of_zero_le hk0
  have hr : roundMag x = k * 2 ^ ieeeExp x := by unfold roundMag; rw [hk]; push_cast; rfl
  have he0 : -1074 ≤ ieeeExp x := le_max_right _ _
  rw [hk] at hk1
  have hk1' : k ≤ 2 ^ 53 := by exact_mod_cast hk1
  by_cases hk0' : k = 0
  · exact ⟨0, 0, by norm_num, by norm_num, by norm_num, by rw [hr, hk0']; simp⟩
  by_cases hbig : ieeeExp x ≤ 971
  · rcases hk1'.eq_or_lt with e | hlt'
    · have he : ieeeExp x ≤ 970 := by
        by_contra hcon
        have e971 : ieeeExp x = 971 := by omega
        rw [hr, e, e971] at h
        rw [Nat.cast_pow, Nat.cast_ofNat, two_pow_split (m := 53) (e := 971) rfl] at h
        exact lt_irrefl _ h
      refine ⟨2 ^ 52, ieeeExp x + 1, by norm_num, by omega, by omega, ?_⟩
      rw [hr, e, zpow_add₀ (by norm_num)]
      push_cast
      ring
    · exact ⟨k, ieeeExp x, hlt', he0, hbig, hr⟩
  · exfalso
    have hmax : ieeeExp x = ulpExp x := by
      unfold ieeeExp at hbig ⊢
      omega
    have hx : x ≠ 0 := by
      rintro rfl
      rw [hmax] at hbig
      simp [ulpExp] at hbig
    have h1 := (ulpExp_spec hx).1
    rw [← hmax, abs_of_nonneg h0] at h1
    have hge : (2 ^ 52 : ℚ) ≤ x / 2 ^ ieeeExp x := by rwa [le_div_iff₀ hp]
    have hfl : (2 ^ 52 : ℤ) ≤ ⌊x / 2 ^ ieeeExp x⌋ := Int.le_floor.2 (by exact_mod_cast hge)
    have hre : (2 ^ 52 : ℤ) ≤ roundEven (x / 2 ^ ieeeExp x) := by
      unfold roundEven
      split_ifs <;> omega
    rw [hk] at hre
    have hkq : (2 ^ 52 : ℚ) ≤ k := by exact_mod_cast hre
    have h2 : (2 : ℚ) ^ (972 : ℤ) ≤ 2 ^ ieeeExp x := zpow_le_zpow_right₀ (by norm_num) (by omega)
    have h3 : (2 : ℚ) ^ 52 * 2 ^ (972 : ℤ) ≤ k * 2 ^ ieeeExp x := mul_le_mul hkq h2 (by positivity) (by positivity)
    rw [two_pow_split (m := 52) (e := 972) rfl, ← hr] at h3
    exact absurd h (not_lt.2 h3)

theorem isMag_zero : IsMag 0 := ⟨0, 0, by norm_num, by norm_num, by norm_num, by simp⟩

theorem IsMag.nonneg {x : ℚ} (h : IsMag x) : 0 ≤ x := by
  obtain ⟨m, e, -, -, -, rfl⟩ := h
  exact mul_nonneg (Nat.cast_nonneg m) (two_zpow_pos e).le

/-- A `double`: NaN, an infinity, or a finite number; the last two with their sign bit. -/
inductive Ieee where
  | nan
  | inf (neg : Bool)
  | fin (neg : Bool) (mag : { x : ℚ // IsMag x })

namespace Ieee

instance : DecidableEq Ieee := fun x y =>
  match x, y with
  | nan, nan => isTrue rfl
  | inf s, inf t => if h : s = t then isTrue (by rw [h]) else isFalse (by simpa using h)
  | fin s m, fin t k => if h : s = t ∧ m.1 = k.1 then isTrue (by rw [h.1, Subtype.ext h.2])
      else isFalse (by rintro ⟨⟩; exact h ⟨rfl, rfl⟩)
  | nan, inf _ | nan, fin _ _ | inf _, nan | inf _, fin _ _ | fin _ _, nan | fin _ _, inf _ => isFalse (by rintro ⟨⟩)

/-- The value of a finite number. -/
def sval (neg : Bool) (m : ℚ) : ℚ := if neg then -m else m

/-- The number with sign `neg` nearest to the absolute value `m`; an infinity in case of overflow, a zero with sign `neg` in case of
underflow. -/
def round (neg : Bool) (m : ℚ) : Ieee :=
  if h : 0 ≤ m ∧ roundMag m < 2 ^ 1024 then .fin neg ⟨roundMag m, roundMag_isMag h.1 h.2⟩ else .inf neg

/-- The number nearest to a nonzero `x`. -/
def ofRat (x : ℚ) : Ieee := round (decide (x < 0)) |x|

/-- Positive zero. -/
protected def zero : Ieee := .fin false ⟨0, isMag_zero⟩

/-- `-x`. -/
protected def neg : Ieee → Ieee
  | nan => nan
  | inf s => inf !s
  | fin s m => fin (!s) m

/-- `x + y`. An exact zero is positive, unless both numbers are negative zeros. -/
protected def add : Ieee → Ieee → Ieee
  | nan, _ => nan
  | _, nan => nan
  | inf s, inf t => if s = t then inf s else nan
  | inf s, fin _ _ => inf s
  | fin _ _, inf t => inf t
  | fin s m, fin t k =>
    if sval s m.1 + sval t k.1 = 0 then .fin (s && t) ⟨0, isMag_zero⟩ else ofRat (sval s m.1 + sval t k.1)

/-- `x - y`. -/
protected def sub (x y : Ieee) : Ieee := x.add y.neg

/-- `x * y`: `0 * inf` is NaN. -/
protected def mul : Ieee → Ieee → Ieee
  | nan, _ => nan
  | _, nan => nan
  | inf s, inf t => inf (s ^^ t)
  | inf s, fin t k => if k.1 = 0 then nan else inf (s ^^ t)
  | fin s m, inf t => if m.1 = 0 then nan else inf (s ^^ t)
  | fin s m, fin t k => round (s ^^ t) (m.1 * k.1)

/-- `x / y`: `0 / 0` and `inf / inf` are NaN, the division of another number by zero gives an infinity. -/
protected def div : Ieee → Ieee → Ieee
  | nan, _ => nan
  | _, nan => nan
  | inf _, inf _ => nan
  | inf s, fin t _ => inf (s ^^ t)
  | fin s _, inf t => .fin (s ^^ t) ⟨0, isMag_zero⟩
  | fin s m, fin t k => if k.1 = 0 then (if m.1 = 0 then nan else inf (s ^^ t)) else round (s ^^ t) (m.1 / k.1)

/-- `x < y`: false when one of them is NaN; the two zeros are equal. -/
protected def ltb : Ieee → Ieee → Bool
  | nan, _ => false
  | _, nan => false
  | inf s, inf t => s && !t
  | inf s, fin _ _ => s
  | fin _ _, inf t => !t
  | fin s m, fin t k => decide (sval s m.1 < sval t k.1)

/-- `Kokkos::abs`, `Kokkos::fabs`: clears the sign. -/
def abs : Ieee → Ieee
  | nan => nan
  | inf _ => inf false
  | fin _ m => fin false m

/-- `Kokkos::fmin` (C99): a NaN is ignored. Of two zeros the second is returned when they compare equal; C99 leaves the choice open. -/
def fmin (x y : Ieee) : Ieee :=
  match x, y with
  | nan, y => y
  | x, nan => x
  | x, y => if x.ltb y then x else y

/-- `Kokkos::fmax` (C99). -/
def fmax (x y : Ieee) : Ieee :=
  match x, y with
  | nan, y => y
  | x, nan => x
  | x, y => if y.ltb x then x else y

/-- The `double` a literal stands for: the number nearest to the rational `x`, `+0` when it is 0. -/
def lit (x : ℚ) : Ieee := if x = 0 then Ieee.zero else ofRat x

/-- Binary digits of a square root, from digit `k` downwards, added to the `r` found so far: the integer part of the square root of `N`
(`sqrtDigits_spec`). -/
def sqrtDigits (N : ℕ) : ℕ → ℕ → ℕ
  | 0, r => r
  | k + 1, r => sqrtDigits N k (if (r + 2 ^ k) * (r + 2 ^ k) ≤ N then r + 2 ^ k else r)

/-- A number that rounds as the square root of a positive `m` does: 61 binary digits of it, and a half in the next one when they are
not all. -/
def sqrtMag (m : ℚ) : ℚ :=
  let j := Int.log 2 m / 2 - 60
  let q := m / (2 ^ j * 2 ^ j)
  let s := sqrtDigits ⌊q⌋.toNat 62 0
  (if (s * s : ℚ) = q then (s : ℚ) else s + 1 / 2) * 2 ^ j

/-- `Kokkos::sqrt`, correctly rounded as IEEE 754 demands: NaN for negative numbers, a zero for a zero. -/
protected def sqrt : Ieee → Ieee
  | nan => nan
  | inf s => if s then nan else inf false
  | fin s m => if m.1 = 0 then .fin s m else if s then nan else round false (sqrtMag m.1)

/-- `Kokkos::isnan`. -/
def isNaN : Ieee → Bool
  | nan => true
  | _ => false

end Ieee

/-- The operations of the kernels on `double`s. `pi`, `sin` and `cos` are parameters (the constant of Kokkos and the library
functions). -/
@[reducible] def ieeeArith (tr : Trig Ieee) : Arith Ieee where
  zero := .zero
  add := .add
  sub := .sub
  mul := .mul
  div := .div
  neg := .neg
  lt x y := x.ltb y = true
  ltDec := fun x y => inferInstanceAs (Decidable (x.ltb y = true))
  lit m := .lit m
  c11 := .lit (11 / 10)
  pi := tr.pi
  fabs := .abs
  fmin := .fmin
  fmax := .fmax
  sin := tr.sin
  cos := tr.cos

/-- The identity of `Kokkos::Max<double>`, the largest negative number `-DBL_MAX` (`reduction_identity<double>::max()`). -/
def negDblMax : Ieee := .lit (-(2 ^ 1024 - 2 ^ 971))

/-- The identity of `Kokkos::Min<double>`, `DBL_MAX`. -/
def dblMax : Ieee := .lit (2 ^ 1024 - 2 ^ 971)

/-- The operations of src/hydro/euler_equations.hpp 41-65 (`compute_evol`) on `double`s. -/
def ieeeOps : NumOps Ieee := ⟨.add, .sub, .mul, .div, .zero, .lit 2⟩

end Heracles

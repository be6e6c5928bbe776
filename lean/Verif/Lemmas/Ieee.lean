import Mathlib.Order.WithBot
import Verif.Model.Ieee
import Verif.Lemmas.NumKey

/-!
# Laws of IEEE 754 numbers
-/

namespace Heracles

namespace Ieee

/-- What `<` compares: nothing for NaN, the same for the two zeros. -/
def key : Ieee → Option (WithBot (WithTop ℚ))
  | nan => none
  | inf true => some ⊥
  | inf false => some ((⊤ : WithTop ℚ) : WithBot (WithTop ℚ))
  | fin s m => some (((sval s m.1 : ℚ) : WithTop ℚ) : WithBot (WithTop ℚ))

theorem ltb_key (x y : Ieee) : x.ltb y = true ↔ ∃ u v, key x = some u ∧ key y = some v ∧ u < v := by
  have hlt : ∀ q : ℚ, ((q : WithTop ℚ) : WithBot (WithTop ℚ)) < ((⊤ : WithTop ℚ) : WithBot (WithTop ℚ)) := fun q =>
    WithBot.coe_lt_coe.2 (WithTop.coe_lt_top q)
  rcases x with _ | (_ | _) | ⟨s, m⟩ <;> rcases y with _ | (_ | _) | ⟨t, k⟩ <;> simp [key, Ieee.ltb]
  · exact hlt _

theorem sval_inj {s t : Bool} {m k : ℚ} (hm : 0 ≤ m) (hk : 0 ≤ k) (h : sval s m = sval t k) :
    m = k ∧ (s = t ∨ m = 0) := by
  cases s <;> cases t <;> simp only [sval, Bool.false_eq_true, if_true, if_false, true_or, and_true, reduceCtorEq, false_or] at h ⊢
  · exact h
  · constructor <;> linarith
  · constructor <;> linarith
  · linarith

/-- Negative zero. -/
def negZero : Ieee := .fin true ⟨0, isMag_zero⟩

theorem key_inj {x y : Ieee} (hx : x ≠ negZero) (hy : y ≠ negZero) {u : WithBot (WithTop ℚ)} (h : key x = some u) (h' : key y = some u) :
    x = y := by
  rcases x with _ | s | ⟨s, m⟩ <;> rcases y with _ | t | ⟨t, k⟩
  all_goals first
    | (exfalso; simp [key] at h; done)
    | (exfalso; simp [key] at h'; done)
    | skip
  · cases s <;> cases t <;> first | rfl | (exfalso; simp only [key, Option.some.injEq] at h h'; subst h; simp at h')
  · exfalso; cases s <;> simp only [key, Option.some.injEq] at h h' <;> subst h <;> simp at h'
  · exfalso; cases t <;> simp only [key, Option.some.injEq] at h h' <;> subst h <;> simp at h'
  · simp only [key, Option.some.injEq] at h h'
    subst h
    have e : sval t k.1 = sval s m.1 := by simpa using h'
    obtain ⟨e1, e2⟩ := sval_inj k.2.nonneg m.2.nonneg e
    have e1' : k = m := Subtype.ext e1
    subst e1'
    rcases e2 with e2 | e2
    · rw [e2]
    · have hk0 : k = ⟨0, isMag_zero⟩ := Subtype.ext e2
      subst hk0
      cases s <;> cases t <;> first | rfl | exact absurd rfl hx | exact absurd rfl hy

theorem key_fin (x : Ieee) : x.key = none ↔ x = nan := by
  rcases x with _ | _ | _
  all_goals (try rename_i s <;> cases s)
  all_goals simp [key]

theorem roundMag_pos {x : ℚ} (hx : 0 < x) (h : 2 ^ (-1074 : ℤ) ≤ x) : 0 < roundMag x := by
  unfold roundMag
  have hp := two_zpow_pos (ieeeExp x)
  refine mul_pos ?_ hp
  have hle : (2 : ℚ) ^ ieeeExp x ≤ x := by
    unfold ieeeExp
    rcases le_total (ulpExp x) (-1074) with h' | h'
    · rw [max_eq_right h']; exact h
    · rw [max_eq_left h']
      have := (ulpExp_spec hx.ne').1
      rw [abs_of_pos hx] at this
      refine le_trans ?_ this
      have h2 := two_zpow_pos (ulpExp x)
      nlinarith
  have h1 : (1 : ℚ) ≤ x / 2 ^ ieeeExp x := by rwa [le_div_iff₀ hp, one_mul]
  have h2 : 1 ≤ ⌊x / 2 ^ ieeeExp x⌋ := Int.le_floor.2 (by exact_mod_cast h1)
  have h3 : 1 ≤ roundEven (x / 2 ^ ieeeExp x) := by
    unfold roundEven
    split_ifs <;> omega
  exact_mod_cast (by omega : (0 : ℤ) < roundEven (x / 2 ^ ieeeExp x))

/-- Finite numbers are multiples of `2 ^ -1074`. -/
theorem mag_multiple {x : ℚ} (h : IsMag x) : ∃ k : ℤ, x = k * 2 ^ (-1074 : ℤ) := by
  obtain ⟨m, e, -, he, -, rfl⟩ := h
  refine ⟨m * 2 ^ (e + 1074).toNat, ?_⟩
  push_cast
  rw [mul_assoc, ← zpow_natCast (2 : ℚ) (e + 1074).toNat, ← zpow_add₀ (by norm_num)]
  congr 2
  omega

/-- A sum is negative zero only if both numbers are. -/
theorem add_ne_negZero {x : Ieee} (hx : x ≠ negZero) (y : Ieee) : x.add y ≠ negZero := by
  rcases x with _ | s | ⟨s, m⟩ <;> rcases y with _ | t | ⟨t, k⟩ <;> simp only [Ieee.add, negZero]
  case inf.inf => split <;> exact nofun
  case fin.fin =>
    split
    · rename_i h
      intro e
      simp only [fin.injEq, and_true, Bool.and_eq_true] at e
      obtain ⟨rfl, rfl⟩ := e
      have hm := m.2.nonneg
      have hk := k.2.nonneg
      simp only [sval, if_true] at h
      have : m = ⟨0, isMag_zero⟩ := Subtype.ext (show m.1 = 0 by linarith)
      exact hx (by rw [this]; rfl)
    · rename_i h
      unfold ofRat round
      split
      · intro e
        simp only [fin.injEq, Subtype.mk.injEq] at e
        refine (roundMag_pos (abs_pos.2 h) ?_).ne' e.2
        obtain ⟨a, ha⟩ := mag_multiple m.2
        obtain ⟨b, hb⟩ := mag_multiple k.2
        obtain ⟨c, hc⟩ : ∃ c : ℤ, sval s m.1 + sval t k.1 = c * 2 ^ (-1074 : ℤ) := by
          refine ⟨(if s then -a else a) + (if t then -b else b), ?_⟩
          rw [ha, hb]
          cases s <;> cases t <;> simp only [sval, if_true, if_false, Bool.false_eq_true] <;> push_cast <;> ring
        rw [hc] at h ⊢
        have hp := two_zpow_pos (-1074)
        rw [abs_mul, abs_of_pos hp]
        have hc0 : c ≠ 0 := by rintro rfl; simp at h
        have : (1 : ℚ) ≤ |(c : ℚ)| := by exact_mod_cast Int.one_le_abs hc0
        nlinarith
      · exact nofun
  all_goals exact nofun

/-- In the range of the normal numbers the rounding is that of `roundDouble`, which gives the nearest number with 53 digits. -/
theorem roundMag_normal {x : ℚ} (hx : x ≠ 0) (h : 2 ^ (-1022 : ℤ) ≤ |x|) : roundMag x = roundDouble x := by
  have h1 := (ulpExp_spec hx).2
  have h2 : (-1022 : ℤ) < 53 + ulpExp x := by
    have : (2 : ℚ) ^ (-1022 : ℤ) < 2 ^ ((53 : ℤ) + ulpExp x) := by
      rw [zpow_add₀ (by norm_num)]
      exact h.trans_lt (by exact_mod_cast h1)
    exact (zpow_lt_zpow_iff_right₀ (by norm_num)).1 this
  unfold roundMag roundDouble ieeeExp
  rw [max_eq_left (by omega)]

/-- A number far below the last digit of `m` is lost in a sum. -/
theorem roundMag_absorb {m k : ℚ} (hm : IsMag m) (hk : 0 ≤ k) (hm' : 2 ^ (-900 : ℤ) ≤ m) (hk' : k ≤ 2 ^ (-1000 : ℤ)) : roundMag (m - k) = m := by
  have hm0 : 0 < m := (two_zpow_pos (-900)).trans_le hm'
  have hk2 : 2 * k ≤ 2 ^ (-999 : ℤ) := by
    have : (2 : ℚ) ^ (-999 : ℤ) = 2 * 2 ^ (-1000 : ℤ) := by
      rw [show (-999 : ℤ) = 1 + -1000 by norm_num, zpow_add₀ (by norm_num), zpow_one]
    rw [this]
    linarith
  have hlow : (2 : ℚ) ^ (-901 : ℤ) ≤ m - k := by
    have e1 : (2 : ℚ) ^ (-900 : ℤ) = 2 * 2 ^ (-901 : ℤ) := by
      rw [show (-900 : ℤ) = 1 + -901 by norm_num, zpow_add₀ (by norm_num), zpow_one]
    have e2 : (2 : ℚ) ^ (-1000 : ℤ) ≤ 2 ^ (-901 : ℤ) := zpow_le_zpow_right₀ (by norm_num) (by norm_num)
    linarith
  have hy0 : 0 < m - k := (two_zpow_pos (-901)).trans_le hlow
  set y := m - k with hy
  obtain ⟨h1, h2⟩ := ulpExp_spec hy0.ne'
  rw [abs_of_pos hy0] at h1 h2
  set v := ulpExp y with hv
  have hv1 : (-901 : ℤ) < 53 + v := by
    have : (2 : ℚ) ^ (-901 : ℤ) < 2 ^ ((53 : ℤ) + v) := by
      rw [zpow_add₀ (by norm_num)]
      exact hlow.trans_lt (by exact_mod_cast h2)
    exact (zpow_lt_zpow_iff_right₀ (by norm_num)).1 this
  have hie : ieeeExp y = v := by
    unfold ieeeExp
    exact max_eq_left (by omega)
  have hp := two_zpow_pos v
  obtain ⟨j, hj⟩ : ∃ j : ℤ, m = j * 2 ^ v := by
    obtain ⟨a, b, ha, -, -, e⟩ := hm
    have hb : v ≤ b := by
      by_contra hcon
      have q1 : (a : ℚ) < 2 ^ 53 := by exact_mod_cast ha
      have q2 : (2 : ℚ) ^ b ≤ 2 ^ (v - 1) := zpow_le_zpow_right₀ (by norm_num) (by omega)
      have q3 : (2 : ℚ) ^ (v - 1) = 2 ^ v / 2 := by rw [zpow_sub₀ (by norm_num)]; norm_num
      have q4 : m < 2 ^ 53 * 2 ^ b := by
        rw [e]
        exact mul_lt_mul_of_pos_right q1 (two_zpow_pos b)
      have q5 : (2 : ℚ) ^ 53 * 2 ^ b ≤ 2 ^ 52 * 2 ^ v := by
        calc (2 : ℚ) ^ 53 * 2 ^ b ≤ 2 ^ 53 * (2 ^ v / 2) := by rw [← q3]; exact mul_le_mul_of_nonneg_left q2 (by norm_num)
          _ = 2 ^ 52 * 2 ^ v := by ring
      linarith
    refine ⟨a * 2 ^ (b - v).toNat, ?_⟩
    rw [e]
    push_cast
    rw [mul_assoc, ← zpow_natCast (2 : ℚ) (b - v).toNat, ← zpow_add₀ (by norm_num)]
    congr 2
    omega
  have hr : roundMag y = roundEven (y / 2 ^ v) * 2 ^ v := by unfold roundMag; rw [hie]
  have hnear := roundEven_near (y / 2 ^ v) j
  have hyk : y / 2 ^ v - j = -(k / 2 ^ v) := by
    rw [hy, hj]
    field_simp
    ring
  rw [hyk, abs_neg, abs_of_nonneg (div_nonneg hk hp.le)] at hnear
  have hsmall : 2 * (k / 2 ^ v) < 1 := by
    rw [← mul_div_assoc, div_lt_one hp]
    refine hk2.trans_lt ?_
    exact (zpow_lt_zpow_iff_right₀ (by norm_num)).2 (by omega)
  have hdist : |((j - roundEven (y / 2 ^ v) : ℤ) : ℚ)| < 1 := by
    push_cast
    have : (j : ℚ) - roundEven (y / 2 ^ v) = (y / 2 ^ v - roundEven (y / 2 ^ v)) + k / 2 ^ v := by linarith
    rw [this]
    refine (abs_add_le _ _).trans_lt ?_
    rw [abs_of_nonneg (div_nonneg hk hp.le)]
    linarith
  have hz : j - roundEven (y / 2 ^ v) = 0 := by
    have : |j - roundEven (y / 2 ^ v)| < 1 := by exact_mod_cast hdist
    exact Int.abs_lt_one_iff.1 this
  rw [hr, hj]
  congr 2
  omega

theorem add_tiny {m k : { x : ℚ // IsMag x }} (hm : 2 ^ (-900 : ℤ) ≤ m.1) (hk : k.1 ≤ 2 ^ (-1000 : ℤ)) :
    (Ieee.fin false m).add (.fin true k) = .fin false m := by
  have hlt : (2 : ℚ) ^ (-1000 : ℤ) < 2 ^ (-900 : ℤ) := (zpow_lt_zpow_iff_right₀ (by norm_num)).2 (by norm_num)
  have hpos : 0 < m.1 - k.1 := by linarith
  have hr := roundMag_absorb m.2 k.2.nonneg hm hk
  show (if m.1 + -k.1 = 0 then _ else ofRat (m.1 + -k.1)) = _
  rw [← sub_eq_add_neg, if_neg hpos.ne']
  unfold ofRat Ieee.round
  rw [abs_of_pos hpos, decide_eq_false (not_lt.2 hpos.le)]
  have hb : m.1 < 2 ^ 1024 := by
    obtain ⟨a, b, ha, -, hb, e⟩ := m.2
    rw [e]
    have q1 : (a : ℚ) < 2 ^ 53 := by exact_mod_cast ha
    have q2 : (2 : ℚ) ^ b ≤ 2 ^ (971 : ℤ) := zpow_le_zpow_right₀ (by norm_num) hb
    rw [← two_pow_split (m := 53) (e := 971) rfl]
    exact mul_lt_mul_of_pos_of_nonneg' q1 q2 (two_zpow_pos b) (by norm_num)
  rw [dif_pos ⟨hpos.le, by rw [hr]; exact hb⟩]
  congr 1
  exact Subtype.ext hr

theorem roundMag_le {x : ℚ} (hx : 0 ≤ x) : roundMag x ≤ 2 * x + 2 ^ (-1074 : ℤ) := by
  have hp := two_zpow_pos (ieeeExp x)
  rcases hx.eq_or_lt with rfl | hx'
  · have : roundMag 0 = 0 := by simp [roundMag, roundEven]
    rw [this]
    have := two_zpow_pos (-1074)
    linarith
  have h1 : (roundEven (x / 2 ^ ieeeExp x) : ℚ) ≤ x / 2 ^ ieeeExp x + 1 := by
    have hf := Int.floor_le (x / 2 ^ ieeeExp x)
    have : roundEven (x / 2 ^ ieeeExp x) ≤ ⌊x / 2 ^ ieeeExp x⌋ + 1 := by
      unfold roundEven
      split_ifs <;> omega
    have : (roundEven (x / 2 ^ ieeeExp x) : ℚ) ≤ ⌊x / 2 ^ ieeeExp x⌋ + 1 := by exact_mod_cast this
    linarith
  have h2 : roundMag x ≤ x + 2 ^ ieeeExp x := by
    unfold roundMag
    calc (roundEven (x / 2 ^ ieeeExp x) : ℚ) * 2 ^ ieeeExp x ≤ (x / 2 ^ ieeeExp x + 1) * 2 ^ ieeeExp x :=
          mul_le_mul_of_nonneg_right h1 hp.le
      _ = x + 2 ^ ieeeExp x := by field_simp
  have h3 : (2 : ℚ) ^ ieeeExp x ≤ x + 2 ^ (-1074 : ℤ) := by
    unfold ieeeExp
    have q := (ulpExp_spec hx'.ne').1
    rw [abs_of_pos hx'] at q
    have q' := two_zpow_pos (ulpExp x)
    have q'' := two_zpow_pos (-1074)
    rcases le_total (ulpExp x) (-1074) with h | h
    · rw [max_eq_right h]; linarith
    · rw [max_eq_left h]; linarith
  linarith

/-- A CFL number up to 1 times the time step `-2^-1024`. -/
theorem cfl_tiny {c : { x : ℚ // IsMag x }} (hc : c.1 ≤ 1) :
    ∃ k : { x : ℚ // IsMag x }, (Ieee.fin false c).mul (.lit (-(1 / 2 ^ 1024))) = .fin true k ∧ k.1 ≤ 2 ^ (-1000 : ℤ) := by
  obtain ⟨q, hq, hq'⟩ : ∃ q : { x : ℚ // IsMag x }, Ieee.lit (-(1 / 2 ^ 1024)) = .fin true q ∧ q.1 ≤ 2 ^ (-1024 : ℤ) := by
    have h : (match Ieee.lit (-(1 / 2 ^ 1024)) with | .fin true q => decide (q.1 ≤ 1 / 2 ^ 1024) | _ => false) = true := by decide +kernel
    rcases e : Ieee.lit (-(1 / 2 ^ 1024)) with _ | _ | ⟨s, q⟩
    · rw [e] at h; cases h
    · rw [e] at h; cases h
    · rw [e] at h
      cases s
      · cases h
      · refine ⟨q, rfl, ?_⟩
        have := of_decide_eq_true h
        rwa [one_div, ← zpow_natCast, ← zpow_neg] at this
  have hb : roundMag (c.1 * q.1) ≤ 2 ^ (-1000 : ℤ) := by
    refine (roundMag_le (mul_nonneg c.2.nonneg q.2.nonneg)).trans ?_
    have h1 : c.1 * q.1 ≤ 2 ^ (-1024 : ℤ) := (mul_le_of_le_one_left q.2.nonneg hc).trans hq'
    have h2 : (2 : ℚ) ^ (-1024 : ℤ) ≤ 2 ^ (-1002 : ℤ) := zpow_le_zpow_right₀ (by norm_num) (by norm_num)
    have h3 : (2 : ℚ) ^ (-1074 : ℤ) ≤ 2 ^ (-1002 : ℤ) := zpow_le_zpow_right₀ (by norm_num) (by norm_num)
    have h4 : (2 : ℚ) ^ (-1000 : ℤ) = 4 * 2 ^ (-1002 : ℤ) := by
      rw [show (-1000 : ℤ) = 2 + -1002 by norm_num, zpow_add₀ (by norm_num)]
      norm_num
    have h0 := two_zpow_pos (-1002)
    linarith
  have h5 : (2 : ℚ) ^ (-1000 : ℤ) < 2 ^ 1024 := by
    rw [← zpow_natCast (2 : ℚ) 1024]
    exact (zpow_lt_zpow_iff_right₀ (by norm_num)).2 (by norm_num)
  refine ⟨⟨roundMag (c.1 * q.1), roundMag_isMag (mul_nonneg c.2.nonneg q.2.nonneg) (hb.trans_lt h5)⟩, ?_, hb⟩
  rw [hq]
  show Ieee.round (false ^^ true) (c.1 * q.1) = _
  unfold Ieee.round
  rw [dif_pos ⟨mul_nonneg c.2.nonneg q.2.nonneg, hb.trans_lt h5⟩]
  rfl

end Ieee

/-! ### NaN -/

open Arith

/-- What the operations do with a number `nan`. -/
structure NanLaws (F : Type) [Arith F] (nan : F) : Prop where
  add_left : ∀ x : F, nan + x = nan
  add_right : ∀ x : F, x + nan = nan
  sub_left : ∀ x : F, nan - x = nan
  sub_right : ∀ x : F, x - nan = nan
  mul_left : ∀ x : F, nan * x = nan
  mul_right : ∀ x : F, x * nan = nan
  div_left : ∀ x : F, nan / x = nan
  div_right : ∀ x : F, x / nan = nan
  fabs : Arith.fabs nan = nan
  lt_left : ∀ x : F, ¬ nan < x
  lt_right : ∀ x : F, ¬ x < nan

theorem ieee_nanLaws (tr : Trig Ieee) : @NanLaws Ieee (ieeeArith tr) .nan := by
  letI := ieeeArith tr
  refine ⟨fun x => ?_, fun x => ?_, fun x => ?_, fun x => ?_, fun x => ?_, fun x => ?_, fun x => ?_, fun x => ?_, rfl, fun x => ?_,
    fun x => ?_⟩
  · show Ieee.add _ _ = _; rfl
  · show Ieee.add _ _ = _; cases x <;> rfl
  · show Ieee.sub _ _ = _; rfl
  · show Ieee.sub _ _ = _; cases x <;> rfl
  · show Ieee.mul _ _ = _; rfl
  · show Ieee.mul _ _ = _; cases x <;> rfl
  · show Ieee.div _ _ = _; rfl
  · show Ieee.div _ _ = _; cases x <;> rfl
  · show ¬ Ieee.ltb _ _ = true; simp [Ieee.ltb]
  · show ¬ Ieee.ltb _ _ = true; cases x <;> simp [Ieee.ltb]

end Heracles

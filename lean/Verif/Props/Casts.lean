import Verif.Model.Casts
import Mathlib.Tactic.Ring
import Mathlib.Tactic.Linarith
import Mathlib.Tactic.NormNum

/-!
# C47 Checked integer casts
-/

namespace Heracles

/-- The mathematical integers an integer type of the machine can hold: two's complement or binary. -/
def Representable (bits : ℕ) (signed : Bool) (x : ℤ) : Prop :=
  if signed then -(2 ^ bits : ℤ) ≤ 2 * x ∧ 2 * x < 2 ^ bits else 0 ≤ x ∧ x < 2 ^ bits

theorem inRange_iff {r : IntType} (hb : 1 ≤ r.bits) (t : ℤ) : inRange r t = true ↔ Representable r.bits r.signed t := by
  have h2 : (2 : ℤ) ^ r.bits = 2 * 2 ^ (r.bits - 1) := by
    rw [← pow_succ', Nat.sub_add_cancel hb]
  unfold inRange Representable IntType.min IntType.max
  cases r.signed
  · simp only [Bool.and_eq_true, decide_eq_true_eq, Bool.false_eq_true, if_false]
    omega
  · simp only [Bool.and_eq_true, decide_eq_true_eq, if_true, h2]
    omega

/-- C47: for every value and every destination type the cast either returns the same mathematical integer or throws, and it throws
exactly when the value is not representable in the destination type. -/
theorem C47_value_preserved (r : IntType) (hb : 1 ≤ r.bits) (t : ℤ) :
    (Representable r.bits r.signed t → intCast r t = .ok t) ∧
    (¬ Representable r.bits r.signed t → ∃ m, intCast r t = .error m) := by
  refine ⟨fun h => ?_, fun h => ?_⟩
  · have hr := (inRange_iff hb t).2 h
    unfold intCast
    rw [if_pos hr]
    congr 1
    obtain ⟨bits, signed⟩ := r
    replace hb : 1 ≤ bits := hb
    have h2 : (2 : ℤ) ^ bits = 2 * 2 ^ (bits - 1) := by
      rw [← pow_succ', Nat.sub_add_cancel hb]
    have hp : (0 : ℤ) < 2 ^ (bits - 1) := by positivity
    clear hr
    unfold staticCast IntType.min
    cases signed
    · obtain ⟨h0, h1⟩ : 0 ≤ t ∧ t < 2 ^ bits := h
      show (t - 0) % 2 ^ bits + 0 = t
      rw [Int.emod_eq_of_lt (by omega) (by omega)]
      ring
    · obtain ⟨h0, h1⟩ : -(2 ^ bits : ℤ) ≤ 2 * t ∧ 2 * t < 2 ^ bits := h
      show (t - -(2 ^ (bits - 1))) % 2 ^ bits + -(2 ^ (bits - 1)) = t
      rw [Int.emod_eq_of_lt (by omega) (by omega)]
      ring
  · refine ⟨_, if_neg ?_⟩
    rwa [inRange_iff hb]

/-- Without the test the value may change: the cast of 2^32 + 5 to a 32-bit type. -/
example : staticCast ⟨32, true⟩ 4294967301 = 5 ∧ intCast ⟨32, true⟩ 2147483648 = .error "Conversion cannot preserve value representation" ∧
    intCast ⟨32, true⟩ (-2147483648) = .ok (-2147483648) ∧ intCast ⟨64, false⟩ (-1) = .error "Conversion cannot preserve value representation" := by
  decide

example := C47_value_preserved ⟨32, true⟩ (by norm_num) 7

end Heracles

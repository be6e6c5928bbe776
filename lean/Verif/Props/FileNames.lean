import Verif.Model.Output
import Mathlib.Algebra.Order.Ring.Nat
import Mathlib.Tactic.Linarith

/-!
# C44: output file names are unique and ordered
-/

namespace Heracles.Output

/-- Value of a list of decimal digits, the most significant first. -/
def dval : List Char → ℕ
  | [] => 0
  | c :: cs => (c.toNat - 48) * 10 ^ cs.length + dval cs

/-- A list of characters `0` to `9`. -/
def Digits (l : List Char) : Prop := ∀ c ∈ l, 48 ≤ c.toNat ∧ c.toNat < 58

theorem digit_toNat {k : ℕ} (h : k < 10) : (digit k).toNat = 48 + k := by
  have : k = 0 ∨ k = 1 ∨ k = 2 ∨ k = 3 ∨ k = 4 ∨ k = 5 ∨ k = 6 ∨ k = 7 ∨ k = 8 ∨ k = 9 := by omega
  rcases this with h | h | h | h | h | h | h | h | h | h <;> subst h <;> rfl

theorem dval_append (l l' : List Char) : dval (l ++ l') = dval l * 10 ^ l'.length + dval l' := by
  induction l with
  | nil => simp [dval]
  | cons c l ih => simp only [List.cons_append, dval, ih, List.length_append, pow_add]; ring

theorem decimal_digits (n : ℕ) : Digits (decimal n) := by
  induction n using Nat.strong_induction_on with
  | _ n ih =>
    rw [decimal]
    split
    · intro c hc
      rw [List.mem_singleton] at hc
      subst hc
      rw [digit_toNat (by assumption)]
      omega
    · intro c hc
      rcases List.mem_append.1 hc with hc | hc
      · exact ih (n / 10) (by omega) c hc
      · rw [List.mem_singleton] at hc
        subst hc
        rw [digit_toNat (by omega)]
        omega

theorem decimal_val (n : ℕ) : dval (decimal n) = n := by
  induction n using Nat.strong_induction_on with
  | _ n ih =>
    rw [decimal]
    split
    · simp only [dval, List.length_nil, pow_zero, mul_one, add_zero]
      rw [digit_toNat (by assumption)]
      omega
    · rw [dval_append, ih (n / 10) (by omega)]
      simp only [dval, List.length_cons, List.length_nil, pow_zero, mul_one, add_zero, zero_add, pow_one]
      rw [digit_toNat (by omega)]
      omega

theorem decimal_length {n k : ℕ} (hk : 0 < k) (h : n < 10 ^ k) : (decimal n).length ≤ k := by
  induction k generalizing n with
  | zero => omega
  | succ k ih =>
    rw [decimal]
    split
    · simp
    · rw [List.length_append, List.length_singleton]
      have : 0 < k := by
        rcases Nat.eq_zero_or_pos k with rfl | h'
        · simp at h; omega
        · exact h'
      have := ih (n := n / 10) this (by rw [pow_succ] at h; omega)
      omega

theorem dval_zeros (k : ℕ) : dval (List.replicate k '0') = 0 := by
  induction k with
  | zero => rfl
  | succ k ih => rw [List.replicate_succ, dval, ih]; simp

theorem pad_val (w : ℕ) (l : List Char) : dval (padLeft w '0' l) = dval l := by
  rw [padLeft, dval_append, dval_zeros]; simp

theorem pad_digits (w : ℕ) {l : List Char} (h : Digits l) : Digits (padLeft w '0' l) := by
  intro c hc
  rcases List.mem_append.1 hc with hc | hc
  · rw [List.mem_replicate] at hc
    rw [hc.2]
    decide
  · exact h c hc

theorem pad_length {w : ℕ} {c : Char} {l : List Char} (h : l.length ≤ w) : (padLeft w c l).length = w := by
  rw [padLeft, List.length_append, List.length_replicate]; omega

theorem dval_lt {l : List Char} (h : Digits l) : dval l < 10 ^ l.length := by
  induction l with
  | nil => simp [dval]
  | cons c l ih =>
    have h1 := h c (by simp)
    have h2 := ih fun c hc => h c (by simp [hc])
    rw [dval, List.length_cons, pow_succ]
    have h3 : (c.toNat - 48) ≤ 9 := by omega
    have h4 : (c.toNat - 48) * 10 ^ l.length ≤ 9 * 10 ^ l.length := Nat.mul_le_mul_right _ h3
    omega

theorem char_lt_iff (a b : Char) : a < b ↔ a.toNat < b.toNat := Iff.rfl

theorem char_eq_iff (a b : Char) : a = b ↔ a.toNat = b.toNat := by
  constructor
  · rintro rfl; rfl
  · intro h
    apply Char.ext
    exact UInt32.toNat_inj.1 h

/-- Among digit strings of one length, dictionary order is the order of the values. -/
theorem lex_iff {l l' : List Char} (h : Digits l) (h' : Digits l') (hl : l.length = l'.length) : l < l' ↔ dval l < dval l' := by
  induction l generalizing l' with
  | nil =>
    rw [List.length_nil] at hl
    rw [List.eq_nil_of_length_eq_zero hl.symm]
    simp [dval]
  | cons c l ih =>
    cases l' with
    | nil => simp at hl
    | cons c' l' =>
      have hl' : l.length = l'.length := by simpa using hl
      have b := dval_lt (l := l) fun c hc => h c (by simp [hc])
      have b' := dval_lt (l := l') fun c hc => h' c (by simp [hc])
      have hc := h c (by simp)
      have hc' := h' c' (by simp)
      have ih' := ih (fun c hc => h c (by simp [hc])) (fun c hc => h' c (by simp [hc])) hl'
      rw [List.cons_lt_cons_iff, ih', dval, dval, char_lt_iff, char_eq_iff, hl']
      rw [hl'] at b
      have e1 : c.toNat = 48 + (c.toNat - 48) := by omega
      have e2 : c'.toNat = 48 + (c'.toNat - 48) := by omega
      generalize c.toNat - 48 = x at *
      generalize c'.toNat - 48 = y at *
      generalize 10 ^ l'.length = p at *
      constructor
      · rintro (h | ⟨h, h2⟩)
        · have : (x + 1) * p ≤ y * p := Nat.mul_le_mul_right _ (by omega)
          rw [add_mul] at this
          omega
        · have : x = y := by omega
          subst this
          omega
      · intro h
        rcases Nat.lt_trichotomy x y with hxy | hxy | hxy
        · left; omega
        · right
          subst hxy
          exact ⟨by omega, by omega⟩
        · have : (y + 1) * p ≤ x * p := Nat.mul_le_mul_right _ (by omega)
          rw [add_mul] at this
          omega

theorem lt_append_left (p l l' : List Char) : p ++ l < p ++ l' ↔ l < l' := by
  induction p with
  | nil => simp
  | cons c p ih =>
    rw [List.cons_append, List.cons_append, List.cons_lt_cons_iff, ih]
    simp

theorem lt_append_right {l l' : List Char} (s : List Char) (hl : l.length = l'.length) : l ++ s < l' ++ s ↔ l < l' := by
  induction l generalizing l' with
  | nil =>
    rw [List.length_nil] at hl
    rw [List.eq_nil_of_length_eq_zero hl.symm]
    simp
  | cons c l ih =>
    cases l' with
    | nil => simp at hl
    | cons c' l' =>
      rw [List.cons_append, List.cons_append, List.cons_lt_cons_iff, List.cons_lt_cons_iff, ih (by simpa using hl)]

end Heracles.Output

namespace Heracles
open Output

/-- **C44.** Names are unique: with one prefix, distinct numbers (of any size) give distinct names. -/
theorem C44_distinct (pre : List Char) (m n : ℕ) (h : outputFilename pre m = outputFilename pre n) : m = n := by
  simp only [outputFilename, List.append_assoc] at h
  have h1 := List.append_cancel_left (List.append_cancel_left h)
  rw [List.append_left_inj] at h1
  rw [← decimal_val m, ← decimal_val n, ← pad_val 8, h1, pad_val]

example : outputFilename "shock".toList 42 ≠ outputFilename "shock".toList 43 :=
  fun h => absurd (C44_distinct _ _ _ h) (by decide)

/-- **C44.** The names of `write_pdi`: distinct non-negative output numbers of type `int` give distinct names; the conversion to
`std::size_t` does not merge them. -/
theorem C44_written_distinct (pre : List Char) (m n : ℤ) (hm : 0 ≤ m) (hm' : m < 2 ^ 31) (hn : 0 ≤ n) (hn' : n < 2 ^ 31)
    (h : writeName pre m = writeName pre n) : m = n := by
  have h1 := C44_distinct _ _ _ h
  have hs : sizeT.min = 0 := rfl
  have hb : (2 : ℤ) ^ sizeT.bits = 2 ^ 64 := rfl
  simp only [staticCast, hs, hb, sub_zero, add_zero] at h1
  rw [Int.emod_eq_of_lt hm (by omega), Int.emod_eq_of_lt hn (by omega)] at h1
  omega

example : (0 : ℤ) ≤ 2147483647 ∧ (2147483647 : ℤ) < 2 ^ 31 := by decide

/-- **C44.** Below `10^8`, dictionary order of the names is the order of the numbers. -/
theorem C44_ordered (pre : List Char) (m n : ℕ) (hm : m < 10 ^ 8) (hn : n < 10 ^ 8) :
    outputFilename pre m < outputFilename pre n ↔ m < n := by
  have lm := pad_length (c := '0') (decimal_length (k := 8) (by decide) hm)
  have ln := pad_length (c := '0') (decimal_length (k := 8) (by decide) hn)
  simp only [outputFilename, List.append_assoc]
  rw [lt_append_left, lt_append_left, lt_append_right _ (lm.trans ln.symm),
    lex_iff (pad_digits _ (decimal_digits m)) (pad_digits _ (decimal_digits n)) (lm.trans ln.symm), pad_val, pad_val, decimal_val, decimal_val]

example : outputFilename "shock".toList 9 < outputFilename "shock".toList 10 :=
  (C44_ordered _ _ _ (by norm_num) (by norm_num)).2 (by decide)

/-- **C44.** Below `10^8` the name also determines the prefix: runs with different prefixes never overwrite each other's files. -/
theorem C44_prefix (pre pre' : List Char) (m n : ℕ) (hm : m < 10 ^ 8) (hn : n < 10 ^ 8)
    (h : outputFilename pre m = outputFilename pre' n) : pre = pre' ∧ m = n := by
  have lm := pad_length (c := '0') (decimal_length (k := 8) (by decide) hm)
  have ln := pad_length (c := '0') (decimal_length (k := 8) (by decide) hn)
  have hp : pre = pre' := by
    simp only [outputFilename, List.append_assoc] at h
    exact (List.append_inj' h (by simp [lm, ln])).1
  subst hp
  exact ⟨rfl, C44_distinct _ _ _ h⟩

/-- The bound is sharp: with nine digits dictionary order is lost. -/
theorem C44_nine_digits (pre : List Char) : outputFilename pre 100000000 < outputFilename pre 99999999 := by
  simp only [outputFilename, List.append_assoc]
  rw [lt_append_left, lt_append_left]
  have e1 : padLeft 8 '0' (decimal 100000000) = ['1', '0', '0', '0', '0', '0', '0', '0', '0'] := by
    simp [padLeft, decimal, digit]
  have e2 : padLeft 8 '0' (decimal 99999999) = ['9', '9', '9', '9', '9', '9', '9', '9'] := by
    simp [padLeft, decimal, digit]
  rw [e1, e2]
  decide

/-- A negative number would be read as a huge one by the conversion to `std::size_t`; the time loop never asks for it (C40). -/
example : writeName "a".toList (-1) = "a_18446744073709551615.h5".toList := by
  have : (staticCast sizeT (-1)).toNat = 18446744073709551615 := by decide
  rw [writeName, this]
  simp [outputFilename, padLeft, decimal, digit]

end Heracles

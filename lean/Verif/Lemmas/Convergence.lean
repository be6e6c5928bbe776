import Verif.Props.WindRange
import Verif.Props.TotalVariation

/-!
# The error of the upwind step against the exact solution
-/

namespace Heracles

variable {d n : ℕ} {K : Type} [Field K] [LinearOrder K] [IsStrictOrderedRing K]

/-- `r` is differentiable with gradient `D` and second order remainder at most `M` times the square of the distance. -/
def SmoothBy (M : K) (D : (Fin d → K) → Fin d → K) (r : (Fin d → K) → K) : Prop :=
  ∀ x y, |r y - r x - ∑ a, D x a * (y a - x a)| ≤ M * ∑ a, (y a - x a) ^ 2

/-- The error of one upwind step on the exact solution. -/
theorem upwind_error {r : (Fin d → K) → K} {D : (Fin d → K) → Fin d → K} {M : K} (hM : 0 ≤ M) (hr : SmoothBy M D r) {h w : Fin d → K} (hh : ∀ a, 0 < h a)
    {dt : K} (hdt : 0 ≤ dt) (hc : ∑ a, dt * |w a| / h a ≤ 1) (y : Fin d → K) :
    |(1 - ∑ a, dt * |w a| / h a) * r y + ∑ a, dt * |w a| / h a * r (fun b => y b + if b = a then (if 0 < w a then - h a else h a) else 0)
      - r (fun b => y b - dt * w b)| ≤ 2 * M * dt * ∑ a, |w a| * h a := by
  set lam : Fin d → K := fun a => dt * |w a| / h a with hlam
  have hl0 : ∀ a, 0 ≤ lam a := fun a => div_nonneg (mul_nonneg hdt (abs_nonneg _)) (hh a).le
  have hl1 : ∀ a, lam a ≤ 1 := fun a => (Finset.single_le_sum (fun b _ => hl0 b) (Finset.mem_univ a)).trans hc
  have hlh : ∀ a, lam a * h a = dt * |w a| := fun a => div_mul_cancel₀ _ (hh a).ne'
  set sg : Fin d → K := fun a => if 0 < w a then - h a else h a with hsg
  have hsg2 : ∀ a, sg a ^ 2 = h a ^ 2 := fun a => by simp only [hsg]; split <;> ring
  have hls : ∀ a, lam a * sg a = - (dt * w a) := fun a => by
    simp only [hsg]
    split
    · rename_i hw
      rw [mul_neg, hlh, abs_of_pos hw]
    · rename_i hw
      rw [hlh, abs_of_nonpos (not_lt.1 hw)]
      ring
  set e : Fin d → K := fun a => r (fun b => y b + if b = a then sg a else 0) - r y - D y a * sg a with he
  have he1 : ∀ a, |e a| ≤ M * h a ^ 2 := fun a => by
    have := hr y (fun b => y b + if b = a then sg a else 0)
    simp only [add_sub_cancel_left, mul_ite, mul_zero, Finset.sum_ite_eq', Finset.mem_univ, if_true, ite_pow, ne_eq, OfNat.ofNat_ne_zero, not_false_eq_true, zero_pow] at this
    rwa [hsg2] at this
  set e0 := r (fun b => y b - dt * w b) - r y + ∑ a, D y a * (dt * w a) with he0
  have he2 : |e0| ≤ M * ∑ a, (dt * w a) ^ 2 := by
    have := hr y fun b => y b - dt * w b
    have q1 : ∀ a, y a - dt * w a - y a = - (dt * w a) := fun a => by ring
    simp only [q1, mul_neg, Finset.sum_neg_distrib, sub_neg_eq_add, neg_sq] at this
    exact this
  have hsum : (1 - ∑ a, lam a) * r y + ∑ a, lam a * r (fun b => y b + if b = a then sg a else 0) - r (fun b => y b - dt * w b) = ∑ a, lam a * e a - e0 := by
    have q : ∑ a, lam a * e a = ∑ a, lam a * r (fun b => y b + if b = a then sg a else 0) - (∑ a, lam a) * r y + ∑ a, D y a * (dt * w a) := by
      rw [Finset.sum_mul, ← Finset.sum_sub_distrib, ← Finset.sum_add_distrib]
      refine Finset.sum_congr rfl fun a _ => ?_
      have := hls a
      simp only [he]
      linear_combination (-(D y a)) * this
    rw [q, he0]
    ring
  have b1 : |∑ a, lam a * e a| ≤ M * dt * ∑ a, |w a| * h a := by
    rw [Finset.mul_sum]
    refine (Finset.abs_sum_le_sum_abs _ _).trans (Finset.sum_le_sum fun a _ => ?_)
    rw [abs_mul, abs_of_nonneg (hl0 a)]
    calc lam a * |e a| ≤ lam a * (M * h a ^ 2) := mul_le_mul_of_nonneg_left (he1 a) (hl0 a)
      _ = M * (lam a * h a) * h a := by ring
      _ = M * dt * (|w a| * h a) := by rw [hlh]; ring
  have b2 : |e0| ≤ M * dt * ∑ a, |w a| * h a := by
    refine he2.trans ?_
    rw [mul_assoc]
    refine mul_le_mul_of_nonneg_left ?_ hM
    rw [Finset.mul_sum]
    refine Finset.sum_le_sum fun a _ => ?_
    have h1 : dt * |w a| ≤ h a := by
      rw [← hlh]
      exact mul_le_of_le_one_left (hh a).le (hl1 a)
    have h2 : (dt * w a) ^ 2 = (dt * |w a|) * (dt * |w a|) := by rw [← sq, mul_pow, mul_pow, sq_abs]
    rw [h2]
    calc dt * |w a| * (dt * |w a|) ≤ dt * |w a| * h a := mul_le_mul_of_nonneg_left h1 (mul_nonneg hdt (abs_nonneg _))
      _ = dt * (|w a| * h a) := by ring
  have key : |∑ a, lam a * e a - e0| ≤ 2 * M * dt * ∑ a, |w a| * h a := by
    refine (abs_sub _ _).trans ?_
    linarith
  rw [← hsum] at key
  exact key

section
variable {X : Fin 3 → ℤ → K} {h : Fin 3 → K}

/-- The centres of equal cells. -/
theorem cellCentre_equal (hX : ∀ a i, X a (i + 1) - X a i = h a) (C : Cell) (a : Fin d) :
    cellCentre X C a = X (ax a) 0 + ((C (ax a) : K) + 1 / 2) * h (ax a) := by
  have hn : ∀ (b : Fin 3) (i : ℤ), X b i = X b 0 + i * h b := fun b i => by
    induction i using Int.induction_on with
    | zero => simp
    | succ i ih =>
      have := hX b i
      push_cast at this ih ⊢
      linear_combination this + ih
    | pred i ih =>
      have := hX b (-i - 1)
      rw [sub_add_cancel] at this
      push_cast at this ih ⊢
      linear_combination ih - this
  unfold cellCentre
  rw [hn _ (C (ax a)), hn _ (C (ax a) + 1)]
  push_cast
  ring

theorem cellCentre_nb (hd : d ≤ 3) (hX : ∀ a i, X a (i + 1) - X a i = h a) (C : Cell) (a b : Fin d) (s : ℤ) :
    cellCentre X (nb C (ax a) s) b = cellCentre X C b + if b = a then s * h (ax a) else 0 := by
  rw [cellCentre_equal hX, cellCentre_equal hX]
  by_cases hba : b = a
  · subst hba
    rw [if_pos rfl]
    simp only [nb, Function.update_self]
    push_cast
    ring
  · rw [if_neg hba]
    have : ax b ≠ ax a := fun e => hba (ax_injective hd e)
    simp only [nb, Function.update_of_ne this, add_zero]

/-- The centre of a cell and of its image in the box. -/
theorem cellCentre_wrap (hX : ∀ a i, X a (i + 1) - X a i = h a) (nx nghost C : Cell) (a : Fin d) :
    cellCentre X (wrap nx (C - nghost) + nghost) a = cellCentre X C a + ((-((C (ax a) - nghost (ax a)) / nx (ax a)) : ℤ) : K) * (nx (ax a) * h (ax a)) := by
  rw [cellCentre_equal hX, cellCentre_equal hX]
  have e : (wrap nx (C - nghost) + nghost) (ax a) = C (ax a) - nx (ax a) * ((C (ax a) - nghost (ax a)) / nx (ax a)) := by
    show (C (ax a) - nghost (ax a)) % nx (ax a) + nghost (ax a) = _
    rw [Int.emod_def]
    ring
  rw [e]
  push_cast
  ring

end

section
variable {p : KernelParams d n K} {sol : Solver} {eos : EoS K} {tr : Trig K} {w : VelPres d K} {nx : Cell} {ng : ℤ} {X : Fin 3 → ℤ → K}
  {order : List ℕ} {Gr : (Cell → Fields d n K) → Cell → Fin d → K} {h : Fin 3 → K}

theorem profile_constant (pg : PGrid d K) (v : Cell → K) (c : Cell) (y : Fin d → K) : profile .constant pg v c y = v c := by
  have : ∀ b, profSlope .constant pg v c b = 0 := fun b => by
    unfold profSlope reconVal reconFace
    simp [Limiter.slope]
  unfold profile
  simp [this]

/-- An iteration without slopes on what a wind carries is the upwind step. -/
theorem upwind_mean {pg : PGrid d K} {v : Cell → K} {h : Fin d → K} (hh : ∀ a, 0 < h a) (hdx : ∀ (a : Fin d) i, pg.dx (ax a) i = h a) {dt : K} (hdt : 0 ≤ dt) (w : Fin d → K) (C : Cell) :
    v C + ∑ a, dt / pg.dx (ax a) (C (ax a)) * (w a * (upstream .constant pg v dt w C a - upstream .constant pg v dt w (nb C (ax a) 1) a)) =
      (1 - ∑ a, dt * |w a| / h a) * v C + ∑ a, dt * |w a| / h a * v (nb C (ax a) (if 0 < w a then -1 else 1)) := by
  rcases hdt.eq_or_lt with rfl | hdt
  · simp
  rw [wind_mean hh hdx hdt, profile_constant]
  congr 1
  refine Finset.sum_congr rfl fun a _ => ?_
  unfold windIn
  rw [profile_constant, profile_constant]
  congr 1
  split <;> rfl

/-- The error of values `v` against the exact solution carried by the wind for a time `t`. -/
def ErrorAt (X : Fin 3 → ℤ → K) (r : (Fin d → K) → K) (u : Fin d → K) (t E : K) (v : Cell → K) : Prop :=
  ∀ C, |v C - r (fun a => cellCentre X C a - t * u a)| ≤ E

/-- The upwind step adds at most the error of one step. -/
theorem upwind_step_error (hd3 : d ≤ 3) {r : (Fin d → K) → K} {D : (Fin d → K) → Fin d → K} {M : K} (hM : 0 ≤ M) (hr : SmoothBy M D r)
    (hh : ∀ a, 0 < h a) (hX : ∀ a i, X a (i + 1) - X a i = h a) {u : Fin d → K} {dt t E : K} (hdt : 0 ≤ dt) (hc : ∑ a, dt * |u a| / h (ax a) ≤ 1) {v : Cell → K} (hv : ErrorAt X r u t E v) (C : Cell) :
    |(1 - ∑ a, dt * |u a| / h (ax a)) * v C + ∑ a, dt * |u a| / h (ax a) * v (nb C (ax a) (if 0 < u a then -1 else 1))
      - r (fun a => cellCentre X C a - (t + dt) * u a)| ≤ E + 2 * M * dt * ∑ a, |u a| * h (ax a) := by
  set y : Fin d → K := fun a => cellCentre X C a - t * u a with hy
  have hstep := upwind_error hM hr (h := fun a => h (ax a)) (fun a => hh _) hdt hc y
  have e1 : (fun b => y b - dt * u b) = fun a => cellCentre X C a - (t + dt) * u a := by
    funext b
    rw [hy]
    ring
  have e2 : ∀ a, (fun b => y b + if b = a then (if 0 < u a then - h (ax a) else h (ax a)) else 0) =
      fun b => cellCentre X (nb C (ax a) (if 0 < u a then -1 else 1)) b - t * u b := by
    intro a
    funext b
    rw [cellCentre_nb hd3 hX, hy]
    dsimp only
    have : ((if 0 < u a then (-1 : ℤ) else 1 : ℤ) : K) * h (ax a) = if 0 < u a then - h (ax a) else h (ax a) := by
      split <;> simp
    rw [this]
    ring
  simp only [e2, e1] at hstep
  set lam : Fin d → K := fun a => dt * |u a| / h (ax a) with hlam
  have hl0 : ∀ a, 0 ≤ lam a := fun a => div_nonneg (mul_nonneg hdt (abs_nonneg _)) (hh _).le
  have b1 : |(1 - ∑ a, lam a) * (v C - r y)| ≤ (1 - ∑ a, lam a) * E := by
    rw [abs_mul, abs_of_nonneg (sub_nonneg.2 hc)]
    exact mul_le_mul_of_nonneg_left (hv C) (sub_nonneg.2 hc)
  have b2 : |∑ a, lam a * (v (nb C (ax a) (if 0 < u a then -1 else 1)) - r fun b => cellCentre X (nb C (ax a) (if 0 < u a then -1 else 1)) b - t * u b)| ≤ (∑ a, lam a) * E := by
    rw [Finset.sum_mul]
    refine (Finset.abs_sum_le_sum_abs _ _).trans (Finset.sum_le_sum fun a _ => ?_)
    rw [abs_mul, abs_of_nonneg (hl0 a)]
    exact mul_le_mul_of_nonneg_left (hv _) (hl0 a)
  have split : (1 - ∑ a, lam a) * v C + ∑ a, lam a * v (nb C (ax a) (if 0 < u a then -1 else 1)) - r (fun a => cellCentre X C a - (t + dt) * u a) =
      (1 - ∑ a, lam a) * (v C - r y) + (∑ a, lam a * (v (nb C (ax a) (if 0 < u a then -1 else 1)) - r fun b => cellCentre X (nb C (ax a) (if 0 < u a then -1 else 1)) b - t * u b)) +
      ((1 - ∑ a, lam a) * r y + ∑ a, lam a * r (fun b => cellCentre X (nb C (ax a) (if 0 < u a then -1 else 1)) b - t * u b) - r (fun a => cellCentre X C a - (t + dt) * u a)) := by
    simp only [mul_sub, Finset.sum_sub_distrib]
    ring
  rw [split]
  refine (abs_add_three _ _ _).trans ?_
  linarith

/-- Repeated images of the box carry the same error. -/
theorem errorAt_wrap (hX : ∀ a i, X a (i + 1) - X a i = h a) {r : (Fin d → K) → K}
    (hper : ∀ x (k : Fin d → ℤ), r (fun a => x a + k a * (nx (ax a) * h (ax a))) = r x) (nghost C : Cell) (y : Fin d → K) :
    r (fun a => cellCentre X (wrap nx (C - nghost) + nghost) a - y a) = r (fun a => cellCentre X C a - y a) := by
  rw [← hper (fun a => cellCentre X C a - y a) fun a => -((C (ax a) - nghost (ax a)) / nx (ax a))]
  congr 1
  funext a
  rw [cellCentre_wrap hX]
  ring

end

end Heracles

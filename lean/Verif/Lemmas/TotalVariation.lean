import Verif.Lemmas.Ramp
import Verif.Spec.TotalVariation

/-!
# Limited slopes in a uniform wind
-/

namespace Heracles

variable {d n : ℕ} {K : Type} [Field K] [LinearOrder K] [IsStrictOrderedRing K]

section Row

/-- `s` has the sign of `D` and is at most twice as large. -/
def Limited (s D : K) : Prop := (0 ≤ s ∧ s ≤ 2 * D) ∨ (2 * D ≤ s ∧ s ≤ 0)

/-- The limited difference of a row of numbers. -/
def rowSlope (lim : Limiter) (r : ℤ → K) (i : ℤ) : K := lim.slope (r (i + 1) - r i) (r i - r (i - 1))

theorem rowSlope_limited (lim : Limiter) (r : ℤ → K) (i : ℤ) :
    Limited (rowSlope lim r i) (r i - r (i - 1)) ∧ Limited (rowSlope lim r i) (r (i + 1) - r i) := by
  unfold rowSlope Limited
  generalize r (i + 1) - r i = b
  generalize r i - r (i - 1) = a
  by_cases h : 0 < a * b
  · rcases pos_and_pos_or_neg_and_neg_of_mul_pos h with ⟨ha, hb⟩ | ⟨ha, hb⟩
    · obtain ⟨h1, h2, h3, -⟩ := lim.slope_bounds_pos ha hb
      exact ⟨Or.inl ⟨h1, h2⟩, Or.inl ⟨h1, h3⟩⟩
    · obtain ⟨h1, h2, h3, -⟩ := lim.slope_bounds_pos (neg_pos.2 ha) (neg_pos.2 hb)
      rw [lim.slope_neg] at h1 h2 h3
      exact ⟨Or.inr ⟨by linarith, by linarith⟩, Or.inr ⟨by linarith, by linarith⟩⟩
  · rw [lim.slope_zero h]
    refine ⟨?_, ?_⟩
    · rcases le_total 0 a with h' | h'
      · exact Or.inl ⟨le_rfl, by linarith⟩
      · exact Or.inr ⟨by linarith, le_rfl⟩
    · rcases le_total 0 b with h' | h'
      · exact Or.inl ⟨le_rfl, by linarith⟩
      · exact Or.inr ⟨by linarith, le_rfl⟩

/-- With minmod, or without slopes, the limited difference is at most as large as the differences. -/
theorem rowSlope_minmod {lim : Limiter} (hl : lim = .constant ∨ lim = .minmod) (r : ℤ → K) (i : ℤ) :
    |rowSlope lim r i| ≤ |r i - r (i - 1)| ∧ |rowSlope lim r i| ≤ |r (i + 1) - r i| := by
  unfold rowSlope
  rcases hl with rfl | rfl
  · rw [C20_constant_is_zero, abs_zero]
    exact ⟨abs_nonneg _, abs_nonneg _⟩
  · have := (C21_tvd_region Limiter.minmod).2.2 (r (i + 1) - r i) (r i - r (i - 1))
    exact ⟨this.trans (min_le_right _ _), this.trans (min_le_left _ _)⟩

theorem limited_move {m D s s' : K} (h0 : 0 ≤ m) (h1 : m ≤ 1) (hs : Limited s D) (hs' : Limited s' D) :
    (0 ≤ m * (D + (1 - m) / 2 * (s - s')) ∧ m * (D + (1 - m) / 2 * (s - s')) ≤ D) ∨
    (D ≤ m * (D + (1 - m) / 2 * (s - s')) ∧ m * (D + (1 - m) / 2 * (s - s')) ≤ 0) := by
  have key : ∀ {D s s' : K}, 0 ≤ s → s ≤ 2 * D → 0 ≤ s' → s' ≤ 2 * D →
      0 ≤ m * (D + (1 - m) / 2 * (s - s')) ∧ m * (D + (1 - m) / 2 * (s - s')) ≤ D := by
    intro D s s' a1 a2 b1 b2
    have hD : 0 ≤ D := by linarith
    have hm : 0 ≤ (1 - m) / 2 := by linarith
    have l1 : - (2 * D) * ((1 - m) / 2) ≤ (1 - m) / 2 * (s - s') := by nlinarith
    have l2 : (1 - m) / 2 * (s - s') ≤ (2 * D) * ((1 - m) / 2) := by nlinarith
    refine ⟨mul_nonneg h0 ?_, ?_⟩
    · nlinarith [mul_nonneg h0 hD]
    · have : m * (D + (1 - m) / 2 * (s - s')) ≤ m * (D + (2 * D) * ((1 - m) / 2)) := mul_le_mul_of_nonneg_left (by linarith) h0
      nlinarith [mul_nonneg hD (sq_nonneg (1 - m))]
  rcases hs with ⟨a1, a2⟩ | ⟨a1, a2⟩ <;> rcases hs' with ⟨b1, b2⟩ | ⟨b1, b2⟩
  · exact Or.inl (key a1 a2 b1 b2)
  · have hD : D = 0 := le_antisymm (by linarith) (by linarith)
    subst hD
    have : s = 0 := le_antisymm (by linarith) a1
    have : s' = 0 := le_antisymm b2 (by linarith)
    subst s s'
    simp
  · have hD : D = 0 := le_antisymm (by linarith) (by linarith)
    subst hD
    have : s = 0 := le_antisymm a2 (by linarith)
    have : s' = 0 := le_antisymm (by linarith) b1
    subst s s'
    simp
  · have := key (D := -D) (s := -s) (s' := -s') (by linarith) (by linarith) (by linarith) (by linarith)
    have e : m * (-D + (1 - m) / 2 * (-s - -s')) = - (m * (D + (1 - m) / 2 * (s - s'))) := by ring
    rw [e] at this
    exact Or.inr ⟨by linarith [this.2], by linarith [this.1]⟩

/-- What comes to the lower face of cell `i` in half a step; `c` is the number of cells crossed in a step. -/
def rowUp (lim : Limiter) (r : ℤ → K) (c : K) (i : ℤ) : K :=
  if 0 < c then r (i - 1) + (1 - c) / 2 * rowSlope lim r (i - 1) else r i - (1 + c) / 2 * rowSlope lim r i

/-- The row after a step. -/
def rowStep (lim : Limiter) (r : ℤ → K) (c : K) (i : ℤ) : K := r i + c * (rowUp lim r c i - rowUp lim r c (i + 1))

omit [IsStrictOrderedRing K] in
theorem rowStep_periodic (lim : Limiter) {r : ℤ → K} {N : ℤ} (hr : ∀ i, r (i + N) = r i) (c : K) (i : ℤ) : rowStep lim r c (i + N) = rowStep lim r c i := by
  have h1 : r (i + N + 1) = r (i + 1) := by rw [add_right_comm, hr]
  have h2 : r (i + N + 1 + 1) = r (i + 1 + 1) := by rw [add_right_comm i N 1, add_right_comm, hr]
  have h3 : r (i + N - 1) = r (i - 1) := by rw [add_sub_right_comm, hr]
  have h4 : r (i + N - 1 - 1) = r (i - 1 - 1) := by rw [add_sub_right_comm, add_sub_right_comm, hr]
  unfold rowStep rowUp rowSlope
  simp only [add_sub_cancel_right, sub_add_cancel, hr, h1, h2, h3, h4]

/-- Each new value is between that of the cell and that of the cell the wind comes from. -/
theorem rowStep_between (lim : Limiter) (r : ℤ → K) {c : K} (hc : |c| ≤ 1) :
    (∀ i, Between (rowStep lim r c i) (r (i - 1)) (r i)) ∨ ∀ i, Between (rowStep lim r c i) (r i) (r (i + 1)) := by
  by_cases h : 0 < c
  · left
    intro i
    rw [abs_of_pos h] at hc
    have e : rowStep lim r c i = r i - c * ((r i - r (i - 1)) + (1 - c) / 2 * (rowSlope lim r i - rowSlope lim r (i - 1))) := by
      unfold rowStep rowUp
      rw [if_pos h, if_pos h, add_sub_cancel_right]
      ring
    have l1 := (rowSlope_limited lim r i).1
    have l2 := (rowSlope_limited lim r (i - 1)).2
    rw [sub_add_cancel] at l2
    rw [e]
    unfold Between
    rcases limited_move h.le hc l1 l2 with ⟨a, b⟩ | ⟨a, b⟩
    · exact ⟨(min_le_left _ _).trans (by linarith), le_max_of_le_right (by linarith)⟩
    · exact ⟨(min_le_right _ _).trans (by linarith), le_max_of_le_left (by linarith)⟩
  · right
    intro i
    have h := not_lt.1 h
    rw [abs_of_nonpos h] at hc
    have e : rowStep lim r c i = r i + (-c) * ((r (i + 1) - r i) + (1 - (-c)) / 2 * (rowSlope lim r i - rowSlope lim r (i + 1))) := by
      unfold rowStep rowUp
      rw [if_neg h.not_gt, if_neg h.not_gt]
      ring
    have l1 := (rowSlope_limited lim r i).2
    have l2 := (rowSlope_limited lim r (i + 1)).1
    rw [add_sub_cancel_right] at l2
    rw [e]
    unfold Between
    rcases limited_move (neg_nonneg.2 h) hc l1 l2 with ⟨a, b⟩ | ⟨a, b⟩
    · exact ⟨(min_le_left _ _).trans (by linarith), le_max_of_le_right (by linarith)⟩
    · exact ⟨(min_le_right _ _).trans (by linarith), le_max_of_le_left (by linarith)⟩

theorem between_dist {x a b : K} (h : Between x a b) : |x - a| + |b - x| = |b - a| := by
  unfold Between at h
  rcases le_total a b with hab | hab
  · rw [min_eq_left hab, max_eq_right hab] at h
    rw [abs_of_nonneg (by linarith), abs_of_nonneg (by linarith), abs_of_nonneg (by linarith)]
    ring
  · rw [min_eq_right hab, max_eq_left hab] at h
    rw [abs_of_nonpos (by linarith), abs_of_nonpos (by linarith), abs_of_nonpos (by linarith)]
    ring

omit [IsStrictOrderedRing K] in
theorem circleVar_periodic {N : ℕ} {r : ℤ → K} (hr : ∀ i, r (i + N) = r i) :
    circleVar N r = ∑ i ∈ Finset.range N, |r (i + 1) - r i| := by
  unfold circleVar
  refine Finset.sum_congr rfl fun i hi => ?_
  have hi := Finset.mem_range.1 hi
  by_cases h : i + 1 = N
  · have e : ((i : ℤ) + 1) % N = 0 := by
      rw [show ((i : ℤ) + 1) = N by exact_mod_cast h, Int.emod_self]
    have := hr 0
    rw [e, show ((i : ℤ) + 1) = 0 + N by rw [zero_add]; exact_mod_cast h, this]
  · rw [Int.emod_eq_of_lt (by omega) (by omega)]

/-- The total variation does not increase. -/
theorem circleVar_step (lim : Limiter) {N : ℕ} {r : ℤ → K} (hr : ∀ i, r (i + N) = r i) {c : K} (hc : |c| ≤ 1) :
    circleVar N (rowStep lim r c) ≤ circleVar N r := by
  have hr' : ∀ i, rowStep lim r c (i + N) = rowStep lim r c i := rowStep_periodic lim hr c
  rw [circleVar_periodic hr, circleVar_periodic hr']
  have tel := Finset.sum_range_sub (fun i : ℕ => |r (i : ℤ) - rowStep lim r c i|) N
  have h0 := hr 0
  have h0' := hr' 0
  rw [zero_add] at h0 h0'
  have z : |r ((N : ℕ) : ℤ) - rowStep lim r c ((N : ℕ) : ℤ)| - |r ((0 : ℕ) : ℤ) - rowStep lim r c ((0 : ℕ) : ℤ)| = 0 := by
    rw [h0, h0', Nat.cast_zero, sub_self]
  rw [z] at tel
  rcases rowStep_between lim r hc with hb | hb
  · have : ∀ i ∈ Finset.range N, |rowStep lim r c ((i : ℤ) + 1) - rowStep lim r c i| ≤ |r ((i : ℤ) + 1) - r i| -
        (|r ((i + 1 : ℕ) : ℤ) - rowStep lim r c ((i + 1 : ℕ) : ℤ)| - |r (i : ℤ) - rowStep lim r c i|) := by
      intro i _
      have b := between_dist (hb ((i : ℤ) + 1))
      rw [add_sub_cancel_right] at b
      have t := abs_add_le (rowStep lim r c ((i : ℤ) + 1) - r i) (r i - rowStep lim r c i)
      rw [sub_add_sub_cancel] at t
      push_cast
      linarith
    refine (Finset.sum_le_sum this).trans (le_of_eq ?_)
    rw [Finset.sum_sub_distrib, tel, sub_zero]
  · have : ∀ i ∈ Finset.range N, |rowStep lim r c ((i : ℤ) + 1) - rowStep lim r c i| ≤ |r ((i : ℤ) + 1) - r i| +
        (|r ((i + 1 : ℕ) : ℤ) - rowStep lim r c ((i + 1 : ℕ) : ℤ)| - |r (i : ℤ) - rowStep lim r c i|) := by
      intro i _
      have b := between_dist (hb i)
      have t := abs_add_le (rowStep lim r c ((i : ℤ) + 1) - r (i + 1)) (r (i + 1) - rowStep lim r c i)
      rw [sub_add_sub_cancel] at t
      have s1 := abs_sub_comm (rowStep lim r c ((i : ℤ) + 1)) (r (i + 1))
      have s2 := abs_sub_comm (r (i : ℤ)) (rowStep lim r c i)
      push_cast
      linarith
    refine (Finset.sum_le_sum this).trans (le_of_eq ?_)
    rw [Finset.sum_add_distrib, tel, add_zero]

/-- Bounds are kept. -/
theorem rowStep_bounds (lim : Limiter) {r : ℤ → K} {lo hi : K} (h : ∀ i, lo ≤ r i ∧ r i ≤ hi) {c : K} (hc : |c| ≤ 1) (i : ℤ) :
    lo ≤ rowStep lim r c i ∧ rowStep lim r c i ≤ hi := by
  rcases rowStep_between lim r hc with hb | hb
  · have := hb i
    unfold Between at this
    exact ⟨(le_min (h _).1 (h _).1).trans this.1, this.2.trans (max_le (h _).2 (h _).2)⟩
  · have := hb i
    unfold Between at this
    exact ⟨(le_min (h _).1 (h _).1).trans this.1, this.2.trans (max_le (h _).2 (h _).2)⟩

/-- The states extrapolated to the faces stay positive: for minmod and without slopes always, for the other limiters if the contrast is
below 2. -/
theorem row_faces_pos {lim : Limiter} {r : ℤ → K} {lo hi : K} (h0 : 0 < lo) (h : ∀ i, lo ≤ r i ∧ r i ≤ hi)
    (hl : lim = .constant ∨ lim = .minmod ∨ hi < 2 * lo) {k : K} (hk : |k| ≤ 1) (i : ℤ) : 0 < r i + k * rowSlope lim r i := by
  have hk' := abs_le.1 hk
  have h1 := h i
  have hm := h (i - 1)
  have hp := h (i + 1)
  have key : |rowSlope lim r i| < r i := by
    have small : lim = .constant ∨ lim = .minmod → |rowSlope lim r i| < r i := by
      intro hl
      obtain ⟨b1, b2⟩ := rowSlope_minmod hl r i
      obtain ⟨l1, l2⟩ := rowSlope_limited lim r i
      rcases l1 with ⟨s1, s2⟩ | ⟨s1, s2⟩
      · refine b1.trans_lt ?_
        rw [abs_of_nonneg (by linarith)]
        linarith
      · rcases l2 with ⟨t1, t2⟩ | ⟨t1, t2⟩
        · rw [le_antisymm s2 t1, abs_zero]; linarith
        · refine b2.trans_lt ?_
          rw [abs_of_nonpos (by linarith)]
          linarith
    rcases hl with hl | hl | hl
    · exact small (Or.inl hl)
    · exact small (Or.inr hl)
    · obtain ⟨l1, l2⟩ := rowSlope_limited lim r i
      rw [abs_lt]
      rcases l1 with ⟨s1, s2⟩ | ⟨s1, s2⟩
      · rcases l2 with ⟨t1, t2⟩ | ⟨t1, t2⟩
        · constructor <;> linarith
        · constructor <;> linarith
      · rcases l2 with ⟨t1, t2⟩ | ⟨t1, t2⟩
        · constructor <;> linarith
        · constructor <;> linarith
  have := abs_lt.1 key
  have hb : |k * rowSlope lim r i| ≤ |rowSlope lim r i| := by
    rw [abs_mul]
    exact mul_le_of_le_one_left (abs_nonneg _) hk
  have := (abs_le.1 hb).1
  linarith

end Row

section Step
variable {lim : Limiter} {sol : Solver} {eos : EoS K} {tr : Trig K} {p : PGrid d K} {rho : Cell → K}

/-- One HLLC step on a cell whose neighbours up to distance 2 hold a density `rho` in a uniform wind. -/
theorem wind_step {n : ℕ} (hd : d ≤ 3) {ext : Cell} (hG : GeoOf tr .cartesian ext p) (hx : ∀ c, inExt ext c = true → ∀ b, p.dx b (c b) ≠ 0)
    (h0 : ∀ c a, p.grav c a = 0) (he : eos.Lawful) {w : VelPres d K} {e : K}
    (hev : ∀ r, 0 < r → eos.evolFromPres r w.P = e) (hP : 0 < w.P) {dt : K} {W : Cell → Fields d n K}
    {up : Cell → VelPres d K} (hW : ∀ c, (W c).cons = toCons eos ⟨rho c, w.u, w.P⟩) (hup : ∀ c, up c = w) (hrho : ∀ c, 0 < rho c)
    (hpos : ∀ c, ∀ t, t = 0 ∨ t = dt / 2 → ∀ side a, inExt ext c = true → (∀ i : ℤ, -1 ≤ i → i ≤ 1 → inExt ext (nb c (ax a) i) = true) →
      0 < profile lim p rho c (footPoint p c t w.u side a))
    {C : Cell} (h1 : ∀ (a : Fin d) (i : ℤ), -1 ≤ i → i ≤ 1 → inExt ext (nb C (ax a) i) = true) (hC : inExt ext C = true)
    (h2 : ∀ (a b : Fin d) (i j : ℤ), -1 ≤ i → i ≤ 1 → -1 ≤ j → j ≤ 1 → inExt ext (nb (nb C (ax a) i) (ax b) j) = true)
    (hnew : 0 < rho C + ∑ a, dt / p.dx (ax a) (C (ax a)) * (w.u a * (upstream lim p rho dt w.u C a - upstream lim p rho dt w.u (nb C (ax a) 1) a))) :
    (stepVal lim .hllc eos tr .cartesian p dt W up C).cons = toCons eos ⟨rho C + ∑ a, dt / p.dx (ax a) (C (ax a)) *
      (w.u a * (upstream lim p rho dt w.u C a - upstream lim p rho dt w.u (nb C (ax a) 1) a)), w.u, w.P⟩ := by
  have hrec : ∀ c, inExt ext c = true → (∀ (a : Fin d) (i : ℤ), -1 ≤ i → i ≤ 1 → inExt ext (nb c (ax a) i) = true) → ∀ side a,
      (recVal lim eos tr .cartesian p (dt / 2) W up c side a).cons =
        toCons eos ⟨profile lim p rho c (footPoint p c (dt / 2) w.u side a), w.u, w.P⟩ := by
    intro c hc hn side a
    exact carried_rec hG hd hc (fun a => hn a 1 (by norm_num) (by norm_num)) (hx c hc) (h0 c) hev
      ⟨congrArg Cons.rho (hW c), fun a t _ _ => congrArg Cons.rho (hW _), fun a t _ _ => hup _⟩ _ (fun t ht side a => hpos c t ht side a hc (hn a)) side a
  have hrC := hrec C hC h1
  have hrm := fun a : Fin d => hrec _ (h1 a (-1) (by norm_num) (by norm_num)) (fun b j hj hj' => h2 a b (-1) j (by norm_num) (by norm_num) hj hj')
  have hrp := fun a : Fin d => hrec _ (h1 a 1 (by norm_num) (by norm_num)) (fun b j hj hj' => h2 a b 1 j (by norm_num) (by norm_num) hj hj')
  have hpC := fun (a : Fin d) side => hpos C (dt / 2) (Or.inr rfl) side a hC (h1 a)
  have hpm := fun (a : Fin d) side => hpos _ (dt / 2) (Or.inr rfl) side a (h1 a (-1) (by norm_num) (by norm_num))
    (fun j hj hj' => h2 a a (-1) j (by norm_num) (by norm_num) hj hj')
  have hpp := fun (a : Fin d) side => hpos _ (dt / 2) (Or.inr rfl) side a (h1 a 1 (by norm_num) (by norm_num))
    (fun j hj hj' => h2 a a 1 j (by norm_num) (by norm_num) hj hj')
  have hflux : ∀ (a : Fin d) (q q' : K), 0 < q → 0 < q' → Solver.hllc.flux eos (toCons eos ⟨q, w.u, w.P⟩) (toCons eos ⟨q', w.u, w.P⟩) a =
      fluxPrim eos ⟨if 0 < w.u a then q else q', w.u, w.P⟩ a := by
    intro a q q' hq hq'
    obtain ⟨a1, v1, p1⟩ := adm_carried (d := d) he (q := ⟨q, w.u, w.P⟩) hq hP
    obtain ⟨a2, v2, p2⟩ := adm_carried (d := d) he (q := ⟨q', w.u, w.P⟩) hq' hP
    rw [(C27_contacts he a1 a2 a (by rw [v1, v2]) (by rw [p1, p2])).1, v1]
    by_cases hw : 0 < w.u a
    · rw [if_pos hw, if_pos hw, ← fluxPrim_toPrim he a1.1, toPrim_toCons he hq]
    · rw [if_neg hw, if_neg hw, ← fluxPrim_toPrim he a2.1, toPrim_toCons he hq']
  have hback : ∀ a : Fin d, nb (nb C (ax a) 1) (ax a) (-1) = C := fun a => by unfold nb; simp
  have hfL : ∀ a, Solver.hllc.flux eos (recVal lim eos tr .cartesian p (dt / 2) W up (nb C (ax a) (-1)) 1 a).cons
      (recVal lim eos tr .cartesian p (dt / 2) W up C 0 a).cons a = fluxPrim eos ⟨upstream lim p rho dt w.u C a, w.u, w.P⟩ a := by
    intro a
    rw [hrm a, hrC, hflux a _ _ (hpm a 1) (hpC a 0)]
    rfl
  have hfR : ∀ a, Solver.hllc.flux eos (recVal lim eos tr .cartesian p (dt / 2) W up C 1 a).cons
      (recVal lim eos tr .cartesian p (dt / 2) W up (nb C (ax a) 1) 0 a).cons a =
        fluxPrim eos ⟨upstream lim p rho dt w.u (nb C (ax a) 1) a, w.u, w.P⟩ a := by
    intro a
    rw [hrp a, hrC, hflux a _ _ (hpC a 1) (hpp a 0)]
    unfold upstream
    rw [hback]
  have hup0 : ∀ a, 0 < upstream lim p rho dt w.u C a := fun a => by
    unfold upstream
    split
    · exact hpm a 1
    · exact hpC a 0
  have hup1 : ∀ a, 0 < upstream lim p rho dt w.u (nb C (ax a) 1) a := fun a => by
    unfold upstream
    rw [hback]
    split
    · exact hpC a 1
    · exact hpp a 0
  have hWr : (W C).rho = _ := congrArg Cons.rho (hW C)
  have hWm : (W C).rhou = _ := congrArg Cons.rhou (hW C)
  have hWE : (W C).E = _ := congrArg Cons.E (hW C)
  have hnewe := hev _ hnew
  unfold stepVal godVal
  simp only [hfL, hfR]
  simp only [hWr, hWm, hWE]
  simp only [fluxDiff_cart hG hd _ hC (h1 _ 1 (by norm_num) (by norm_num)) (hx C hC), h0, Fields.cons, toCons, momDiff, fluxPrim, Prim.ek,
    hev _ (hup0 _), hev _ (hup1 _), hev _ (hrho C), hnewe, mul_zero, zero_mul, ite_self, add_zero, if_neg (show ¬ (Geom.cartesian = Geom.spherical) by decide)]
  have e1 : ∀ A B : Fin d → K, ∑ a, dt / p.dx (ax a) (C (ax a)) * (w.u a * (A a - B a)) = ∑ a, dt / p.dx (ax a) (C (ax a)) * (A a * w.u a - B a * w.u a) := fun A B =>
    Finset.sum_congr rfl fun a _ => by ring
  have e2 : ∀ (A B : Fin d → K) i, ∑ b, (dt / p.dx (ax b) (C (ax b)) * ((Function.update (fun i => A b * w.u b * w.u i) b (A b * w.u b * w.u b + w.P)) i
        - (Function.update (fun i => B b * w.u b * w.u i) b (B b * w.u b * w.u b + w.P)) i)) =
      (∑ a, dt / p.dx (ax a) (C (ax a)) * (A a * w.u a - B a * w.u a)) * w.u i := by
    intro A B i
    rw [Finset.sum_mul]
    refine Finset.sum_congr rfl fun b _ => ?_
    by_cases hib : i = b
    · subst hib; simp only [Function.update_self]; ring
    · simp only [Function.update_of_ne hib]; ring
  have e3 : ∀ (A B : Fin d → K) (k : K), ∑ b, dt / p.dx (ax b) (C (ax b)) * (w.u b * (A b * k / 2 + e + w.P) - w.u b * (B b * k / 2 + e + w.P)) =
      (∑ a, dt / p.dx (ax a) (C (ax a)) * (A a * w.u a - B a * w.u a)) * k / 2 := by
    intro A B k
    rw [Finset.sum_mul, Finset.sum_div]
    exact Finset.sum_congr rfl fun b _ => by ring
  apply Cons.ext
  · exact congrArg (rho C + ·) (e1 _ _).symm
  · funext i
    have := e2 (fun a => upstream lim p rho dt w.u C a) (fun a => upstream lim p rho dt w.u (nb C (ax a) 1) a) i
    dsimp only at this ⊢
    rw [this, e1]
    ring
  · have := e3 (fun a => upstream lim p rho dt w.u C a) (fun a => upstream lim p rho dt w.u (nb C (ax a) 1) a) (∑ i, w.u i * w.u i)
    dsimp only at this ⊢
    rw [this, e1]
    ring

/-- One step of any solver on a cell whose neighbours up to distance 2 are in the same state, whatever their mass fractions. -/
theorem wind_fx_step {n : ℕ} (hd : d ≤ 3) {ext : Cell} (hG : GeoOf tr .cartesian ext p) (hx : ∀ c, inExt ext c = true → ∀ b, p.dx b (c b) ≠ 0)
    (h0 : ∀ c a, p.grav c a = 0) (he : eos.Lawful) {w : VelPres d K} (hP : 0 < w.P) {r : K} (hr : 0 < r)
    {dt : K} {W : Cell → Fields d n K} {f : Fin n} {up : Cell → VelPres d K}
    (hW : ∀ c, (W c).rho = r ∧ up c = w)
    {C : Cell} (h1 : ∀ (a : Fin d) (i : ℤ), -1 ≤ i → i ≤ 1 → inExt ext (nb C (ax a) i) = true) (hC : inExt ext C = true)
    (h2 : ∀ (a b : Fin d) (i j : ℤ), -1 ≤ i → i ≤ 1 → -1 ≤ j → j ≤ 1 → inExt ext (nb (nb C (ax a) i) (ax b) j) = true) :
    (stepVal lim sol eos tr .cartesian p dt W up C).cons = (W C).cons ∧
    (stepVal lim sol eos tr .cartesian p dt W up C).fx f = clamp ((W C).fx f + ∑ a, dt / p.dx (ax a) (C (ax a)) *
      (w.u a * (upstream lim p (fun c => (W c).fx f) dt w.u C a - upstream lim p (fun c => (W c).fx f) dt w.u (nb C (ax a) 1) a))) 0 1 := by
  have hrec : ∀ c, inExt ext c = true → (∀ (a : Fin d) (i : ℤ), -1 ≤ i → i ≤ 1 → inExt ext (nb c (ax a) i) = true) → ∀ side a,
      (recVal lim eos tr .cartesian p (dt / 2) W up c side a).cons = toCons eos ⟨r, w.u, w.P⟩ ∧
      (recVal lim eos tr .cartesian p (dt / 2) W up c side a).fx f = profile lim p (fun c => (W c).fx f) c (footPoint p c (dt / 2) w.u side a) := by
    intro c hc hn side a
    have hdx := hx c hc
    have hrho : ∀ s (b : Fin d), reconVal lim p.dx (fun c => (W c).rho) c s b = r := fun s b =>
      reconVal_const lim p.dx b (v := fun c => (W c).rho) (fun t h1 h2 => (hW _).1) s
    have hup' : ∀ (a : Fin d) (t : ℤ), -1 ≤ t → t ≤ 1 → up (nb c (ax a) t) = w := fun a t h1 h2 => (hW _).2
    unfold recVal
    rw [faceUP_const hup']
    unfold hanVal facePrim faceFields
    rw [faceUP_const hup']
    simp only [fluxDiff_cart hG hd _ hc (hn _ 1 (by norm_num) (by norm_num)) hdx, h0, hrho, momDiff, sub_self, mul_zero, zero_mul, ite_self, add_zero,
      Finset.sum_const_zero, Fields.cons, toCons, if_neg (show ¬ (Geom.cartesian = Geom.spherical) by decide), true_and]
    rw [profile_footPoint a side (hdx _), div_eq_iff hr.ne', sub_mul, Finset.mul_sum, Finset.sum_mul, sub_eq_add_neg, ← Finset.sum_neg_distrib]
    congr 1
    refine Finset.sum_congr rfl fun b _ => ?_
    simp only [fluxPrim, profSlope]
    ring
  have hrC := hrec C hC h1
  have hrm := fun a : Fin d => hrec _ (h1 a (-1) (by norm_num) (by norm_num)) (fun b j hj hj' => h2 a b (-1) j (by norm_num) (by norm_num) hj hj')
  have hrp := fun a : Fin d => hrec _ (h1 a 1 (by norm_num) (by norm_num)) (fun b j hj hj' => h2 a b 1 j (by norm_num) (by norm_num) hj hj')
  obtain ⟨a1, -, -⟩ := adm_carried (d := d) he (q := ⟨r, w.u, w.P⟩) hr hP
  have hflux : ∀ a : Fin d, (sol.flux eos (toCons eos ⟨r, w.u, w.P⟩) (toCons eos ⟨r, w.u, w.P⟩) a).rho = r * w.u a := fun a => by
    rw [C24_consistency sol he a1 a]
    rfl
  have hfL : ∀ a, sol.flux eos (recVal lim eos tr .cartesian p (dt / 2) W up (nb C (ax a) (-1)) 1 a).cons
      (recVal lim eos tr .cartesian p (dt / 2) W up C 0 a).cons a = sol.flux eos (toCons eos ⟨r, w.u, w.P⟩) (toCons eos ⟨r, w.u, w.P⟩) a := by
    intro a
    rw [(hrm a _ _).1, (hrC _ _).1]
  have hfR : ∀ a, sol.flux eos (recVal lim eos tr .cartesian p (dt / 2) W up C 1 a).cons
      (recVal lim eos tr .cartesian p (dt / 2) W up (nb C (ax a) 1) 0 a).cons a = sol.flux eos (toCons eos ⟨r, w.u, w.P⟩) (toCons eos ⟨r, w.u, w.P⟩) a := by
    intro a
    rw [(hrp a _ _).1, (hrC _ _).1]
  have hback : ∀ a : Fin d, nb (nb C (ax a) 1) (ax a) (-1) = C := fun a => by unfold nb; simp
  unfold stepVal godVal
  simp only [hfL, hfR]
  simp only [fluxDiff_cart hG hd _ hC (h1 _ 1 (by norm_num) (by norm_num)) (hx C hC), momDiff, sub_self, mul_zero, zero_mul,
    Finset.sum_const_zero, add_zero, h0, ite_self, if_neg (show ¬ (Geom.cartesian = Geom.spherical) by decide), hflux, Fields.cons, true_and]
  congr 1
  rw [(hW C).1, div_eq_iff hr.ne', add_mul, Finset.sum_mul]
  congr 1
  refine Finset.sum_congr rfl fun a _ => ?_
  unfold upstream
  rw [(hrm a _ _).2, (hrC _ _).2, (hrC _ _).2, (hrp a _ _).2, hback]
  rcases lt_trichotomy (w.u a) 0 with hw | hw | hw
  · have : r * w.u a < 0 := mul_neg_of_pos_of_neg hr hw
    rw [if_pos this, if_pos this, if_neg hw.not_gt, if_neg hw.not_gt]
    ring
  · rw [hw]; ring
  · have : ¬ (r * w.u a < 0) := (mul_pos hr hw).le.not_gt
    rw [if_neg this, if_neg this, if_pos hw, if_pos hw]
    ring

/-- In one dimension on equal cells: the profile of a row at a face. -/
theorem profile_row {p : PGrid 1 K} {v : Cell → K} {r : ℤ → K} {m : ℤ} (hv : ∀ c, v c = r (c 0 - m)) {h : K} (hh : 0 < h) {c : Cell}
    (hdx : ∀ i : ℤ, -1 ≤ i → i ≤ 1 → p.dx 0 (c 0 + i) = h) (t : K) (w : Fin 1 → K) (side : Fin 2) :
    profile lim p v c (footPoint p c t w side 0) = r (c 0 - m) + ((if side = 0 then - (1 / 2) else 1 / 2) - t * w 0 / h) * rowSlope lim r (c 0 - m) := by
  have d0 : p.dx 0 (c 0) = h := by simpa using hdx 0 (by norm_num) (by norm_num)
  have d1 : p.dx 0 (c 0 + 1) = h := hdx 1 (by norm_num) (by norm_num)
  have d2 : p.dx 0 (c 0 - 1) = h := by simpa [sub_eq_add_neg] using hdx (-1) (by norm_num) (by norm_num)
  have e0 : ax (0 : Fin 1) = 0 := rfl
  have hne := hh.ne'
  have hr : ∀ s : Fin 2, reconVal lim p.dx v c s (0 : Fin 1) = r (c 0 - m) + (if s = 0 then - (1 / 2) else 1 / 2) * rowSlope lim r (c 0 - m) := by
    intro s
    unfold reconVal reconFace rowSlope
    rw [e0, d0, d1, d2]
    simp only [hv, Function.update_self]
    have a1 : c 0 + 1 - m = c 0 - m + 1 := by ring
    have a2 : c 0 - 1 - m = c 0 - m - 1 := by ring
    have sm := lim.slope_smul (1 / h) (r (c 0 - m + 1) - r (c 0 - m)) (r (c 0 - m) - r (c 0 - m - 1))
    have q : (h + h) / 2 = h := by ring
    rw [a1, a2, q, div_eq_mul_one_div (r (c 0 - m + 1) - r (c 0 - m)) h, div_eq_mul_one_div (r (c 0 - m) - r (c 0 - m - 1)) h,
      mul_comm _ (1 / h), mul_comm _ (1 / h), sm]
    split_ifs <;> field_simp
    ring
  rw [profile_footPoint 0 side (by rw [e0, d0]; exact hne)]
  simp only [Finset.univ_unique, Fin.default_eq_zero, Finset.sum_singleton, profSlope, hr, e0, d0]
  rw [if_neg (show ¬ ((1 : Fin 2) = 0) by decide), if_pos trivial]
  field_simp
  ring

end Step

end Heracles

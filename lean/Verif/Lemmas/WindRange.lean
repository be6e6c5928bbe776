import Verif.Lemmas.TotalVariation
import Verif.Props.NanRun

/-!
# A uniform wind in several dimensions with MinMod
-/

namespace Heracles

variable {d n : ℕ} {K : Type} [Field K] [LinearOrder K] [IsStrictOrderedRing K]

/-- Without walls the boundary conditions fill the ghosts with values of the interior. -/
theorem bcGlob_copies {K : Type} [Neg K] {nx nghost : Cell} {order : List ℕ} {bcs : Fin d → Fin 2 → BcKind} (hb : ∀ a f, bcs a f ≠ .reflexive) (hpos : ∀ a, 0 < nx a)
    {G : Cell → Fields d n K} {P : Fields d n K → Prop} (hG : ∀ g, inBox 0 nx g → P (G g)) (C : Cell) :
    P (bcGlob bcs nx nghost order G C) := by
  unfold bcGlob
  have key : ∀ (l : List ℕ) (V : Cell → Fields d n K), (∀ C, P (V C)) → ∀ C,
      P (l.foldl (bcPure bcs (fun _ _ => true) (globExt nx nghost) nghost) V C) := by
    intro l
    induction l with
    | nil => exact fun V h => h
    | cons id l ih =>
      intro V hV
      rw [List.foldl_cons]
      refine ih _ fun C => ?_
      unfold bcPure
      split
      · dsimp only
        rw [if_pos rfl]
        unfold condPure
        split
        · split
          · exact hV _
          · exact absurd ‹_› (hb _ _)
          · exact hV _
        · exact hV _
      · exact hV _
  exact key order _ (fun C => hG _ fun a => ⟨Int.emod_nonneg _ (hpos a).ne', Int.emod_lt_of_pos _ (hpos a)⟩) C

/-- The cells within two of an interior cell are in the array. -/
theorem inExt_around (hd : d ≤ 3) {nx : Cell} {ng : ℤ} (hng : 2 ≤ ng) {g : Cell} (hg : inBox 0 nx g) {i j : ℤ} (h1 : -1 ≤ i) (h2 : i ≤ 1) (h3 : -1 ≤ j) (h4 : j ≤ 1)
    (a b : Fin d) : inExt (globExt nx (nghostOf d ng)) (nb (nb (g + nghostOf d ng) (ax a) i) (ax b) j) = true := by
  rw [inExt_iff]
  intro e
  have hh : (0 : ℤ) ≤ g e ∧ g e < nx e := hg e
  have hng' : ∀ x : Fin d, nghostOf d ng (ax x) = ng := fun x => by unfold nghostOf; rw [if_pos (ax_lt hd x)]
  have h0 : 0 ≤ nghostOf d ng e := by unfold nghostOf; split <;> omega
  by_cases hb : e = ax b
  · subst hb
    have := hng' b
    by_cases hab : ax b = ax a
    · rw [← hab]
      simp only [nb, Function.update_self, globExt, Pi.add_apply]
      omega
    · simp only [nb, Function.update_self, Function.update_of_ne hab, globExt, Pi.add_apply]
      omega
  · by_cases ha : e = ax a
    · subst ha
      have := hng' a
      simp only [nb, Function.update_self, Function.update_of_ne hb, globExt, Pi.add_apply]
      omega
    · simp only [nb, Function.update_of_ne hb, Function.update_of_ne ha, globExt, Pi.add_apply]
      omega

theorem inExt_beside (hd : d ≤ 3) {nx : Cell} {ng : ℤ} (hng : 2 ≤ ng) {g : Cell} (hg : inBox 0 nx g) {i : ℤ} (h1 : -1 ≤ i) (h2 : i ≤ 1)
    (a : Fin d) : inExt (globExt nx (nghostOf d ng)) (nb (g + nghostOf d ng) (ax a) i) = true := by
  have := inExt_around hd hng hg h1 h2 (j := 0) (by norm_num) (by norm_num) a a
  rwa [show nb (nb (g + nghostOf d ng) (ax a) i) (ax a) 0 = nb (g + nghostOf d ng) (ax a) i by simp [nb]] at this

section
variable {lim : Limiter} {p : PGrid d K} {v : Cell → K} {lo hi : K} {h : Fin d → K}

/-- The slope of a cell on equal cells. -/
theorem profSlope_equal {h : K} (hh : 0 < h) {a : Fin d} (hdx : ∀ i, p.dx (ax a) i = h) (c : Cell) :
    profSlope lim p v c a = rowSlope lim (fun i => v (Function.update c (ax a) i)) (c (ax a)) / h := by
  have hne := hh.ne'
  unfold profSlope reconVal reconFace rowSlope
  simp only [hdx, Function.update_eq_self]
  have q : (h + h) / 2 = h := by ring
  have sm := lim.slope_smul (1 / h) (v (Function.update c (ax a) (c (ax a) + 1)) - v c) (v c - v (Function.update c (ax a) (c (ax a) - 1)))
  rw [q, div_eq_mul_one_div (v (Function.update c (ax a) (c (ax a) + 1)) - v c) h, div_eq_mul_one_div (v c - v (Function.update c (ax a) (c (ax a) - 1))) h,
      mul_comm _ (1 / h), mul_comm _ (1 / h), sm]
  rw [if_neg (show ¬ ((1 : Fin 2) = 0) by decide), if_pos trivial]
  field_simp
  ring

/-- With MinMod the profile stays in the range of the values, up to the centres of the neighbours. -/
theorem profile_range (hl : lim = .constant ∨ lim = .minmod) (hv : ∀ c, lo ≤ v c ∧ v c ≤ hi) (hh : ∀ a, 0 < h a) (hdx : ∀ (a : Fin d) i, p.dx (ax a) i = h a)
    (c : Cell) {y : Fin d → K} (hy : ∑ b, |y b| / h b ≤ 1) : lo ≤ profile lim p v c y ∧ profile lim p v c y ≤ hi := by
  set D : Fin d → K := fun a => rowSlope lim (fun i => v (Function.update c (ax a) i)) (c (ax a)) with hD
  have hD1 : ∀ a, |D a| ≤ min (hi - v c) (v c - lo) := by
    intro a
    obtain ⟨b1, b2⟩ := rowSlope_minmod hl (fun i => v (Function.update c (ax a) i)) (c (ax a))
    obtain ⟨l1, l2⟩ := rowSlope_limited lim (fun i => v (Function.update c (ax a) i)) (c (ax a))
    simp only [Function.update_eq_self] at b1 b2 l1 l2
    have v1 := hv (Function.update c (ax a) (c (ax a) + 1))
    have v2 := hv (Function.update c (ax a) (c (ax a) - 1))
    change |D a| ≤ _ at b1
    change |D a| ≤ _ at b2
    change Limited (D a) _ at l1
    change Limited (D a) _ at l2
    rw [le_min_iff]
    rcases l1 with ⟨s1, s2⟩ | ⟨s1, s2⟩
    · rcases l2 with ⟨t1, t2⟩ | ⟨t1, t2⟩
      · rw [abs_of_nonneg (show (0 : K) ≤ v c - v (Function.update c (ax a) (c (ax a) - 1)) by linarith)] at b1
        rw [abs_of_nonneg (show (0 : K) ≤ v (Function.update c (ax a) (c (ax a) + 1)) - v c by linarith)] at b2
        constructor <;> linarith
      · rw [le_antisymm t2 s1, abs_zero]
        have := hv c
        constructor <;> linarith
    · rcases l2 with ⟨t1, t2⟩ | ⟨t1, t2⟩
      · rw [le_antisymm s2 t1, abs_zero]
        have := hv c
        constructor <;> linarith
      · rw [abs_of_nonpos (show v c - v (Function.update c (ax a) (c (ax a) - 1)) ≤ (0 : K) by linarith)] at b1
        rw [abs_of_nonpos (show v (Function.update c (ax a) (c (ax a) + 1)) - v c ≤ (0 : K) by linarith)] at b2
        constructor <;> linarith
  have hm : 0 ≤ min (hi - v c) (v c - lo) := le_min (by linarith [(hv c).2]) (by linarith [(hv c).1])
  have key : |profile lim p v c y - v c| ≤ min (hi - v c) (v c - lo) := by
    unfold profile
    rw [add_sub_cancel_left]
    calc |∑ b, profSlope lim p v c b * y b| ≤ ∑ b, |profSlope lim p v c b * y b| := Finset.abs_sum_le_sum_abs _ _
      _ ≤ ∑ b, |y b| / h b * min (hi - v c) (v c - lo) := Finset.sum_le_sum fun b _ => by
          rw [profSlope_equal (hh b) (hdx b), abs_mul, abs_div, abs_of_pos (hh b), div_mul_eq_mul_div, div_mul_eq_mul_div, mul_comm]
          exact div_le_div_of_nonneg_right (mul_le_mul_of_nonneg_left (hD1 b) (abs_nonneg _)) (hh b).le
      _ = (∑ b, |y b| / h b) * min (hi - v c) (v c - lo) := by rw [Finset.sum_mul]
      _ ≤ _ := mul_le_of_le_one_left hm hy
  have k1 := abs_le.1 (key.trans (min_le_left _ _))
  have k2 := abs_le.1 (key.trans (min_le_right _ _))
  constructor <;> linarith

/-- The foot points of the faces are not farther than the centres of the neighbours. -/
theorem footPoint_near (hh : ∀ a, 0 < h a) (hdx : ∀ (a : Fin d) i, p.dx (ax a) i = h a) {dt : K} (hdt : 0 ≤ dt) {w : Fin d → K} (hc : ∑ a, dt * |w a| / h a ≤ 1)
    {t : K} (ht : t = 0 ∨ t = dt / 2) (c : Cell) (side : Fin 2) (a : Fin d) : ∑ b, |footPoint p c t w side a b| / h b ≤ 1 := by
  have e1 : ∀ b, |footPoint p c t w side a b| / h b ≤ (if b = a then 1 / 2 else 0) + dt * |w b| / h b / 2 := by
    intro b
    have hb := hh b
    rw [div_le_iff₀ hb, add_mul]
    unfold footPoint
    have e2 : |t * w b| ≤ dt * |w b| / h b / 2 * h b := by
      have : dt * |w b| / h b / 2 * h b = dt / 2 * |w b| := by field_simp
      rw [this, abs_mul]
      rcases ht with rfl | rfl
      · rw [abs_zero, zero_mul]; positivity
      · rw [abs_of_nonneg (by linarith)]
    refine (abs_sub _ _).trans (add_le_add ?_ e2)
    by_cases hba : b = a
    · subst hba
      rw [if_pos rfl, if_pos rfl, hdx]
      split_ifs
      · rw [abs_neg, abs_of_pos (by linarith)]; linarith
      · rw [abs_of_pos (by linarith)]; linarith
    · rw [if_neg hba, if_neg hba, abs_zero, zero_mul]
  refine (Finset.sum_le_sum fun b _ => e1 b).trans ?_
  rw [Finset.sum_add_distrib, Finset.sum_ite_eq' Finset.univ a, if_pos (Finset.mem_univ _), ← Finset.sum_div]
  linarith

/-- What comes in through the face normal to `a` on the side the wind comes from. -/
def windIn (lim : Limiter) (p : PGrid d K) (v : Cell → K) (dt : K) (w : Fin d → K) (C : Cell) (a : Fin d) : K :=
  if 0 < w a then profile lim p v (nb C (ax a) (-1)) (footPoint p (nb C (ax a) (-1)) (dt / 2) w 1 a)
  else profile lim p v (nb C (ax a) 1) (footPoint p (nb C (ax a) 1) (dt / 2) w 0 a)

/-- A step in a uniform wind is a weighted mean of the profile of the cell and of what comes in. -/
theorem wind_mean (hh : ∀ a, 0 < h a) (hdx : ∀ (a : Fin d) i, p.dx (ax a) i = h a) {dt : K} (hdt : 0 < dt) (w : Fin d → K) (C : Cell) :
    v C + ∑ a, dt / p.dx (ax a) (C (ax a)) * (w a * (upstream lim p v dt w C a - upstream lim p v dt w (nb C (ax a) 1) a)) =
      (1 - ∑ a, dt * |w a| / h a) * profile lim p v C (fun b => - (dt / 2 * w b)) + ∑ a, dt * |w a| / h a * windIn lim p v dt w C a := by
  have e1 : ∀ a, dt / p.dx (ax a) (C (ax a)) * (w a * (upstream lim p v dt w C a - upstream lim p v dt w (nb C (ax a) 1) a)) =
      dt * |w a| / h a * windIn lim p v dt w C a - dt * |w a| / h a * profile lim p v C (fun b => - (dt / 2 * w b)) - dt / 2 * (profSlope lim p v C a * w a) := by
    intro a
    have hb := (hh a).ne'
    have foot : ∀ side : Fin 2, profile lim p v C (footPoint p C (dt / 2) w side a) =
        profile lim p v C (fun b => - (dt / 2 * w b)) + profSlope lim p v C a * (if side = 0 then - (h a / 2) else h a / 2) := by
      intro side
      unfold profile footPoint
      rw [hdx, add_assoc]
      congr 1
      have : ∀ b, profSlope lim p v C b * ((if b = a then (if side = 0 then - (h a / 2) else h a / 2) else 0) - dt / 2 * w b) =
          profSlope lim p v C b * - (dt / 2 * w b) + (if b = a then profSlope lim p v C a * (if side = 0 then - (h a / 2) else h a / 2) else 0) := by
        intro b
        by_cases hba : b = a
        · subst hba; rw [if_pos rfl, if_pos rfl]; ring
        · rw [if_neg hba, if_neg hba]; ring
      rw [Finset.sum_congr rfl fun b _ => this b, Finset.sum_add_distrib, Finset.sum_ite_eq' Finset.univ a, if_pos (Finset.mem_univ _)]
    have nn : nb (nb C (ax a) 1) (ax a) (-1) = C := by simp [nb]
    rw [hdx]
    unfold upstream windIn
    rcases lt_trichotomy (w a) 0 with hw | hw | hw
    · rw [if_neg hw.not_gt, if_neg hw.not_gt, if_neg hw.not_gt, abs_of_neg hw, foot 0, if_pos rfl]
      field_simp
      ring
    · rw [hw]; simp
    · rw [if_pos hw, if_pos hw, if_pos hw, nn, abs_of_pos hw, foot 1, if_neg (by decide)]
      field_simp
      ring
  have e2 : profile lim p v C (fun b => - (dt / 2 * w b)) = v C - ∑ a, dt / 2 * (profSlope lim p v C a * w a) := by
    unfold profile
    rw [sub_eq_add_neg, ← Finset.sum_neg_distrib]
    congr 1
    exact Finset.sum_congr rfl fun b _ => by ring
  rw [Finset.sum_congr rfl fun a _ => e1 a, Finset.sum_sub_distrib, Finset.sum_sub_distrib, ← Finset.sum_mul]
  rw [e2]
  ring

/-- A step in a uniform wind keeps the range. -/
theorem wind_range (hl : lim = .constant ∨ lim = .minmod) (hv : ∀ c, lo ≤ v c ∧ v c ≤ hi) (hh : ∀ a, 0 < h a) (hdx : ∀ (a : Fin d) i, p.dx (ax a) i = h a)
    {dt : K} (hdt : 0 ≤ dt) {w : Fin d → K} (hc : ∑ a, dt * |w a| / h a ≤ 1) (C : Cell) :
    lo ≤ v C + ∑ a, dt / p.dx (ax a) (C (ax a)) * (w a * (upstream lim p v dt w C a - upstream lim p v dt w (nb C (ax a) 1) a)) ∧
    v C + ∑ a, dt / p.dx (ax a) (C (ax a)) * (w a * (upstream lim p v dt w C a - upstream lim p v dt w (nb C (ax a) 1) a)) ≤ hi := by
  rcases hdt.eq_or_lt with rfl | hdt
  · simpa using hv C
  rw [wind_mean hh hdx hdt]
  have hw : ∀ a, 0 ≤ dt * |w a| / h a := fun a => div_nonneg (mul_nonneg hdt.le (abs_nonneg _)) (hh a).le
  have hin : ∀ a, lo ≤ windIn lim p v dt w C a ∧ windIn lim p v dt w C a ≤ hi := by
    intro a
    unfold windIn
    split_ifs <;> exact profile_range hl hv hh hdx _ (footPoint_near hh hdx hdt.le hc (.inr rfl) _ _ _)
  have hown : lo ≤ profile lim p v C (fun b => - (dt / 2 * w b)) ∧ profile lim p v C (fun b => - (dt / 2 * w b)) ≤ hi := by
    refine profile_range hl hv hh hdx _ ?_
    have : ∀ b, |- (dt / 2 * w b)| / h b = dt * |w b| / h b / 2 := fun b => by
      rw [abs_neg, abs_mul, abs_of_pos (show 0 < dt / 2 by linarith)]; ring
    rw [Finset.sum_congr rfl fun b _ => this b, ← Finset.sum_div]
    have := Finset.sum_nonneg fun a (_ : a ∈ Finset.univ) => hw a
    linarith
  have h1 : (∑ a, dt * |w a| / h a) * lo ≤ ∑ a, dt * |w a| / h a * windIn lim p v dt w C a := by
    rw [Finset.sum_mul]
    exact Finset.sum_le_sum fun a _ => mul_le_mul_of_nonneg_left (hin a).1 (hw a)
  have h2 : ∑ a, dt * |w a| / h a * windIn lim p v dt w C a ≤ (∑ a, dt * |w a| / h a) * hi := by
    rw [Finset.sum_mul]
    exact Finset.sum_le_sum fun a _ => mul_le_mul_of_nonneg_left (hin a).2 (hw a)
  have h3 := mul_le_mul_of_nonneg_left hown.1 (sub_nonneg.2 hc)
  have h4 := mul_le_mul_of_nonneg_left hown.2 (sub_nonneg.2 hc)
  constructor <;> linarith

end

end Heracles

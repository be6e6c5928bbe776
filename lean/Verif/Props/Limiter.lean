import Verif.Lemmas.Limiter

/-!
# Properties of the slope limiters and of the face reconstruction (C20, C21, C22)
-/

namespace Heracles

variable {d : ℕ} {K : Type} [Field K] [LinearOrder K] [IsStrictOrderedRing K]

/-- **C20.** Every limiter is symmetric, homogeneous of degree one (for every factor; `-1` gives oddness),
vanishes when the differences do not have the same strict sign, and otherwise (`Constant` excepted, which is
identically zero) has their common sign. -/
theorem C20_limiter_symmetry_and_sign (lim : Limiter) :
    (∀ r l : K, lim.slope r l = lim.slope l r) ∧
    (∀ k r l : K, lim.slope (k * r) (k * l) = k * lim.slope r l) ∧
    (∀ r l : K, r * l ≤ 0 → lim.slope r l = 0) ∧
    (lim ≠ .constant → ∀ r l : K, (0 < r → 0 < l → 0 < lim.slope r l) ∧ (r < 0 → l < 0 → lim.slope r l < 0)) := by
  refine ⟨lim.slope_comm, lim.slope_smul, fun r l h => lim.slope_zero (by rw [mul_comm]; exact not_lt.2 h), ?_⟩
  intro hne r l
  refine ⟨fun hr hl => (lim.slope_bounds_pos hl hr).2.2.2 hne, fun hr hl => ?_⟩
  have := (lim.slope_bounds_pos (neg_pos.2 hl) (neg_pos.2 hr)).2.2.2 hne
  rw [lim.slope_neg] at this
  linarith

/-- The `Constant` limiter is identically zero (first-order scheme). -/
theorem C20_constant_is_zero (r l : K) : Limiter.constant.slope r l = 0 := rfl

/-- **C21.** Second-order TVD region: exact on equal slopes, never more than twice the smaller one-sided
slope; minmod never more than the smaller one. -/
theorem C21_tvd_region (lim : Limiter) :
    (lim ≠ .constant → ∀ s : K, lim.slope s s = s) ∧
    (∀ r l : K, |lim.slope r l| ≤ 2 * min |r| |l|) ∧
    (∀ r l : K, |Limiter.minmod.slope r l| ≤ min |r| |l|) := by
  have hpos : ∀ (lim : Limiter) {r l : K}, 0 < l → 0 < r → |lim.slope r l| ≤ 2 * min |r| |l| := by
    intro lim r l hl hr
    obtain ⟨h0, h1, h2, -⟩ := lim.slope_bounds_pos hl hr
    rw [abs_of_nonneg h0, abs_of_pos hl, abs_of_pos hr]
    rcases min_cases r l with ⟨h, -⟩ | ⟨h, -⟩ <;> rw [h] <;> assumption
  refine ⟨?_, ?_, ?_⟩
  · intro hne s
    rcases eq_or_ne s 0 with rfl | hs
    · exact lim.slope_zero (by simp)
    · have h : s * s > 0 := mul_self_pos.2 hs
      cases lim with
      | constant => exact absurd rfl hne
      | vanLeer =>
        rw [vanLeer_eq h]
        have e : s + s = 2 * s := by ring
        rw [e]; field_simp
      | minmod => rw [minmod_eq h, if_pos le_rfl]
      | vanAlbada =>
        rw [vanAlbada_eq h]
        have e : s ^ 2 + s ^ 2 = 2 * s ^ 2 := by ring
        rw [e]
        field_simp
        ring
  · intro r l
    by_cases h : l * r > 0
    · rcases pos_and_pos_or_neg_and_neg_of_mul_pos h with ⟨a, b⟩ | ⟨a, b⟩
      · exact hpos lim a b
      · have := hpos lim (neg_pos.2 a) (neg_pos.2 b)
        rwa [lim.slope_neg, abs_neg, abs_neg, abs_neg] at this
    · rw [lim.slope_zero h, abs_zero]
      positivity
  · intro r l
    by_cases h : l * r > 0
    · rw [minmod_eq h]
      split_ifs with hc
      · rw [min_eq_left hc]
      · rw [min_eq_right (not_le.1 hc).le]
    · rw [Limiter.slope_zero _ h, abs_zero]
      positivity

example : Limiter.vanLeer.slope (1 : ℚ) 3 = 3 / 2 ∧ Limiter.minmod.slope (1 : ℚ) 3 = 1 ∧
    Limiter.vanAlbada.slope (1 : ℚ) 3 = 6 / 5 := by
  refine ⟨?_, ?_, ?_⟩
  · rw [vanLeer_eq (by norm_num)]; norm_num
  · rw [minmod_eq (by norm_num)]; norm_num
  · rw [vanAlbada_eq (by norm_num)]; norm_num

/-- `x` lies between `a` and `b`, in whatever order these are. -/
def Between (x a b : K) : Prop := min a b ≤ x ∧ x ≤ max a b

omit [IsStrictOrderedRing K] in
private theorem between_left {x a b : K} (h1 : a ≤ x) (h2 : x ≤ b) : Between x a b :=
  ⟨(min_le_left _ _).trans h1, h2.trans (le_max_right _ _)⟩

omit [IsStrictOrderedRing K] in
private theorem between_right {x a b : K} (h1 : b ≤ x) (h2 : x ≤ a) : Between x a b :=
  ⟨(min_le_right _ _).trans h1, h2.trans (le_max_left _ _)⟩

private theorem incr_le (lim : Limiter) {dlm dl dlp vm v vp : K} (hm : 0 < dlm) (h0 : 0 < dl) (hp : 0 < dlp)
    (hlim : lim = .minmod ∨ (dl ≤ dlm ∧ dl ≤ dlp)) (h1 : vm < v) (h2 : v < vp) :
    let s := lim.slope ((vp - v) / ((dl + dlp) / 2)) ((v - vm) / ((dlm + dl) / 2))
    0 ≤ s ∧ dl / 2 * s ≤ vp - v ∧ dl / 2 * s ≤ v - vm := by
  intro s
  have hr : 0 < (vp - v) / ((dl + dlp) / 2) := div_pos (by linarith) (by positivity)
  have hl : 0 < (v - vm) / ((dlm + dl) / 2) := div_pos (by linarith) (by positivity)
  obtain ⟨b0, b1, b2, -⟩ := lim.slope_bounds_pos hl hr
  have er : (vp - v) / ((dl + dlp) / 2) * (dl + dlp) = 2 * (vp - v) := by field_simp
  have el : (v - vm) / ((dlm + dl) / 2) * (dlm + dl) = 2 * (v - vm) := by field_simp
  obtain ⟨r, hrr⟩ : ∃ r, r = (vp - v) / ((dl + dlp) / 2) := ⟨_, rfl⟩
  obtain ⟨l, hll⟩ : ∃ l, l = (v - vm) / ((dlm + dl) / 2) := ⟨_, rfl⟩
  have hs : s = lim.slope r l := by rw [hrr, hll]
  rw [← hrr] at hr er b0 b1 b2
  rw [← hll] at hl el b0 b1 b2
  rw [hs]
  refine ⟨b0, ?_, ?_⟩
  · rcases hlim with rfl | ⟨-, h⟩
    · have hmin := (C21_tvd_region (K := K) .minmod).2.2 r l
      rw [abs_of_nonneg b0, abs_of_pos hr] at hmin
      have := hmin.trans (min_le_left _ _)
      nlinarith
    · nlinarith
  · rcases hlim with rfl | ⟨h, -⟩
    · have hmin := (C21_tvd_region (K := K) .minmod).2.2 r l
      rw [abs_of_nonneg b0, abs_of_pos hl] at hmin
      have h3 := hmin.trans (min_le_right _ _)
      nlinarith
    · nlinarith

/-- **C22**, one cell and one direction. The two face values average to the cell value; the left (right)
face value lies between the cell value and its left (right) neighbour's. Holds for every limiter if the cell
is not larger than its neighbours (in particular on a uniform grid), for minmod on any mesh. -/
theorem C22_no_new_extrema (lim : Limiter) {dlm dl dlp : K} (vm v vp : K) (hm : 0 < dlm) (h0 : 0 < dl) (hp : 0 < dlp)
    (hlim : lim = .minmod ∨ (dl ≤ dlm ∧ dl ≤ dlp)) :
    (reconFace lim dlm dl dlp vm v vp 0 + reconFace lim dlm dl dlp vm v vp 1) / 2 = v ∧
    Between (reconFace lim dlm dl dlp vm v vp 0) vm v ∧ Between (reconFace lim dlm dl dlp vm v vp 1) v vp := by
  obtain ⟨s, hs⟩ : ∃ s, s = lim.slope ((vp - v) / ((dl + dlp) / 2)) ((v - vm) / ((dlm + dl) / 2)) := ⟨_, rfl⟩
  have e0 : reconFace lim dlm dl dlp vm v vp 0 = v - dl / 2 * s := by rw [hs]; rfl
  have e1 : reconFace lim dlm dl dlp vm v vp 1 = v + dl / 2 * s := by rw [hs]; rfl
  rw [e0, e1]
  refine ⟨by ring, ?_⟩
  by_cases hpos : (v - vm) / ((dlm + dl) / 2) * ((vp - v) / ((dl + dlp) / 2)) > 0
  · rcases pos_and_pos_or_neg_and_neg_of_mul_pos hpos with ⟨a, b⟩ | ⟨a, b⟩
    · have h1 : vm < v := by
        have := (div_pos_iff_of_pos_right (by positivity : 0 < (dlm + dl) / 2)).1 a
        linarith
      have h2 : v < vp := by
        have := (div_pos_iff_of_pos_right (by positivity : 0 < (dl + dlp) / 2)).1 b
        linarith
      obtain ⟨i0, i1, i2⟩ := incr_le lim hm h0 hp hlim h1 h2
      rw [← hs] at i0 i1 i2
      have hn : 0 ≤ dl / 2 * s := by positivity
      exact ⟨between_left (by linarith) (by linarith), between_left (by linarith) (by linarith)⟩
    · have h1 : v < vm := by
        have := (div_neg_iff.1 a)
        rcases this with h | h
        · have : 0 < (dlm + dl) / 2 := by positivity
          linarith [h.2]
        · linarith [h.1]
      have h2 : vp < v := by
        rcases (div_neg_iff.1 b) with h | h
        · have : 0 < (dl + dlp) / 2 := by positivity
          linarith [h.2]
        · linarith [h.1]
      obtain ⟨i0, i1, i2⟩ := incr_le lim (vm := -vm) (v := -v) (vp := -vp) hm h0 hp hlim (by linarith) (by linarith)
      have hneg : lim.slope ((-vp - -v) / ((dl + dlp) / 2)) ((-v - -vm) / ((dlm + dl) / 2)) = -s := by
        rw [hs, ← lim.slope_neg]
        congr 1 <;> ring
      rw [hneg] at i0 i1 i2
      have hn : 0 ≤ dl / 2 * -s := by positivity
      exact ⟨between_right (by linarith) (by linarith), between_right (by linarith) (by linarith)⟩
  · rw [lim.slope_zero hpos] at hs
    rw [hs]
    simp only [mul_zero, sub_zero, add_zero]
    exact ⟨⟨min_le_right _ _, le_max_right _ _⟩, ⟨min_le_left _ _, le_max_left _ _⟩⟩

/-- **C22**, linear data of slope `s` are reconstructed exactly, on every mesh (uniform or not) and by every
limiter except `Constant`. -/
theorem C22_exact_on_linear_data {lim : Limiter} (hl : lim ≠ .constant) {dlm dl dlp : K} (vm v vp s : K) (hm : 0 < dlm)
    (h0 : 0 < dl) (hp : 0 < dlp) (hr : vp - v = s * ((dl + dlp) / 2)) (hL : v - vm = s * ((dlm + dl) / 2)) :
    reconFace lim dlm dl dlp vm v vp 0 = v - s * (dl / 2) ∧ reconFace lim dlm dl dlp vm v vp 1 = v + s * (dl / 2) := by
  have e1 : (vp - v) / ((dl + dlp) / 2) = s := by rw [hr]; field_simp
  have e2 : (v - vm) / ((dlm + dl) / 2) = s := by rw [hL]; field_simp
  unfold reconFace
  rw [e1, e2, (C21_tvd_region lim).1 hl s]
  constructor
  · rw [if_pos rfl]; ring
  · rw [if_neg (by decide)]; ring

/-- The extra hypothesis of `C22_no_new_extrema` cannot be dropped: with a cell larger than its neighbours, van Leer
and van Albada overshoot the neighbouring value (van Leer on the monotone data `-8, 1, 2`, middle cell three times
larger, exceeds 2; van Albada on `-23, 2, 12`, middle cell nine times larger, exceeds 12). Finding: on stretched grids these limiters can create new
extrema and negative face values. -/
theorem C22_nonuniform_overshoot :
    2 < reconFace Limiter.vanLeer (1 : ℚ) 3 1 (-8) 1 2 1 ∧
    ¬ Between (reconFace Limiter.vanLeer (1 : ℚ) 3 1 (-8) 1 2 1) 1 2 ∧
    ¬ Between (reconFace Limiter.vanAlbada (1 : ℚ) 9 1 (-23) 2 12 1) 2 12 := by
  have h1 : reconFace Limiter.vanLeer (1 : ℚ) 3 1 (-8) 1 2 1 = 47 / 20 := by
    unfold reconFace
    rw [vanLeer_eq (by norm_num)]
    norm_num
  have h2 : reconFace Limiter.vanAlbada (1 : ℚ) 9 1 (-23) 2 12 1 = 373 / 29 := by
    unfold reconFace
    rw [vanAlbada_eq (by norm_num)]
    norm_num
  rw [h1, h2]
  refine ⟨by norm_num, fun h => ?_, fun h => ?_⟩
  · have := h.2; norm_num at this
  · have := h.2; norm_num at this

/-- **C22**, the array kernel, for every execution order of a box whose one-cell neighbourhood lies inside the
arrays: no access is out of bounds, cells outside the box are unchanged, and in the box the faces average to the
cell value, lie between the neighbouring cell values, and are positive where the three cell values are. -/
theorem C22_reconstruction_array (lim : Limiter) (hd : d ≤ 3) {b e : Cell} {l : List Cell} (hl : IsSchedule l b e)
    (dx : Fin 3 → View ℤ K) (var : View Cell K) (out : FaceArr d K)
    (hin : ∀ c, inBox b e c → out.dom c ∧ var.dom c ∧ (∀ a, (dx a).dom (c a)) ∧
      ∀ (a : Fin d) (s : ℤ), -1 ≤ s → s ≤ 1 →
        var.dom (Function.update c (ax a) (c (ax a) + s)) ∧ (dx (ax a)).dom (c (ax a) + s))
    (hdx : ∀ a i, 0 < (dx a).val i)
    (hlim : lim = .minmod ∨ ∀ c, inBox b e c → ∀ a : Fin d,
      (dx (ax a)).val (c (ax a)) ≤ (dx (ax a)).val (c (ax a) - 1) ∧
      (dx (ax a)).val (c (ax a)) ≤ (dx (ax a)).val (c (ax a) + 1)) :
    ∃ out', faceReconstruct lim dx l var out = some out' ∧ out'.dom = out.dom ∧
      (∀ c, ¬ inBox b e c → out'.val c = out.val c) ∧
      ∀ c, inBox b e c → ∀ a : Fin d,
        let left := var.val (Function.update c (ax a) (c (ax a) - 1))
        let right := var.val (Function.update c (ax a) (c (ax a) + 1))
        (out'.val c 0 a + out'.val c 1 a) / 2 = var.val c ∧
        Between (out'.val c 0 a) left (var.val c) ∧ Between (out'.val c 1 a) (var.val c) right ∧
        (0 < left → 0 < var.val c → 0 < right → 0 < out'.val c 0 a ∧ 0 < out'.val c 1 a) := by
  have h := faceReconstruct_eq lim dx var hd hl.1 out
    (fun c hc a s h1 h2 => ((hin c ((hl.2 c).1 hc)).2.2.2 a s h1 h2).1)
    (fun c hc => (hin c ((hl.2 c).1 hc)).2.1) (fun c hc => (hin c ((hl.2 c).1 hc)).1)
    (fun c hc => (hin c ((hl.2 c).1 hc)).2.2.1)
    (fun c hc a s h1 h2 => ((hin c ((hl.2 c).1 hc)).2.2.2 a s h1 h2).2)
  refine ⟨_, h, rfl, ?_, ?_⟩
  · intro c hc
    show (if c ∈ l then _ else _) = _
    rw [if_neg (fun h => hc ((hl.2 c).1 h))]
  · intro c hc a
    simp only [if_pos ((hl.2 c).2 hc)]
    have key := C22_no_new_extrema lim (var.val (Function.update c (ax a) (c (ax a) - 1))) (var.val c)
      (var.val (Function.update c (ax a) (c (ax a) + 1))) (hdx (ax a) (c (ax a) - 1)) (hdx (ax a) (c (ax a)))
      (hdx (ax a) (c (ax a) + 1)) (hlim.imp id (fun h => h c hc a))
    refine ⟨key.1, key.2.1, key.2.2, fun h1 h2 h3 => ⟨?_, ?_⟩⟩
    · exact lt_of_lt_of_le (lt_min h1 h2) key.2.1.1
    · exact lt_of_lt_of_le (lt_min h2 h3) key.2.2.1

/-- Non-vacuity: 2-dimensional 5x5x1 arrays with unit spacing, reconstruction of the 3x3 inner cells. -/
example : ∃ (dx : Fin 3 → View ℤ ℚ) (var : View Cell ℚ) (out : FaceArr 2 ℚ),
    (∀ c, inBox ![1, 1, 0] ![4, 4, 1] c → out.dom c ∧ var.dom c ∧ (∀ a, (dx a).dom (c a)) ∧
      ∀ (a : Fin 2) (s : ℤ), -1 ≤ s → s ≤ 1 →
        var.dom (Function.update c (ax a) (c (ax a) + s)) ∧ (dx (ax a)).dom (c (ax a) + s)) ∧
    (∀ a i, 0 < (dx a).val i) ∧
    faceReconstruct .vanLeer dx (boxList ![1, 1, 0] ![4, 4, 1]) var out ≠ none := by
  have hin : ∀ c, inBox ![1, 1, 0] ![4, 4, 1] c → (inExt ![5, 5, 1] c = true) ∧ (inExt ![5, 5, 1] c = true) ∧
      (∀ a, (View.line (![5, 5, 1] a) fun _ => (1 : ℚ)).dom (c a)) ∧
      ∀ (a : Fin 2) (s : ℤ), -1 ≤ s → s ≤ 1 →
        inExt ![5, 5, 1] (Function.update c (ax a) (c (ax a) + s)) ∧
        (View.line (![5, 5, 1] (ax a)) fun _ => (1 : ℚ)).dom (c (ax a) + s) := by
    intro c hc
    have h0 : 1 ≤ c 0 ∧ c 0 < 4 := hc 0
    have h1 : 1 ≤ c 1 ∧ c 1 < 4 := hc 1
    have h2 : 0 ≤ c 2 ∧ c 2 < 1 := hc 2
    have h2' : c 2 = 0 := by omega
    refine ⟨?_, ?_, ?_, ?_⟩
    · rw [inExt_iff]; intro a; fin_cases a <;> simp [h2'] <;> omega
    · rw [inExt_iff]; intro a; fin_cases a <;> simp [h2'] <;> omega
    · intro a; apply decide_eq_true; fin_cases a <;> simp [h2'] <;> omega
    · intro a s hs1 hs2
      constructor
      · rw [inExt_iff]
        intro b
        by_cases hb : b = ax a
        · subst hb
          rw [Function.update_self]
          fin_cases a <;> simp [ax, Fin.ofNat] <;> omega
        · rw [Function.update_of_ne hb]
          fin_cases b <;> simp [h2'] <;> omega
      · apply decide_eq_true; fin_cases a <;> simp [ax, Fin.ofNat] <;> omega
  refine ⟨fun a => View.line (![5, 5, 1] a) fun _ => 1, ⟨inExt ![5, 5, 1], fun c => c 0 + 2 * c 1⟩,
    ⟨inExt ![5, 5, 1], fun _ _ _ => 0⟩, hin, fun _ _ => by norm_num [View.line], ?_⟩
  obtain ⟨o, h, -⟩ := C22_reconstruction_array .vanLeer (d := 2) (by norm_num) (boxList_isSchedule _ _)
    (fun a => View.line (![5, 5, 1] a) fun _ => (1 : ℚ)) ⟨inExt ![5, 5, 1], fun c => (c 0 + 2 * c 1 : ℤ)⟩
    ⟨inExt ![5, 5, 1], fun _ _ _ => 0⟩ hin (fun _ _ => by norm_num [View.line]) (Or.inr fun _ _ _ => ⟨le_rfl, le_rfl⟩)
  simp only [Int.cast_add, Int.cast_mul, Int.cast_ofNat] at h
  rw [h]; simp

end Heracles

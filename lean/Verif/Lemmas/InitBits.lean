import Verif.Spec.InitBits
import Verif.Lemmas.Initial
import Verif.Lemmas.Ieee
import Verif.Lemmas.IeeeSqrt

/-!
# Lemmas: initial states in double precision
-/

namespace Heracles

variable {d : ℕ}

section
variable {F : Type} [Arith F]

theorem oNode_shift (ng : ℤ) (xmin dx : F) (i : ℤ) : oNode ng xmin dx (i + ng) = oNode 0 xmin dx i := by
  unfold oNode
  rw [add_sub_cancel_right, sub_zero]

end

/-- It is enough that the body of the loop writes the state from the node, the centre and the volume of the cell. -/
theorem startsAs_of {lim : Limiter} {sol : Solver} {eos : EoS Ieee} {fix : Option Ieee} {S : BitsKernel d} {nx : Cell} {ng : ℤ}
    {xmin xmax : Fin 3 → Ieee} (hN : ∀ a, 0 ≤ nx a) (hng : 0 ≤ ng) (f : (Fin 3 → Ieee) → (Fin 3 → Ieee) → Ieee → Prim d Ieee)
    (hS : ∀ g c x xc dv, (∀ a, (g.x a).rd (c a) = some (x a)) → (∀ a, (g.xc a).rd (c a) = some (xc a)) → g.dv.rd c = some dv →
      S g c = some (f x xc dv)) {W : Cell → Prim d Ieee}
    (hW : ∀ C, inBox 0 nx C → f (fun a => bNode (nx a) (xmin a) (xmax a) (C a)) (fun a => bCenter (nx a) (xmin a) (xmax a) (C a))
      (((bSize (nx 0) (xmin 0) (xmax 0) (C 0)).mul (bSize (nx 1) (xmin 1) (xmax 1) (C 1))).mul (bSize (nx 2) (xmin 2) (xmax 2) (C 2))) = W C) :
    StartsAs (bKernels d lim sol eos fix) S nx ng xmin xmax W := by
  letI := ieeeArith noTrig
  intro dims rank topo g r l v0 hdm hr hg hrg hl hv0
  obtain ⟨e1, f1, f2⟩ := rank_noGhosts_box hN hdm hr hg.ok hrg
  obtain ⟨l1, r', l2, l3, h1, h2, h3, h4, h5⟩ := hg.grid
  obtain ⟨-, -, e3, -, -⟩ := range_box hN hdm hr hg.ok
  obtain ⟨g', hg', hfit⟩ := kSetGrid_spec (bKernels d lim sol eos fix) .cartesian hN hdm hr hg.ok h1 h2 h3 h4
    (fun a => oNode (topo.nghost a) (xmin a) (oLength (nx a) (xmin a) (xmax a)))
  have hgg : g = g' := Option.some.inj (h5.symm.trans hg')
  subst hgg
  have hf := hfit (fun _ _ => some 0) (fun _ _ => 0) fun _ _ _ => rfl
  rw [f1, f2] at hl ⊢
  have hk : ∀ c ∈ l, S g c = some (W (globalOf nx dims (nghostOf d ng) rank c)) := by
    intro c hc
    have hb := (hl.2 c).1 hc
    have hin := rank_interior_inExt hng hb
    have hb' := inExt_iff.1 hin
    have hs : ∀ a, c a + startCell nx dims rank a = globalOf nx dims (nghostOf d ng) rank c a + topo.nghost a := by
      intro a
      rw [e3]
      simp only [globalOf, startCell]
      ring
    have hC : inBox 0 nx (globalOf nx dims (nghostOf d ng) rank c) := by
      intro a
      have q1 := localStart_nonneg (r := rank a) (hN a) (hdm a) (hr a).1
      have q2 := localStart_add_size_le (r := rank a) (hN a) (hdm a) (hr a).2
      have q3 := hb a
      simp only [localExt] at q3
      simp only [globalOf, Pi.zero_apply]
      omega
    have hn : ∀ a i, oNode (topo.nghost a) (xmin a) (oLength (nx a) (xmin a) (xmax a)) (i + topo.nghost a) = bNode (nx a) (xmin a) (xmax a) i :=
      fun a i => oNode_shift _ _ _ _
    rw [← hW _ hC]
    refine hS g c _ _ _ (fun a => ?_) (fun a => ?_) ?_
    · rw [hf.x a, lineRd (hb' a).1 (by linarith [(hb' a).2]), hs, hn]
    · rw [hf.xc a _ (hb' a).1 (hb' a).2, hs, hn, add_right_comm, hn]
      rfl
    · rw [hf.dv c hin]
      show some (((_ : Ieee) * _) * _) = _
      simp only [Pi.add_apply, hs, hn, add_right_comm _ (topo.nghost _) 1]
      rfl
  refine ⟨⟨v0.dom, fun c => if c ∈ l then W (globalOf nx dims (nghostOf d ng) rank c) else v0.val c⟩, ?_, rfl, fun c hc => if_pos ((hl.2 c).2 hc)⟩
  unfold bitsLoop
  refine parFor_store l hl.1 v0 _ _ (fun c hc => ?_) fun c hc w _ => ?_
  · rw [hv0, e1]
    exact rank_interior_inExt hng ((hl.2 c).1 hc)
  · rw [hk c hc]
    rfl

/-- Every rank has such a grid. -/
theorem exists_bitsGrid (k : Kernels d 0 Ieee) {nx dims rank : Cell} {ng : ℤ} (hN : ∀ a, 0 ≤ nx a) (hdm : ∀ a, 0 < dims a)
    (hng : 0 ≤ ng) (hr : inBox 0 dims rank) (xmin xmax : Fin 3 → Ieee) :
    ∃ topo g r, BitsGrid k nx dims ng xmin xmax rank topo g ∧ topo.range.noGhosts = .ok r := by
  letI := ieeeArith noTrig
  obtain ⟨topo, ht, -, -, -, -, -, -, -, -, -, -, e11, -⟩ :=
    GridTopo.mk?_ok (ndim := d) (ng := ng) hN hdm (fun a => (hr a).1)
  obtain ⟨r, hrg⟩ : ∃ r, topo.range.allGhosts = .ok r := by
    unfold Range.allGhosts Range.withGhosts
    rw [if_neg (by omega)]
    exact ⟨_, rfl⟩
  obtain ⟨r', hrg'⟩ : ∃ r, topo.range.noGhosts = .ok r := by
    unfold Range.noGhosts Range.withGhosts
    rw [if_neg (by omega)]
    exact ⟨_, rfl⟩
  obtain ⟨g, hg, -⟩ := kSetGrid_spec k .cartesian hN hdm hr ht (l1 := fun a => intRange 0 (topo.nxLocalWg a))
    (fun a => ⟨intRange_nodup _ _, fun i => mem_intRange⟩) hrg (boxList_isSchedule _ _) (boxList_isSchedule _ _)
    (fun a => oNode (topo.nghost a) (xmin a) (oLength (nx a) (xmin a) (xmax a)))
  exact ⟨topo, g, r', ⟨ht, ⟨_, r, _, _, fun a => ⟨intRange_nodup _ _, fun i => mem_intRange⟩, hrg, boxList_isSchedule _ _,
    boxList_isSchedule _ _, hg⟩⟩, hrg'⟩

/-! ### Sums and square roots of positive numbers -/

namespace Ieee

/-- A finite number that is not negative, with its value. -/
def HasVal (x : Ieee) (q : ℚ) : Prop := ∃ m, x = .fin false m ∧ m.1 = q

theorem HasVal.nonneg {x : Ieee} {q : ℚ} (h : HasVal x q) : 0 ≤ q := by
  obtain ⟨m, -, rfl⟩ := h
  exact m.2.nonneg

/-- The value of a nonnegative finite number. -/
def val : Ieee → ℚ
  | .fin _ m => m.1
  | _ => 0

/-- Nonnegative, finite, not above 200. -/
def small : Ieee → Bool
  | .fin false m => decide (m.1 ≤ 200)
  | _ => false

theorem small_hasVal {x : Ieee} (h : small x = true) : HasVal x (val x) ∧ val x ≤ 200 := by
  rcases x with _ | s | ⟨s, m⟩
  · cases h
  · cases h
  · cases s
    · unfold small at h
      exact ⟨⟨m, rfl, rfl⟩, of_decide_eq_true h⟩
    · cases h

theorem two_pow_big : (1000 : ℚ) < 2 ^ 1024 := by
  rw [← two_pow_split (m := 10) (e := 1014) rfl]
  have : (1 : ℚ) ≤ 2 ^ (1014 : ℤ) := one_le_zpow₀ (by norm_num) (by norm_num)
  generalize (2 : ℚ) ^ (1014 : ℤ) = w at *
  norm_num
  linarith

theorem round_hasVal {q : ℚ} (h : 2 ^ (-1022 : ℤ) ≤ q) (h' : q ≤ 400) : HasVal (round false q) (roundDouble q) := by
  have hq : 0 < q := (two_zpow_pos _).trans_le h
  have e := roundMag_normal hq.ne' (by rwa [abs_of_pos hq])
  have hle : roundDouble q ≤ 400 := by
    have h1 := roundDouble_nearest.mono h'
    have h2 : IsDouble ((400 : ℤ) : ℚ) := isDouble_int (by norm_num)
    have h3 := roundDouble_nearest.eq_self h2
    push_cast at h3
    rwa [h3] at h1
  have hc : 0 ≤ q ∧ roundMag q < 2 ^ 1024 := ⟨hq.le, by rw [e]; exact lt_of_le_of_lt hle (lt_trans (by norm_num) two_pow_big)⟩
  unfold round
  rw [dif_pos hc]
  exact ⟨_, rfl, e⟩

theorem add_hasVal {x y : Ieee} {a b : ℚ} (hx : HasVal x a) (hy : HasVal y b) (h : 2 ^ (-1022 : ℤ) ≤ a + b) (h' : a + b ≤ 400) :
    HasVal (x.add y) (roundDouble (a + b)) := by
  obtain ⟨m, rfl, rfl⟩ := hx
  obtain ⟨k, rfl, rfl⟩ := hy
  have hq : 0 < m.1 + k.1 := (two_zpow_pos _).trans_le h
  have : (Ieee.fin false m).add (.fin false k) = round false (m.1 + k.1) := by
    show (if sval false m.1 + sval false k.1 = 0 then _ else _) = _
    rw [if_neg (by exact hq.ne')]
    show ofRat (m.1 + k.1) = _
    unfold ofRat
    rw [abs_of_pos hq, decide_eq_false (by linarith)]
  rw [this]
  exact round_hasVal h h'

theorem ltb_hasVal {x y : Ieee} {a b : ℚ} (hx : HasVal x a) (hy : HasVal y b) : x.ltb y = decide (a < b) := by
  obtain ⟨m, rfl, rfl⟩ := hx
  obtain ⟨k, rfl, rfl⟩ := hy
  rfl

/-- Rounded sums of positive numbers keep the order. -/
theorem add_mono {x y x' y' c : Ieee} {a b a' b' q : ℚ} (hx : HasVal x a) (hy : HasVal y b) (hx' : HasVal x' a') (hy' : HasVal y' b')
    (hc : HasVal c q) (h : 2 ^ (-1022 : ℤ) ≤ a + b) (h' : a' + b' ≤ 400) (ha : a ≤ a') (hb : b ≤ b') (hlt : c.ltb (x.add y) = true) :
    c.ltb (x'.add y') = true := by
  have h1 := add_hasVal hx hy h (by linarith)
  have h2 := add_hasVal hx' hy' (by linarith) h'
  rw [ltb_hasVal hc h1] at hlt
  rw [ltb_hasVal hc h2]
  exact decide_eq_true ((of_decide_eq_true hlt).trans_le (roundDouble_nearest.mono (by linarith)))

/-- The square root of a number not below `2 ^ e * 2 ^ e` is not below `2 ^ e`. -/
theorem sqrtMag_ge {m : ℚ} (hm : 0 < m) {e : ℤ} (he : sqrtExp m ≤ e) (h : 2 ^ e * 2 ^ e ≤ m) : 2 ^ e ≤ sqrtMag m := by
  have hk : (((2 ^ (e - sqrtExp m).toNat : ℕ) : ℚ) * 2 ^ sqrtExp m) = 2 ^ e := by
    rw [Nat.cast_pow, Nat.cast_ofNat, ← zpow_natCast, ← zpow_add₀ (by norm_num)]
    congr 1
    omega
  have := sqrtMag_side hm (2 ^ (e - sqrtExp m).toNat)
  rw [hk] at this
  rcases h.lt_or_eq with h | h
  · exact (this.1.1 h).le
  · exact (this.2.1 h).le

/-- The distance computed from the squares `x`, `y` is not below 0.025 when one of the squares is not below `1 / 1024`. -/
theorem far_square {x y : Ieee} {a b : ℚ} (hx : HasVal x a) (hy : HasVal y b) (ha : 1 / 1024 ≤ a) (h' : a + b ≤ 200) :
    (x.add y).sqrt.ltb (.lit (25 / 1000)) = false := by
  have hb := hy.nonneg
  have hlow : (2 : ℚ) ^ (-1022 : ℤ) ≤ 1 / 1024 := by
    have : (2 : ℚ) ^ (-1022 : ℤ) ≤ 2 ^ (-10 : ℤ) := zpow_le_zpow_right₀ (by norm_num) (by norm_num)
    exact this.trans (by norm_num)
  obtain ⟨m, hm, hv⟩ := add_hasVal hx hy (by linarith) (by linarith)
  have hm1 : 1 / 1024 ≤ m.1 := by
    rw [hv]
    have h1 := roundDouble_nearest.mono (show (1 / 1024 : ℚ) ≤ a + b by linarith)
    have h2 : IsDouble (((1 : ℤ) : ℚ) * 2 ^ (-10 : ℤ)) := ⟨1, -10, by norm_num, rfl⟩
    have h3 := roundDouble_nearest.eq_self h2
    have h4 : (((1 : ℤ) : ℚ) * 2 ^ (-10 : ℤ)) = 1 / 1024 := by norm_num
    rw [h4] at h3
    rwa [h3] at h1
  have hm2 : m.1 ≤ 200 := by
    rw [hv]
    have h1 := roundDouble_nearest.mono h'
    have h3 := roundDouble_nearest.eq_self (isDouble_int (m := 200) (by norm_num))
    push_cast at h3
    rwa [h3] at h1
  have hm0 : 0 < m.1 := by linarith
  have hlog : Int.log 2 m.1 < 8 := by
    have h1 := Int.zpow_log_le_self (b := 2) (by norm_num) hm0
    by_contra hc
    have h2 : ((2 : ℕ) : ℚ) ^ (8 : ℤ) ≤ (2 : ℕ) ^ Int.log 2 m.1 := zpow_le_zpow_right₀ (by norm_num) (by omega)
    norm_num at h1 h2
    linarith
  have hs : (2 : ℚ) ^ (-5 : ℤ) ≤ sqrtMag m.1 := sqrtMag_ge hm0 (by unfold sqrtExp; omega) (by norm_num; linarith)
  have hsq : (x.add y).sqrt = round false (sqrtMag m.1) := by
    rw [hm]
    show (if m.1 = 0 then _ else _) = _
    rw [if_neg hm0.ne', if_neg (by simp)]
  rw [hsq]
  unfold round
  split
  · rename_i hc
    have hsp : 0 < sqrtMag m.1 := (two_zpow_pos _).trans_le hs
    have e := roundMag_normal hsp.ne' (by
      rw [abs_of_pos hsp]
      exact le_trans (zpow_le_zpow_right₀ (by norm_num) (by norm_num)) hs)
    have h1 := roundDouble_nearest.mono hs
    have h2 : IsDouble (((1 : ℤ) : ℚ) * 2 ^ (-5 : ℤ)) := ⟨1, -5, by norm_num, rfl⟩
    have h3 := roundDouble_nearest.eq_self h2
    rw [Int.cast_one, one_mul] at h3
    rw [h3, ← e] at h1
    obtain ⟨t, ht, htv⟩ : ∃ t, Ieee.lit (25 / 1000) = .fin false t ∧ t.1 ≤ 2 ^ (-5 : ℤ) := by
      obtain ⟨t, ht, hv⟩ := round_hasVal (q := 25 / 1000) (le_trans (zpow_le_zpow_right₀ (by norm_num) (by norm_num : (-1022 : ℤ) ≤ -6)) (by norm_num)) (by norm_num)
      refine ⟨t, ?_, ?_⟩
      · rw [← ht]
        unfold Ieee.lit ofRat
        rw [if_neg (by norm_num), abs_of_pos (by norm_num), decide_eq_false (by norm_num)]
      · rw [hv, ← h3]
        exact roundDouble_nearest.mono (by norm_num)
    rw [ht]
    show decide (_ < _) = false
    exact decide_eq_false (not_lt.2 (htv.trans h1))
  · have : ∃ s t, Ieee.lit (25 / 1000) = .fin s t := by
      unfold Ieee.lit ofRat round
      rw [if_neg (by norm_num), dif_pos]
      · exact ⟨_, _, rfl⟩
      · refine ⟨abs_nonneg _, lt_of_le_of_lt (roundMag_le (abs_nonneg _)) (lt_trans ?_ two_pow_big)⟩
        have : (2 : ℚ) ^ (-1074 : ℤ) ≤ 2 ^ (0 : ℤ) := zpow_le_zpow_right₀ (by norm_num) (by norm_num)
        rw [abs_of_pos (by norm_num)]
        norm_num at this ⊢
        linarith
    obtain ⟨s, t, e⟩ := this
    rw [e]
    rfl

end Ieee

end Heracles

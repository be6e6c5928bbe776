import Verif.Model.Limiter
import Verif.Lemmas.Kokkos
import Verif.Lemmas.Boundary
import Mathlib.Tactic.Linarith
import Mathlib.Tactic.FieldSimp
import Mathlib.Tactic.Positivity
import Mathlib.Tactic.Ring

namespace Heracles

variable {d : ℕ} {K : Type} [Field K] [LinearOrder K] [IsStrictOrderedRing K]

omit [IsStrictOrderedRing K] in
theorem Limiter.slope_zero (lim : Limiter) {r l : K} (h : ¬ l * r > 0) : lim.slope r l = 0 := by
  cases lim <;> simp only [Limiter.slope, h, if_false]

omit [IsStrictOrderedRing K] in
theorem seqFin_some {V : Type} {f : Fin d → Option V} {g : Fin d → V} (h : ∀ i, f i = some (g i)) :
    seqFin f = some g := by
  unfold seqFin
  rw [dif_pos (fun i => by rw [h i]; rfl)]
  congr 1
  funext i
  simp [h i]

private theorem pos_cases {r l : K} (h : l * r > 0) : (0 < l ∧ 0 < r) ∨ (l < 0 ∧ r < 0) := by
  rcases pos_and_pos_or_neg_and_neg_of_mul_pos h with h | h
  · exact Or.inl h
  · exact Or.inr h

theorem vanLeer_eq {r l : K} (h : l * r > 0) : Limiter.vanLeer.slope r l = 2 * l * r / (l + r) := by
  have hl : l ≠ 0 := left_ne_zero_of_mul h.ne'
  have hs : l + r ≠ 0 := by
    rcases pos_cases h with ⟨a, b⟩ | ⟨a, b⟩
    · exact (add_pos a b).ne'
    · exact (add_neg a b).ne
  have hs' : r + l ≠ 0 := by rw [add_comm]; exact hs
  simp only [Limiter.slope, h, if_true]
  have e : r / l + 1 = (r + l) / l := by field_simp
  rw [e]
  field_simp
  ring

theorem vanAlbada_eq {r l : K} (h : l * r > 0) : Limiter.vanAlbada.slope r l = l * r * (l + r) / (l ^ 2 + r ^ 2) := by
  have hl : l ≠ 0 := left_ne_zero_of_mul h.ne'
  have hs : l ^ 2 + r ^ 2 ≠ 0 := by positivity
  have hs' : r ^ 2 + l ^ 2 ≠ 0 := by positivity
  simp only [Limiter.slope, h, if_true]
  have e : r / l * (r / l) + 1 = (r ^ 2 + l ^ 2) / l ^ 2 := by field_simp
  rw [e]
  field_simp
  ring

theorem minmod_eq {r l : K} (h : l * r > 0) : Limiter.minmod.slope r l = if |r| ≤ |l| then r else l := by
  have hl : l ≠ 0 := left_ne_zero_of_mul h.ne'
  have hr0 : 0 < r / l := by
    rcases pos_cases h with ⟨a, b⟩ | ⟨a, b⟩
    · exact div_pos b a
    · exact div_pos_of_neg_of_neg b a
  have hs : 1 + r / l ≠ 0 := by positivity
  simp only [Limiter.slope, h, if_true]
  have e : 2 * min 1 (r / l) / (1 + r / l) * (l + r) / 2 = min 1 (r / l) * l := by
    have : l + r = (1 + r / l) * l := by field_simp
    rw [this, ← mul_assoc, div_mul_cancel₀ _ hs]
    ring
  rw [e]
  have habs : |r| ≤ |l| ↔ r / l ≤ 1 := by
    rw [← abs_of_pos hr0, abs_div, div_le_one (abs_pos.2 hl)]
  by_cases hc : r / l ≤ 1
  · rw [if_pos (habs.2 hc), min_eq_right hc]; field_simp
  · rw [if_neg (fun h => hc (habs.1 h)), min_eq_left (not_le.1 hc).le, one_mul]

/-- Homogeneity, including negative factors. -/
theorem Limiter.slope_smul (lim : Limiter) (k r l : K) : lim.slope (k * r) (k * l) = k * lim.slope r l := by
  by_cases hk : k = 0
  · subst hk
    rw [Limiter.slope_zero lim (by simp)]; ring
  · by_cases h : l * r > 0
    · have h' : k * l * (k * r) > 0 := by
        have : 0 < k * k := mul_self_pos.2 hk
        have := mul_pos this h
        calc (0 : K) < k * k * (l * r) := this
          _ = k * l * (k * r) := by ring
      cases lim with
      | constant => simp [Limiter.slope]
      | vanLeer =>
        rw [vanLeer_eq h, vanLeer_eq h']
        have hs : l + r ≠ 0 := by
          rcases pos_cases h with ⟨a, b⟩ | ⟨a, b⟩
          · exact (add_pos a b).ne'
          · exact (add_neg a b).ne
        have e : k * l + k * r = k * (l + r) := by ring
        rw [e]
        field_simp
      | minmod =>
        rw [minmod_eq h, minmod_eq h', abs_mul, abs_mul]
        have : |k| * |r| ≤ |k| * |l| ↔ |r| ≤ |l| := mul_le_mul_iff_right₀ (abs_pos.2 hk)
        simp only [this]
        split_ifs <;> rfl
      | vanAlbada =>
        rw [vanAlbada_eq h, vanAlbada_eq h']
        have hl : l ≠ 0 := left_ne_zero_of_mul h.ne'
        have hs : l ^ 2 + r ^ 2 ≠ 0 := by positivity
        have e : (k * l) ^ 2 + (k * r) ^ 2 = k ^ 2 * (l ^ 2 + r ^ 2) := by ring
        rw [e]
        field_simp
    · have h' : ¬ k * l * (k * r) > 0 := by
        intro hh
        apply h
        have hkk : 0 < k * k := mul_self_pos.2 hk
        have : 0 < k * k * (l * r) := by
          calc (0 : K) < k * l * (k * r) := hh
            _ = k * k * (l * r) := by ring
        exact pos_of_mul_pos_of_pos_left this hkk.le
      rw [Limiter.slope_zero lim h, Limiter.slope_zero lim h']; ring
where
  pos_of_mul_pos_of_pos_left {a b : K} (h : 0 < a * b) (ha : 0 ≤ a) : 0 < b :=
    pos_of_mul_pos_right h ha

theorem Limiter.slope_comm (lim : Limiter) (r l : K) : lim.slope r l = lim.slope l r := by
  by_cases h : l * r > 0
  · have h' : r * l > 0 := by rw [mul_comm]; exact h
    cases lim with
    | constant => rfl
    | vanLeer => rw [vanLeer_eq h, vanLeer_eq h']; ring_nf
    | minmod =>
      rw [minmod_eq h, minmod_eq h']
      rcases lt_trichotomy |r| |l| with hc | hc | hc
      · rw [if_pos hc.le, if_neg (not_le.2 hc)]
      · rw [if_pos hc.le, if_pos hc.ge]
        rcases pos_cases h with ⟨a, b⟩ | ⟨a, b⟩
        · rwa [abs_of_pos a, abs_of_pos b] at hc
        · rw [abs_of_neg a, abs_of_neg b] at hc; exact neg_injective hc
      · rw [if_neg (not_le.2 hc), if_pos hc.le]
    | vanAlbada => rw [vanAlbada_eq h, vanAlbada_eq h']; ring_nf
  · rw [Limiter.slope_zero lim h, Limiter.slope_zero lim (by rwa [mul_comm])]

/-- Bounds for positive differences. -/
theorem Limiter.slope_bounds_pos (lim : Limiter) {r l : K} (hl : 0 < l) (hr : 0 < r) :
    0 ≤ lim.slope r l ∧ lim.slope r l ≤ 2 * l ∧ lim.slope r l ≤ 2 * r ∧ (lim ≠ .constant → 0 < lim.slope r l) := by
  have h : l * r > 0 := mul_pos hl hr
  cases lim with
  | constant => simp [Limiter.slope, hl.le, hr.le]
  | vanLeer =>
    rw [vanLeer_eq h]
    have hs : 0 < l + r := by positivity
    refine ⟨by positivity, ?_, ?_, fun _ => by positivity⟩
    · rw [div_le_iff₀ hs]; nlinarith
    · rw [div_le_iff₀ hs]; nlinarith
  | minmod =>
    rw [minmod_eq h, abs_of_pos hl, abs_of_pos hr]
    split_ifs with hc
    · exact ⟨hr.le, by linarith, by linarith, fun _ => hr⟩
    · exact ⟨hl.le, by linarith, by linarith, fun _ => hl⟩
  | vanAlbada =>
    rw [vanAlbada_eq h]
    have hs : 0 < l ^ 2 + r ^ 2 := by positivity
    refine ⟨by positivity, ?_, ?_, fun _ => by positivity⟩
    · rw [div_le_iff₀ hs]
      have : r * (l + r) ≤ 2 * (l ^ 2 + r ^ 2) := by nlinarith [sq_nonneg (l - r)]
      nlinarith
    · rw [div_le_iff₀ hs]
      have : l * (l + r) ≤ 2 * (l ^ 2 + r ^ 2) := by nlinarith [sq_nonneg (l - r)]
      nlinarith

theorem Limiter.slope_neg (lim : Limiter) (r l : K) : lim.slope (-r) (-l) = -lim.slope r l := by
  have := lim.slope_smul (-1) r l
  simpa using this

omit [LinearOrder K] [IsStrictOrderedRing K] in
theorem cellLen_eq (dx : Fin 3 → View ℤ K) (hd : d ≤ 3) (a : Fin d) (c : Cell)
    (h : ∀ b, (dx b).dom (c b) = true) : cellLen dx a c = some ((dx (ax a)).val (c (ax a))) := by
  unfold cellLen
  rw [View.rd_of_dom (h 0)]
  simp only [Option.bind_eq_bind, Option.bind_some]
  rw [View.rd_of_dom (h 1)]
  simp only [Option.bind_some]
  rw [View.rd_of_dom (h 2)]
  simp only [Option.bind_some]
  show some _ = some _
  congr 1
  obtain ⟨n, hn⟩ := a
  have : n = 0 ∨ n = 1 ∨ n = 2 := by omega
  rcases this with rfl | rfl | rfl <;> simp [kron, ax, Fin.ofNat]

theorem lindex_eq (hd : d ≤ 3) (a : Fin d) (c : Cell) :
    lindex a.val c = Function.update c (ax a) (c (ax a) - 1) := by
  obtain ⟨n, hn⟩ := a
  have : n = 0 ∨ n = 1 ∨ n = 2 := by omega
  rcases this with rfl | rfl | rfl <;> funext b <;> fin_cases b <;> simp [lindex, kron, ax, Fin.ofNat]

theorem rindex_eq (hd : d ≤ 3) (a : Fin d) (c : Cell) :
    rindex a.val c = Function.update c (ax a) (c (ax a) + 1) := by
  obtain ⟨n, hn⟩ := a
  have : n = 0 ∨ n = 1 ∨ n = 2 := by omega
  rcases this with rfl | rfl | rfl <;> funext b <;> fin_cases b <;> simp [rindex, kron, ax, Fin.ofNat]

end Heracles

namespace Heracles

variable {d : ℕ} {K : Type} [Field K] [LinearOrder K] [IsStrictOrderedRing K]

/-- Pure version of the kernel body. -/
def reconVal (lim : Limiter) (dx : Fin 3 → ℤ → K) (var : Cell → K) (c : Cell) (side : Fin 2) (a : Fin d) : K :=
  reconFace lim (dx (ax a) (c (ax a) - 1)) (dx (ax a) (c (ax a))) (dx (ax a) (c (ax a) + 1))
    (var (Function.update c (ax a) (c (ax a) - 1))) (var c) (var (Function.update c (ax a) (c (ax a) + 1))) side

omit [IsStrictOrderedRing K] in
theorem reconCell_eq (lim : Limiter) (dx : Fin 3 → View ℤ K) (var : View Cell K) (hd : d ≤ 3) (c : Cell)
    (hv : ∀ a : Fin d, ∀ s : ℤ, -1 ≤ s → s ≤ 1 → var.dom (Function.update c (ax a) (c (ax a) + s)) = true)
    (hv0 : var.dom c = true)
    (hx0 : ∀ b, (dx b).dom (c b) = true)
    (hx : ∀ a : Fin d, ∀ s : ℤ, -1 ≤ s → s ≤ 1 → (dx (ax a)).dom (c (ax a) + s) = true) :
    reconCell (d := d) lim dx var c = some fun a side =>
      reconVal lim (fun b => (dx b).val) var.val c side a := by
  unfold reconCell
  apply seqFin_some
  intro a
  have hdom : ∀ s : ℤ, -1 ≤ s → s ≤ 1 → ∀ b, (dx b).dom (Function.update c (ax a) (c (ax a) + s) b) = true := by
    intro s h1 h2 b
    by_cases hb : b = ax a
    · subst hb; rw [Function.update_self]; exact hx a s h1 h2
    · rw [Function.update_of_ne hb]; exact hx0 b
  have em : lindex a.val c = Function.update c (ax a) (c (ax a) + -1) := by rw [lindex_eq hd]; rfl
  have ep : rindex a.val c = Function.update c (ax a) (c (ax a) + 1) := rindex_eq hd a c
  simp only [em, ep]
  rw [cellLen_eq dx hd a c hx0, cellLen_eq dx hd a _ (hdom (-1) (by norm_num) (by norm_num)),
    cellLen_eq dx hd a _ (hdom 1 (by norm_num) (by norm_num)),
    View.rd_of_dom (hv a 1 (by norm_num) (by norm_num)), View.rd_of_dom hv0,
    View.rd_of_dom (hv a (-1) (by norm_num) (by norm_num))]
  simp only [Option.bind_eq_bind, Option.bind_some, Function.update_self]
  rfl

omit [IsStrictOrderedRing K] in
theorem faceReconstruct_eq (lim : Limiter) (dx : Fin 3 → View ℤ K) (var : View Cell K) (hd : d ≤ 3) {l : List Cell}
    (hl : l.Nodup) (out : FaceArr d K)
    (hv : ∀ c ∈ l, ∀ a : Fin d, ∀ s : ℤ, -1 ≤ s → s ≤ 1 → var.dom (Function.update c (ax a) (c (ax a) + s)) = true)
    (hv0 : ∀ c ∈ l, var.dom c = true) (ho : ∀ c ∈ l, out.dom c = true)
    (hx0 : ∀ c ∈ l, ∀ b, (dx b).dom (c b) = true)
    (hx : ∀ c ∈ l, ∀ a : Fin d, ∀ s : ℤ, -1 ≤ s → s ≤ 1 → (dx (ax a)).dom (c (ax a) + s) = true) :
    faceReconstruct lim dx l var out = some ⟨out.dom, fun c =>
      if c ∈ l then reconVal lim (fun b => (dx b).val) var.val c else out.val c⟩ := by
  refine parFor_update l hl out _ (fun c => reconVal lim (fun b => (dx b).val) var.val c) ?_
  intro c hc w hw _
  rw [reconCell_eq lim dx var hd c (hv c hc) (hv0 c hc) (hx0 c hc) (hx c hc)]
  simp only [Option.bind_eq_bind, Option.bind_some]
  exact View.wr_of_dom (by rw [hw]; exact ho c hc)

end Heracles

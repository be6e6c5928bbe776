import Verif.Model.Ghost
import Verif.Spec.Ghost
import Verif.Lemmas.Mesh

namespace Heracles

/-- Bounds of the part of a local array known to be correct: ghosts on the left (right) in the
directions flagged by `L` (`R`) are included. -/
def Valid (nghost ext : Cell) (L R : Fin 3 → Bool) (c : Cell) : Prop :=
  ∀ a, (if L a then 0 else nghost a) ≤ c a ∧ c a < (if R a then ext a else ext a - nghost a)

/-- Every rank holds the periodic image of `G` on the part of its array described by `L`, `R`. -/
def HoldsOn {V : Type} (nx dims nghost : Cell) (G : Cell → V) (L R : Fin 3 → Bool) (D : DistView V) : Prop :=
  ∀ rank, inBox 0 dims rank → ∀ c, Valid nghost (localExt nx dims nghost rank) L R c →
    D.val rank c = G (wrap nx (globalOf nx dims nghost rank c))

theorem localStart_next_mod {N d r : ℤ} (hN : 0 ≤ N) (hd : 0 < d) (hr : 0 ≤ r) (hrd : r < d) (x : ℤ) :
    (localStart N d ((r + 1) % d) + x) % N = (localStart N d r + localSize N d r + x) % N := by
  rw [← localStart_succ hN hd]
  by_cases h : r + 1 = d
  · rw [h, Int.emod_self, localStart_zero hN hd, localStart_top hN hd, zero_add, Int.add_emod_left]
  · rw [Int.emod_eq_of_lt (a := r + 1) (b := d) (by omega) (by omega)]

theorem cartSource_inBox {dims rank : Cell} (hd : ∀ a, 0 < dims a) (hr : inBox 0 dims rank) (a : Fin 3)
    (disp : ℤ) : inBox 0 dims (cartSource dims rank a disp) := by
  intro b
  unfold cartSource
  by_cases hb : b = a
  · subst hb
    simp only [Function.update_self]
    exact ⟨Int.emod_nonneg _ (hd b).ne', Int.emod_lt_of_pos _ (hd b)⟩
  · rw [Function.update_of_ne hb]; exact hr b

theorem localExt_cartSource {nx dims nghost rank : Cell} {a b : Fin 3} {disp : ℤ} (hb : b ≠ a) :
    localExt nx dims nghost (cartSource dims rank a disp) b = localExt nx dims nghost rank b := by
  unfold localExt cartSource
  rw [Function.update_of_ne hb]

theorem ghostSync_some {V : Type} {nx dims nghost : Cell} (hN : ∀ a, 0 ≤ nx a) (hd : ∀ a, 0 < dims a)
    (hng : ∀ a, 0 ≤ nghost a) (a : Fin 3) (face : Fin 2) (D : DistView V)
    (hext : ∀ rank, inBox 0 dims rank → D.ext rank = localExt nx dims nghost rank) :
    ∃ D', ghostSync nghost dims a face D = some D' ∧ D'.ext = D.ext ∧
      ∀ rank c, D'.val rank c =
        if recvFirst (nghost a) (D.ext rank a) face ≤ c a ∧
           c a < recvFirst (nghost a) (D.ext rank a) face + nghost a then
          sendBuf nghost a face D (cartSource dims rank a (shiftDisp face))
            (Function.update c a (c a - recvFirst (nghost a) (D.ext rank a) face))
        else D.val rank c := by
  unfold ghostSync
  rw [if_pos]
  · exact ⟨_, rfl, rfl, fun rank c => rfl⟩
  · intro rank hrank
    have hr := ((boxList_isSchedule 0 dims).2 rank).mp hrank
    refine ⟨?_, ?_⟩
    · rw [hext rank hr]
      have := localSize_nonneg (r := rank a) (hN a) (hd a)
      have h2 := hng a
      simp only [localExt, sendFirst, recvFirst]
      by_cases hf : face = 0 <;> simp [hf] <;> omega
    · intro b hb
      rw [hext _ (cartSource_inBox hd hr a _), hext rank hr, localExt_cartSource hb]

/-- One exchange extends the region on which all ranks hold the periodic image of `G`. -/
theorem ghostSync_extends {V : Type} {nx dims nghost : Cell} (hN : ∀ a, 0 ≤ nx a) (hd : ∀ a, 0 < dims a)
    (hng : ∀ a, 0 ≤ nghost a) (a : Fin 3) (face : Fin 2)
    (hsz : ∀ r, 0 ≤ r → r < dims a → nghost a ≤ localSize (nx a) (dims a) r)
    (G : Cell → V) (L R : Fin 3 → Bool) (D D' : DistView V)
    (hext : ∀ rank, inBox 0 dims rank → D.ext rank = localExt nx dims nghost rank)
    (h : HoldsOn nx dims nghost G L R D) (hD : ghostSync nghost dims a face D = some D') :
    HoldsOn nx dims nghost G (if face = 0 then L else Function.update L a true)
      (if face = 0 then Function.update R a true else R) D' := by
  obtain ⟨D'', h1, h2, h3⟩ := ghostSync_some hN hd hng a face D hext
  rw [hD] at h1
  cases h1
  intro rank hrank c hc
  rw [h3]
  have hsrc := cartSource_inBox hd hrank a (shiftDisp face)
  have hra := hrank a
  simp only [Pi.zero_apply] at hra
  have hsz1 := hsz (rank a) hra.1 hra.2
  have hsz2 := hsz (cartSource dims rank a (shiftDisp face) a) (hsrc a).1 (hsrc a).2
  have hnga := hng a
  split
  case isTrue hin =>
    rw [hext rank hrank] at hin
    rw [sendBuf, hext _ hsrc, hext rank hrank]
    simp only [Function.update_self, Function.update_idem]
    rw [h _ hsrc]
    · -- the two global indices agree up to the period
      congr 1
      funext b
      unfold wrap globalOf
      by_cases hb : b = a
      · subst hb
        simp only [Function.update_self, localExt, sendFirst, recvFirst, shiftDisp]
        by_cases hf : face = 0
        · subst hf
          simp only [if_true]
          have := localStart_next_mod (N := nx b) (d := dims b) (r := rank b) (hN b) (hd b) hra.1 hra.2
            (c b - localSize (nx b) (dims b) (rank b) - nghost b)
          simp only [cartSource, Function.update_self, sub_neg_eq_add]
          rw [show localStart (nx b) (dims b) ((rank b + 1) % dims b) +
            (c b - (localSize (nx b) (dims b) (rank b) + 2 * nghost b - nghost b) + nghost b) - nghost b =
            localStart (nx b) (dims b) ((rank b + 1) % dims b) +
              (c b - localSize (nx b) (dims b) (rank b) - nghost b) by ring, this]
          congr 1
          ring
        · simp only [if_neg hf]
          have hs0 : 0 ≤ (rank b - 1) % dims b := Int.emod_nonneg _ (hd b).ne'
          have hs1 : (rank b - 1) % dims b < dims b := Int.emod_lt_of_pos _ (hd b)
          have hs2 : ((rank b - 1) % dims b + 1) % dims b = rank b := by
            rw [Int.emod_add_emod, sub_add_cancel, Int.emod_eq_of_lt hra.1 hra.2]
          have := localStart_next_mod (N := nx b) (d := dims b) (r := (rank b - 1) % dims b) (hN b) (hd b)
            hs0 hs1 (c b - nghost b)
          rw [hs2] at this
          simp only [cartSource, Function.update_self]
          rw [add_sub_assoc (localStart (nx b) (dims b) (rank b)), this]
          congr 1
          ring
      · simp only [Function.update_of_ne hb, cartSource]
    · -- the source cell is inside the valid region of the source rank
      intro b
      have hcb := hc b
      by_cases hb : b = a
      · subst hb
        simp only [Function.update_self]
        simp only [localExt, sendFirst, recvFirst] at hin ⊢
        by_cases hf : face = 0
        · subst hf
          simp only [if_true] at hin ⊢
          constructor
          · split <;> omega
          · split <;> omega
        · simp only [if_neg hf] at hin ⊢
          constructor
          · split <;> omega
          · split <;> omega
      · rw [Function.update_of_ne hb, localExt_cartSource hb]
        by_cases hf : face = 0
        · simpa [hf, Function.update_of_ne hb] using hcb
        · simpa [hf, Function.update_of_ne hb] using hcb
  case isFalse hout =>
    apply h rank hrank
    rw [hext rank hrank] at hout
    intro b
    have hcb := hc b
    by_cases hb : b = a
    · subst hb
      simp only [recvFirst] at hout
      by_cases hf : face = 0
      · subst hf
        simp only [if_true, Function.update_self] at hcb hout
        refine ⟨hcb.1, ?_⟩
        split <;> omega
      · simp only [if_neg hf, Function.update_self, if_true] at hcb hout
        refine ⟨?_, hcb.2⟩
        split <;> omega
    · by_cases hf : face = 0
      · simpa [hf, Function.update_of_ne hb] using hcb
      · simpa [hf, Function.update_of_ne hb] using hcb

/-- Cells that are not ghosts in direction `a` are not written by an exchange in direction `a`. -/
theorem ghostSync_interior {V : Type} {nx dims nghost : Cell} (hN : ∀ a, 0 ≤ nx a) (hd : ∀ a, 0 < dims a)
    (hng : ∀ a, 0 ≤ nghost a) (a : Fin 3) (face : Fin 2) (D D' : DistView V)
    (hext : ∀ rank, inBox 0 dims rank → D.ext rank = localExt nx dims nghost rank)
    (hD : ghostSync nghost dims a face D = some D') (rank : Cell) (c : Cell)
    (hc : nghost a ≤ c a ∧ c a < D.ext rank a - nghost a) : D'.val rank c = D.val rank c := by
  obtain ⟨D'', h1, h2, h3⟩ := ghostSync_some hN hd hng a face D hext
  rw [hD] at h1
  cases h1
  rw [h3, if_neg]
  simp only [recvFirst]
  by_cases hf : face = 0 <;> simp [hf] <;> omega

end Heracles

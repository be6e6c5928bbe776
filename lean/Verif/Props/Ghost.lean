import Verif.Lemmas.Ghost

/-!
# Properties of the halo exchange (C04, C05)
-/

namespace Heracles

variable {V : Type}

theorem nghostOf_nonneg {ndim : ℕ} {ng : ℤ} (h : 0 ≤ ng) (a : Fin 3) : 0 ≤ nghostOf ndim ng a := by
  unfold nghostOf; split <;> omega

/-- The two exchanges of one direction extend the correct region by the ghosts of that direction. -/
private theorem sync_dir {nx dims nghost : Cell} (hN : ∀ a, 0 ≤ nx a) (hd : ∀ a, 0 < dims a)
    (hng : ∀ a, 0 ≤ nghost a) (a : Fin 3)
    (hsz : ∀ r, 0 ≤ r → r < dims a → nghost a ≤ localSize (nx a) (dims a) r)
    (G : Cell → V) (L : Fin 3 → Bool) (D : DistView V)
    (hext : ∀ rank, inBox 0 dims rank → D.ext rank = localExt nx dims nghost rank)
    (h : HoldsOn nx dims nghost G L L D) :
    ∃ D', (do let D ← ghostSync nghost dims a 0 D
              ghostSync nghost dims a 1 D) = some D' ∧ D'.ext = D.ext ∧
      HoldsOn nx dims nghost G (Function.update L a true) (Function.update L a true) D' := by
  obtain ⟨D1, h1, e1, _⟩ := ghostSync_some hN hd hng a 0 D hext
  have hext1 : ∀ rank, inBox 0 dims rank → D1.ext rank = localExt nx dims nghost rank := by
    rw [e1]; exact hext
  obtain ⟨D2, h2, e2, _⟩ := ghostSync_some hN hd hng a 1 D1 hext1
  have g1 := ghostSync_extends hN hd hng a 0 hsz G L L D D1 hext h h1
  have g2 := ghostSync_extends hN hd hng a 1 hsz G _ _ D1 D2 hext1 g1 h2
  refine ⟨D2, ?_, by rw [e2, e1], ?_⟩
  · simp [h1, h2]
  · simpa using g2

/-- C04: after the halo exchange every cell of every rank (edge and corner ghosts included) holds the
periodic extension of the global interior field `G`, whatever the decomposition, provided every rank
owns at least `ng` cells in each active direction. -/
theorem C04_halo_is_periodic_image (ndim : ℕ) (nx dims : Cell) (ng : ℤ) (hng : 0 ≤ ng)
    (hN : ∀ a, 0 ≤ nx a) (hd : ∀ a, 0 < dims a)
    (hsz : ∀ a : Fin 3, a.val < ndim → ∀ r, 0 ≤ r → r < dims a → ng ≤ localSize (nx a) (dims a) r)
    (G : Cell → V) (D : DistView V)
    (hext : ∀ rank, inBox 0 dims rank → D.ext rank = localExt nx dims (nghostOf ndim ng) rank)
    (hint : ∀ rank, inBox 0 dims rank → ∀ c,
      inBox (nghostOf ndim ng) (fun a => D.ext rank a - nghostOf ndim ng a) c →
      D.val rank c = G (globalOf nx dims (nghostOf ndim ng) rank c)) :
    ∃ D', ghostSyncAll ndim (nghostOf ndim ng) dims D = some D' ∧ D'.ext = D.ext ∧
      ∀ rank, inBox 0 dims rank → ∀ c, inExt (D.ext rank) c = true →
        D'.val rank c = G (wrap nx (globalOf nx dims (nghostOf ndim ng) rank c)) := by
  have hngh := nghostOf_nonneg (ndim := ndim) hng
  have hszn : ∀ a : Fin 3, ∀ r, 0 ≤ r → r < dims a → nghostOf ndim ng a ≤ localSize (nx a) (dims a) r := by
    intro a r h0 h1
    unfold nghostOf
    split
    · exact hsz a ‹_› r h0 h1
    · exact localSize_nonneg (hN a) (hd a)
  have h0 : HoldsOn nx dims (nghostOf ndim ng) G (fun _ => false) (fun _ => false) D := by
    intro rank hr c hc
    have hc' : inBox (nghostOf ndim ng) (fun a => D.ext rank a - nghostOf ndim ng a) c := by
      intro a
      have := hc a
      rw [hext rank hr]
      simpa using this
    rw [hint rank hr c hc']
    congr 1
    funext a
    have h1 := hc a
    have h2 := localStart_nonneg (r := rank a) (hN a) (hd a) (hr a).1
    have h3 := localStart_add_size_le (r := rank a) (hN a) (hd a) (hr a).2
    simp only [localExt, Bool.false_eq_true, if_false] at h1
    unfold wrap
    rw [Int.emod_eq_of_lt]
    · simp only [globalOf]; omega
    · simp only [globalOf]; omega
  have key : ∀ (l : List (Fin 3)) (L : Fin 3 → Bool) (D : DistView V),
      (∀ rank, inBox 0 dims rank → D.ext rank = localExt nx dims (nghostOf ndim ng) rank) →
      HoldsOn nx dims (nghostOf ndim ng) G L L D →
      ∃ D', l.foldlM (fun D a => do
          let D ← ghostSync (nghostOf ndim ng) dims a 0 D
          ghostSync (nghostOf ndim ng) dims a 1 D) D = some D' ∧ D'.ext = D.ext ∧
        HoldsOn nx dims (nghostOf ndim ng) G (fun a => L a || decide (a ∈ l)) (fun a => L a || decide (a ∈ l)) D' := by
    intro l
    induction l with
    | nil => intro L D he hD; exact ⟨D, rfl, rfl, by simpa using hD⟩
    | cons a l ih =>
      intro L D he hD
      obtain ⟨D1, g1, g2, g3⟩ := sync_dir hN hd hngh a (hszn a) G L D he hD
      obtain ⟨D2, k1, k2, k3⟩ := ih _ D1 (by rw [g2]; exact he) g3
      refine ⟨D2, ?_, by rw [k2, g2], ?_⟩
      · rw [List.foldlM_cons, g1]; exact k1
      · have : (fun b => Function.update L a true b || decide (b ∈ l)) = fun b => L b || decide (b ∈ a :: l) := by
          funext b
          by_cases hb : b = a
          · subst hb; simp
          · simp [hb]
        rw [this] at k3
        exact k3
  obtain ⟨D', h1, h2, h3⟩ := key ((List.finRange 3).filter (fun a => a.val < ndim)) _ D hext h0
  refine ⟨D', h1, h2, fun rank hr c hc => h3 rank hr c ?_⟩
  rw [inExt_iff, hext rank hr] at hc
  intro a
  have := hc a
  by_cases ha : a.val < ndim
  · simpa [ha] using this
  · have hz : nghostOf ndim ng a = 0 := by simp [nghostOf, ha]
    simp only [List.mem_filter, List.mem_finRange, ha, hz]
    simpa using this

/-- C04, decomposition independence: two runs with different process grids but the same global
interior field agree, after the exchange, on every pair of local cells that image the same global cell. -/
theorem C04_decomposition_independent (ndim : ℕ) (nx dims dims' : Cell) (ng : ℤ)
    (hng : 0 ≤ ng) (hN : ∀ a, 0 ≤ nx a) (hd : ∀ a, 0 < dims a) (hd' : ∀ a, 0 < dims' a)
    (hsz : ∀ a : Fin 3, a.val < ndim → ∀ r, 0 ≤ r → r < dims a → ng ≤ localSize (nx a) (dims a) r)
    (hsz' : ∀ a : Fin 3, a.val < ndim → ∀ r, 0 ≤ r → r < dims' a → ng ≤ localSize (nx a) (dims' a) r)
    (G : Cell → V) (D D' E E' : DistView V)
    (hext : ∀ rank, inBox 0 dims rank → D.ext rank = localExt nx dims (nghostOf ndim ng) rank)
    (hext' : ∀ rank, inBox 0 dims' rank → D'.ext rank = localExt nx dims' (nghostOf ndim ng) rank)
    (hint : ∀ rank, inBox 0 dims rank → ∀ c,
      inBox (nghostOf ndim ng) (fun a => D.ext rank a - nghostOf ndim ng a) c →
      D.val rank c = G (globalOf nx dims (nghostOf ndim ng) rank c))
    (hint' : ∀ rank, inBox 0 dims' rank → ∀ c,
      inBox (nghostOf ndim ng) (fun a => D'.ext rank a - nghostOf ndim ng a) c →
      D'.val rank c = G (globalOf nx dims' (nghostOf ndim ng) rank c))
    (hE : ghostSyncAll ndim (nghostOf ndim ng) dims D = some E)
    (hE' : ghostSyncAll ndim (nghostOf ndim ng) dims' D' = some E')
    (rank rank' c c' : Cell) (hr : inBox 0 dims rank) (hr' : inBox 0 dims' rank')
    (hc : inExt (D.ext rank) c = true) (hc' : inExt (D'.ext rank') c' = true)
    (hsame : wrap nx (globalOf nx dims (nghostOf ndim ng) rank c)
      = wrap nx (globalOf nx dims' (nghostOf ndim ng) rank' c')) :
    E.val rank c = E'.val rank' c' := by
  obtain ⟨F, h1, _, h3⟩ := C04_halo_is_periodic_image ndim nx dims ng hng hN hd hsz G D hext hint
  obtain ⟨F', h1', _, h3'⟩ := C04_halo_is_periodic_image ndim nx dims' ng hng hN hd' hsz' G D' hext' hint'
  rw [hE] at h1; cases h1
  rw [hE'] at h1'; cases h1'
  rw [h3 rank hr c hc, h3' rank' hr' c' hc', hsame]

/-- A distributed array filled from a global field `G` in the interior, `junk` in the ghosts. -/
def scatter (nx dims nghost : Cell) (G : Cell → V) (junk : V) : DistView V where
  ext := localExt nx dims nghost
  val rank c := if inBox nghost (fun a => localExt nx dims nghost rank a - nghost a) c then
    G (globalOf nx dims nghost rank c) else junk

/-- The hypotheses of C04 are met by a 2D field split on 2 x 3 ranks with two ghosts. -/
example : (∀ a : Fin 3, a.val < 2 → ∀ r, 0 ≤ r → r < (![2, 3, 1] : Cell) a →
      (2 : ℤ) ≤ localSize ((![5, 7, 1] : Cell) a) ((![2, 3, 1] : Cell) a) r) ∧
    ∃ D', ghostSyncAll 2 (nghostOf 2 2) ![2, 3, 1]
      (scatter ![5, 7, 1] ![2, 3, 1] (nghostOf 2 2) (fun c => c 0 + 100 * c 1) (-1)) = some D' ∧
      D'.val ![0, 0, 0] ![0, 0, 0] = 3 + 100 * 5 := by
  have hsz : ∀ a : Fin 3, a.val < 2 → ∀ r, 0 ≤ r → r < (![2, 3, 1] : Cell) a →
      (2 : ℤ) ≤ localSize ((![5, 7, 1] : Cell) a) ((![2, 3, 1] : Cell) a) r := by
    intro a ha r h0 h1
    have hN : (0 : ℤ) ≤ (![5, 7, 1] : Cell) a := (by decide : ∀ a, (0 : ℤ) ≤ (![5, 7, 1] : Cell) a) a
    have hd : (0 : ℤ) < (![2, 3, 1] : Cell) a := (by decide : ∀ a, (0 : ℤ) < (![2, 3, 1] : Cell) a) a
    rw [localSize_eq hN hd]
    have : (2 : ℤ) ≤ (![5, 7, 1] : Cell) a / (![2, 3, 1] : Cell) a :=
      (by decide : ∀ a : Fin 3, a.val < 2 → (2 : ℤ) ≤ (![5, 7, 1] : Cell) a / (![2, 3, 1] : Cell) a) a ha
    split <;> omega
  refine ⟨hsz, ?_⟩
  obtain ⟨D', h1, h2, h3⟩ := C04_halo_is_periodic_image 2 ![5, 7, 1] ![2, 3, 1] 2 (by norm_num)
    (by decide) (by decide) hsz (fun c => c 0 + 100 * c 1)
    (scatter ![5, 7, 1] ![2, 3, 1] (nghostOf 2 2) (fun c => c 0 + 100 * c 1) (-1)) (fun _ _ => rfl)
    (fun rank _ c hc => by simp only [scatter] at hc ⊢; rw [if_pos hc])
  refine ⟨D', h1, ?_⟩
  rw [h3 _ (by decide) _ (by decide)]
  decide

/-! ## C05 -/

/-- C05: a halo exchange is always within bounds (any non-negative local sizes, even smaller than the
ghost width), keeps the extents and leaves every interior cell of every rank unchanged. -/
theorem C05_interior_unchanged (ndim : ℕ) (nx dims : Cell) (ng : ℤ) (hng : 0 ≤ ng)
    (hN : ∀ a, 0 ≤ nx a) (hd : ∀ a, 0 < dims a) (D : DistView V)
    (hext : ∀ rank, inBox 0 dims rank → D.ext rank = localExt nx dims (nghostOf ndim ng) rank) :
    ∃ D', ghostSyncAll ndim (nghostOf ndim ng) dims D = some D' ∧ D'.ext = D.ext ∧
      ∀ rank c, inBox (nghostOf ndim ng) (fun a => D.ext rank a - nghostOf ndim ng a) c →
        D'.val rank c = D.val rank c := by
  have hngh := nghostOf_nonneg (ndim := ndim) hng
  have key : ∀ (l : List (Fin 3)) (D : DistView V),
      (∀ rank, inBox 0 dims rank → D.ext rank = localExt nx dims (nghostOf ndim ng) rank) →
      ∃ D', l.foldlM (fun D a => do
          let D ← ghostSync (nghostOf ndim ng) dims a 0 D
          ghostSync (nghostOf ndim ng) dims a 1 D) D = some D' ∧ D'.ext = D.ext ∧
        ∀ rank c, inBox (nghostOf ndim ng) (fun a => D.ext rank a - nghostOf ndim ng a) c →
          D'.val rank c = D.val rank c := by
    intro l
    induction l with
    | nil => intro D he; exact ⟨D, rfl, rfl, fun _ _ _ => rfl⟩
    | cons a l ih =>
      intro D he
      obtain ⟨D1, h1, e1, _⟩ := ghostSync_some hN hd hngh a 0 D he
      have he1 : ∀ rank, inBox 0 dims rank → D1.ext rank = localExt nx dims (nghostOf ndim ng) rank := by
        rw [e1]; exact he
      obtain ⟨D2, h2, e2, _⟩ := ghostSync_some hN hd hngh a 1 D1 he1
      have he2 : ∀ rank, inBox 0 dims rank → D2.ext rank = localExt nx dims (nghostOf ndim ng) rank := by
        rw [e2]; exact he1
      obtain ⟨D3, h3, e3, h4⟩ := ih D2 he2
      refine ⟨D3, ?_, by rw [e3, e2, e1], fun rank c hc => ?_⟩
      · rw [List.foldlM_cons, h1]
        simp only [Option.bind_eq_bind, Option.bind_some, h2]
        exact h3
      · rw [h4 rank c (by rw [e2, e1]; exact hc),
          ghostSync_interior hN hd hngh a 1 D1 D2 he1 h2 rank c (by rw [e1]; exact hc a),
          ghostSync_interior hN hd hngh a 0 D D1 he h1 rank c (hc a)]
  exact key _ D hext

/-- C05, why the size condition of C04 is needed: with 2 ghosts and 1 cell per rank (2 cells on 2
ranks) the exchange sends cells that are themselves ghosts, and rank 0 ends up with stale data (-1)
in its outer right ghost instead of the periodic image. -/
theorem C05_thin_rank_counterexample :
    (ghostSyncAll 1 (nghostOf 1 2) ![2, 1, 1]
      (scatter ![2, 1, 1] ![2, 1, 1] (nghostOf 1 2) (fun c => c 0) (-1))).map
        (fun D => D.val ![0, 0, 0] ![4, 0, 0]) = some (-1) ∧
    wrap ![2, 1, 1] (globalOf ![2, 1, 1] ![2, 1, 1] (nghostOf 1 2) ![0, 0, 0] ![4, 0, 0]) 0 = 0 := by
  decide

end Heracles

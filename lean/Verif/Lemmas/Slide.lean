import Verif.Lemmas.Translate
import Verif.Lemmas.ClosedBox
import Verif.Spec.Slide

/-!
# Translations along one periodic axis

The other axes have any mesh and any of the built-in conditions.
-/

namespace Heracles

variable {d n : ℕ} {p : ProgParams d n} {nx : Cell} {ng : ℤ} {X : Fin 3 → ℤ → ℝ} {order order' : List ℕ} {b : Fin d} {s : ℤ}

section Geometry
variable {σ : Cell} (hX : ∀ a i, X a (i + σ a + 1) - X a (i + σ a) = X a (i + 1) - X a i)
include hX

theorem dx_slid (tr : Trig ℝ) (Gr Gr' : Cell → Fin d → ℝ) (a : Fin 3) (i : ℤ) : (globGrid tr .cartesian X Gr').dx a i = (globGrid tr .cartesian X Gr).dx a (i + σ a) := (hX a i).symm

theorem ds_slid (tr : Trig ℝ) (Gr Gr' : Cell → Fin d → ℝ) (c : Cell) : (globGrid tr .cartesian X Gr').ds c = (globGrid tr .cartesian X Gr).ds (c + σ) := by
  simp only [globGrid, dsFun, Pi.add_apply, hX]

theorem dv_slid (tr : Trig ℝ) (Gr Gr' : Cell → Fin d → ℝ) (c : Cell) : (globGrid tr .cartesian X Gr').dv c = (globGrid tr .cartesian X Gr).dv (c + σ) := by
  simp only [globGrid, dvFun, Pi.add_apply, hX]

theorem dirGeo_slid (tr : Trig ℝ) (Gr Gr' : Cell → Fin d → ℝ) (a : Fin d) (c : Cell) :
    (globGrid tr .cartesian X Gr').dirGeo .cartesian a c = (globGrid tr .cartesian X Gr).dirGeo .cartesian a (c + σ) := by
  unfold PGrid.dirGeo
  simp only [ds_slid hX tr Gr Gr' c, dv_slid hX tr Gr Gr' c, ds_slid hX tr Gr Gr' (nb c (ax a) 1), nb_add]

/-- The advance of a cell is that of the displaced cell if the data within two cells are those displaced. -/
theorem progVal_slid (hd3 : d ≤ 3) (hcart : p.hydro.geom = .cartesian) (t dt : ℝ) {Gr Gr' : Cell → Fin d → ℝ} {U U' : Cell → Fields d n ℝ} {up up' : Cell → VelPres d ℝ} {c : Cell}
    (h : ∀ C : Cell, (∀ a, c a - nghostOf d 2 a ≤ C a ∧ C a ≤ c a + nghostOf d 2 a) → Gr' C = Gr (C + σ) ∧ U' C = U (C + σ) ∧ up' C = up (C + σ)) :
    progVal p (globGrid p.hydro.tr p.hydro.geom X Gr') t dt U' up' c = progVal p (globGrid p.hydro.tr p.hydro.geom X Gr) t dt U up (c + σ) := by
  rw [hcart]
  have hg2 : ∀ a, 0 ≤ nghostOf d 2 a := fun a => nghostOf_nonneg (by norm_num) a
  have hga : ∀ a : Fin d, nghostOf d 2 (ax a) = 2 := fun a => by simp [nghostOf, ax_val hd3]
  have near1 : ∀ (a : Fin d) (t : ℤ), -1 ≤ t → t ≤ 1 → ∀ x, c x - nghostOf d 2 x ≤ nb c (ax a) t x ∧ nb c (ax a) t x ≤ c x + nghostOf d 2 x := fun a t h1 h2 x => by
    have := hg2 x
    by_cases hx : x = ax a
    · subst hx
      rw [nb_self, hga]
      omega
    · rw [nb_ne _ hx]
      omega
  have near2 : ∀ (a e : Fin d) (t r : ℤ), -1 ≤ t → t ≤ 1 → -1 ≤ r → r ≤ 1 → ∀ x, c x - nghostOf d 2 x ≤ nb (nb c (ax a) t) (ax e) r x ∧ nb (nb c (ax a) t) (ax e) r x ≤ c x + nghostOf d 2 x := fun a e t r h1 h2 h3 h4 x => by
    have := hg2 x
    by_cases hx : x = ax e
    · subst hx
      rw [nb_self, hga]
      by_cases hy : ax e = ax a
      · rw [hy, nb_self]
        omega
      · rw [nb_ne _ hy]
        omega
    · rw [nb_ne _ hx]
      exact near1 a t h1 h2 x
  have near0 : ∀ x, c x - nghostOf d 2 x ≤ c x ∧ c x ≤ c x + nghostOf d 2 x := fun x => by
    have := hg2 x
    omega
  have hrec : ∀ e : Cell, (∀ x, c x - nghostOf d 2 x ≤ e x ∧ e x ≤ c x + nghostOf d 2 x) →
      (∀ (a : Fin d) (t : ℤ), -1 ≤ t → t ≤ 1 → ∀ x, c x - nghostOf d 2 x ≤ nb e (ax a) t x ∧ nb e (ax a) t x ≤ c x + nghostOf d 2 x) →
      recVal p.hydro.lim p.hydro.eos p.hydro.tr .cartesian (globGrid p.hydro.tr .cartesian X Gr') (dt / 2) U' up' e =
        recVal p.hydro.lim p.hydro.eos p.hydro.tr .cartesian (globGrid p.hydro.tr .cartesian X Gr) (dt / 2) U up (e + σ) := fun e h0 h1 =>
    recVal_shift _ _ _ _ (dt / 2) (fun a t _ _ => by rw [dx_slid hX _ Gr Gr']; congr 1; ring) (fun a t h2 h3 => (h _ (h1 a t h2 h3)).2.1)
      (fun a t h2 h3 => (h _ (h1 a t h2 h3)).2.2) (fun a => dirGeo_slid hX _ _ _ a _) (h e h0).1 (dv_slid hX _ _ _ _)
  have r0 := hrec c near0 near1
  have r1 : ∀ (a : Fin d) (t : ℤ), -1 ≤ t → t ≤ 1 → _ := fun a t h1 h2 => hrec (nb c (ax a) t) (near1 a t h1 h2) fun e r h3 h4 => near2 a e t r h1 h2 h3 h4
  have hs : stepVal p.hydro.lim p.hydro.sol p.hydro.eos p.hydro.tr .cartesian (globGrid p.hydro.tr .cartesian X Gr') dt U' up' c =
      stepVal p.hydro.lim p.hydro.sol p.hydro.eos p.hydro.tr .cartesian (globGrid p.hydro.tr .cartesian X Gr) dt U up (c + σ) := by
    unfold stepVal
    rw [(h c near0).2.1]
    exact godVal_shift _ _ _ _ dt _ r0 (fun a t h1 h2 => r1 a t h1 h2) (fun a => dirGeo_slid hX _ _ _ a _) (h c near0).1 (dv_slid hX _ _ _ _)
  unfold progVal
  rw [hcart, hs]
  cases p.fix with
  | none => rfl
  | some eps =>
    simp only
    rw [fixPure_shift hd3 p.hydro.eos dt eps _ (fun a t h1 h2 => (h _ (near1 a t h1 h2)).2.1) (h c near0).2.1 r0 (fun a t h1 h2 => r1 a t h1 h2) (ds_slid hX _ _ _ _)
      (fun a => ds_slid hX _ _ _ _) (dv_slid hX _ _ _ _)]

theorem rate_slid (eos : EoS ℝ) (tr : Trig ℝ) (nghost : Cell) {W W' : Cell → Fields d n ℝ} {C' : Cell} (hW : W' C' = W (C' + σ)) :
    (globRank eos nx nghost X W').rate eos tr .cartesian C' = (globRank eos nx nghost X W).rate eos tr .cartesian (C' + σ) := by
  have e : primGlob eos W' C' = primGlob eos W (C' + σ) := by unfold primGlob; rw [hW]
  unfold RankData.rate
  refine Finset.sum_congr rfl fun a _ => ?_
  simp only [globRank, cellLength, reduceCtorEq, if_false, Pi.add_apply, hX, e, hW]

end Geometry

/-- Displaced data, ghosts included. -/
def SlidData (nx : Cell) (ng : ℤ) (b : Fin d) (s : ℤ) (W W' : Cell → Fields d n ℝ) : Prop :=
  ∀ C C', inExt (globExt nx (nghostOf d ng)) C = true → inExt (globExt nx (nghostOf d ng)) C' = true → Slid (ax b) (nx (ax b)) s C C' → W' C' = W C

/-- What fills the ghosts of displaced data fills the displaced ghosts. -/
theorem bcGlob_slid (hd3 : d ≤ 3) (hng : 0 ≤ ng) (hpos : ∀ a, 0 < nx a) (hsz : ∀ a : Fin d, ng ≤ nx (ax a)) (ho : ∀ id ∈ order, id < 2 * d)
    {bcs : Fin d → Fin 2 → BcKind} (hb : ∀ f, bcs b f = .periodic) {G G' : Cell → Fields d n ℝ}
    (hG : ∀ g g', inBox 0 nx g → inBox 0 nx g' → Slid (ax b) (nx (ax b)) s g g' → G' g' = G g) :
    SlidData nx ng b s (bcGlob bcs nx (nghostOf d ng) order G) (bcGlob bcs nx (nghostOf d ng) order G') := by
  have hnga : ∀ a : Fin d, nghostOf d ng (ax a) = ng := fun a => by simp [nghostOf, ax_val hd3]
  have he : ∀ a : Fin d, globExt nx (nghostOf d ng) (ax a) = nx (ax a) + 2 * ng := fun a => by rw [globExt, hnga]
  have main : ∀ l : List ℕ, (∀ id ∈ l, id < 2 * d) → ∀ V V' : Cell → Fields d n ℝ, SlidData nx ng b s V V' →
      SlidData nx ng b s (l.foldl (bcPure bcs (fun _ _ => true) (globExt nx (nghostOf d ng)) (nghostOf d ng)) V)
        (l.foldl (bcPure bcs (fun _ _ => true) (globExt nx (nghostOf d ng)) (nghostOf d ng)) V') := by
    intro l
    induction l with
    | nil => exact fun _ _ _ h => h
    | cons id l ih =>
      intro hl V V' hV
      rw [List.foldl_cons, List.foldl_cons]
      refine ih (fun i hi => hl i (by simp [hi])) _ _ fun C C' h1 h2 hS => ?_
      obtain ⟨a, f, rfl⟩ := faceId_surj (hl id (by simp))
      rw [bcPure_faceId, bcPure_faceId, if_pos rfl, if_pos rfl, hnga]
      by_cases hab : a = b
      · subst hab
        have hid : ∀ (V : Cell → Fields d n ℝ) C, condPure (bcs a f) (globExt nx (nghostOf d ng)) ng a f V C = V C := fun V C => by
          rw [hb]
          unfold condPure
          split <;> rfl
        rw [hid, hid]
        exact hV C C' h1 h2 hS
      · have hax : ax a ≠ ax b := fun h => hab (ax_injective hd3 h)
        have hC := hS.2 (ax a) hax
        have hL : InGhostLayer (globExt nx (nghostOf d ng)) ng (ax a) f C' ↔ InGhostLayer (globExt nx (nghostOf d ng)) ng (ax a) f C := by
          unfold InGhostLayer
          rw [hC]
        rw [condPure_eq, condPure_eq]
        by_cases hL' : InGhostLayer (globExt nx (nghostOf d ng)) ng (ax a) f C
        · have p1 := hpos (ax a)
          have p2 := hsz a
          have s1 := (condSrc_inside (kind := bcs a f) hng (by rw [he]; omega) (by rw [he]; omega) h1 hL').1
          have s2 := (condSrc_inside (kind := bcs a f) hng (by rw [he]; omega) (by rw [he]; omega) h2 (hL.2 hL')).1
          rw [if_pos ⟨h2, hL.2 hL'⟩, if_pos ⟨h1, hL'⟩, hV _ _ s1 s2]
          refine ⟨?_, fun x hx => ?_⟩
          · rw [condSrc_other hax.symm, condSrc_other hax.symm]
            exact hS.1
          · by_cases hxa : x = ax a
            · subst hxa
              cases bcs a f <;> simp [condSrc, nearest, mirror, interiorLayer, ghostDepth, hC]
            · rw [condSrc_other hxa, condSrc_other hxa]
              exact hS.2 x hx
        · rw [if_neg (fun h => hL' (hL.1 h.2)), if_neg (fun h => hL' h.2)]
          exact hV C C' h1 h2 hS
  refine main order ho _ _ fun C C' _ _ hS => hG _ _ (wrap_mem hpos _) (wrap_mem hpos _) ⟨?_, fun x hx => ?_⟩
  · simp only [wrap, Pi.sub_apply]
    rw [Int.emod_emod_of_dvd _ dvd_rfl, Int.sub_emod, hS.1, ← Int.sub_emod, ← Int.emod_add_emod _ (nx (ax b)), Int.emod_add_emod, Int.emod_add_emod]
    congr 1
    ring
  · simp only [wrap, Pi.sub_apply, hS.2 x hx]

/-- A displaced cell with the same first coordinates, in the domain. -/
theorem slid_exists {b : Fin 3} {N : ℤ} (hN : 0 < N) (s m : ℤ) (C : Cell) : (∃ C', Slid b N s C C' ∧ m ≤ C' b ∧ C' b < m + N ∧ ∀ a, a ≠ b → C' a = C a) ∧
    ∃ C', Slid b N s C' C ∧ m ≤ C' b ∧ C' b < m + N ∧ ∀ a, a ≠ b → C' a = C a := by
  have key : ∀ v : ℤ, ∃ w, w % N = v % N ∧ m ≤ w ∧ w < m + N := fun v => by
    have h1 := Int.emod_nonneg (v - m) hN.ne'
    have h2 := Int.emod_lt_of_pos (v - m) hN
    refine ⟨m + (v - m) % N, ?_, by omega, by omega⟩
    rw [Int.add_emod_emod]
    congr 1
    ring
  obtain ⟨w, h1, h2, h3⟩ := key (C b - s)
  obtain ⟨v, g1, g2, g3⟩ := key (C b + s)
  refine ⟨⟨Function.update C b w, ⟨?_, fun a ha => ?_⟩, ?_, ?_, fun a ha => ?_⟩, ⟨Function.update C b v, ⟨?_, fun a ha => ?_⟩, ?_, ?_, fun a ha => ?_⟩⟩
  · rw [Function.update_self, ← Int.emod_add_emod, h1, Int.emod_add_emod, sub_add_cancel]
  · rw [Function.update_of_ne ha]
  · rwa [Function.update_self]
  · rwa [Function.update_self]
  · rw [Function.update_of_ne ha]
  · rw [Function.update_self, g1]
  · rw [Function.update_of_ne ha]
  · rwa [Function.update_self]
  · rwa [Function.update_self]
  · rw [Function.update_of_ne ha]

/-- The run of the global array does not single out a place along a periodic axis with a uniform Cartesian mesh. -/
theorem globHydro_slid (hd3 : d ≤ 3) (hpos : ∀ a, 0 < nx a) (hng : 2 ≤ ng) (hsz : ∀ a : Fin d, ng ≤ nx (ax a)) (hcart : p.hydro.geom = .cartesian) (hb : ∀ f, p.hydro.bcs b f = .periodic)
    (ho : ∀ id ∈ order, id < 2 * d) {h : ℝ} (hX : ∀ i, X (ax b) (i + 1) - X (ax b) i = h)
    {Gr : (Cell → Fields d n ℝ) → Cell → Fin d → ℝ} (hG : ∀ W W' C C', (∀ a, a ≠ ax b → C a = C' a) → Gr W C = Gr W' C') (s : ℤ) :
    (globHydro p nx ng X Gr order).Related 1 (SlidData nx ng b s) (globHydro p nx ng X Gr order) := by
  have hnb : nghostOf d ng (ax b) = ng := by simp [nghostOf, ax_val hd3]
  have hN := hpos (ax b)
  have hshift : ∀ C C' : Cell, Slid (ax b) (nx (ax b)) s C C' → ∀ a i, X a (i + (C - C') a + 1) - X a (i + (C - C') a) = X a (i + 1) - X a i := fun C C' hS a i => by
    by_cases ha : a = ax b
    · subst ha
      rw [hX, hX]
    · rw [Pi.sub_apply, hS.2 a ha, sub_self, add_zero]
  have hext : ∀ C C' : Cell, inExt (globExt nx (nghostOf d ng)) C = true → ng ≤ C' (ax b) → C' (ax b) < ng + nx (ax b) → (∀ a, a ≠ ax b → C' a = C a) →
      inExt (globExt nx (nghostOf d ng)) C' = true := fun C C' hC h1 h2 h3 => by
    rw [inExt_iff] at hC ⊢
    intro a
    by_cases ha : a = ax b
    · subst ha
      simp only [globExt, hnb]
      omega
    · rw [h3 a ha]
      exact hC a
  refine ⟨?_, ?_, ?_⟩
  · intro W W' hW
    obtain ⟨m, hr⟩ := isRate_exists p.hydro.lo p.hydro.eos p.hydro.tr p.hydro.geom nx (nghostOf d ng) X W
    rw [globHydro_timeStep hr, one_mul]
    refine globHydro_timeStep ?_
    rw [hcart] at hr ⊢
    have hrate : ∀ C C', inExt (globExt nx (nghostOf d ng)) C = true → inExt (globExt nx (nghostOf d ng)) C' = true → Slid (ax b) (nx (ax b)) s C C' →
        (globRank p.hydro.eos nx (nghostOf d ng) X W').rate p.hydro.eos p.hydro.tr .cartesian C' =
          (globRank p.hydro.eos nx (nghostOf d ng) X W).rate p.hydro.eos p.hydro.tr .cartesian C := fun C C' h1 h2 hS => by
      have := rate_slid (nx := nx) (σ := C - C') (hshift C C' hS) p.hydro.eos p.hydro.tr (nghostOf d ng) (W := W) (W' := W') (C' := C') (by rw [add_sub_cancel]; exact hW C C' h1 h2 hS)
      rwa [add_sub_cancel] at this
    refine ⟨hr.ge, fun C hC => ?_, ?_⟩
    · obtain ⟨-, C', h1, h2, h3, h4⟩ := slid_exists (b := ax b) hN s ng C
      have h5 := hext C C' hC h2 h3 h4
      rw [hrate C' C h5 hC h1]
      exact hr.le C' h5
    · rcases hr.mem with e | ⟨C, hC, e⟩
      · exact Or.inl e
      · obtain ⟨⟨C', h1, h2, h3, h4⟩, -⟩ := slid_exists (b := ax b) hN s ng C
        have h5 := hext C C' hC h2 h3 h4
        exact Or.inr ⟨C', h5, by rw [e, hrate C C' hC h5 h1]⟩
  · intro W W' hW
    have hbox : ∀ g g' : Cell, inBox 0 nx g → 0 ≤ g' (ax b) → g' (ax b) < 0 + nx (ax b) → (∀ a, a ≠ ax b → g' a = g a) → inBox 0 nx g' := fun g g' hg h1 h2 h3 a => by
      by_cases ha : a = ax b
      · subst ha
        exact ⟨h1, by omega⟩
      · rw [h3 a ha]
        exact hg a
    have hval : ∀ g g', inBox 0 nx g → inBox 0 nx g' → Slid (ax b) (nx (ax b)) s g g' → W' (g' + nghostOf d ng) = W (g + nghostOf d ng) := fun g g' hg hg' hS =>
      hW _ _ (inExt_of_box ng (by omega) hg) (inExt_of_box ng (by omega) hg') ⟨by
        simp only [Pi.add_apply]
        rw [add_right_comm, Int.add_emod, hS.1, ← Int.add_emod], fun a ha => by simp only [Pi.add_apply, hS.2 a ha]⟩
    rw [Bool.eq_iff_iff, globHydro_bad, globHydro_bad]
    constructor
    · rintro ⟨g, hg, hi⟩
      obtain ⟨-, g', h1, h2, h3, h4⟩ := slid_exists (b := ax b) hN s 0 g
      have h5 := hbox g g' hg h2 h3 h4
      exact ⟨g', h5, by rwa [← hval g' g h5 hg h1]⟩
    · rintro ⟨g, hg, hi⟩
      obtain ⟨⟨g', h1, h2, h3, h4⟩, -⟩ := slid_exists (b := ax b) hN s 0 g
      have h5 := hbox g g' hg h2 h3 h4
      exact ⟨g', h5, by rwa [hval g g' hg h5 h1]⟩
  · intro W W' hW t dt
    rw [one_mul, one_mul]
    refine bcGlob_slid hd3 (by omega) hpos hsz ho hb
      (G := fun g => progVal p (globGrid p.hydro.tr p.hydro.geom X (Gr W)) t dt W (primGlob p.hydro.eos W) (g + nghostOf d ng))
      (G' := fun g => progVal p (globGrid p.hydro.tr p.hydro.geom X (Gr W')) t dt W' (primGlob p.hydro.eos W') (g + nghostOf d ng)) fun g g' hg hg' hS => ?_
    beta_reduce
    have e : g + nghostOf d ng = g' + nghostOf d ng + (g - g') := by
      abel
    rw [e]
    refine progVal_slid (hshift g g' hS) hd3 hcart t dt fun C hC => ?_
    have hn : ∀ a, nghostOf d 2 a ≤ nghostOf d ng a := fun a => by
      unfold nghostOf
      split <;> omega
    have hCe : inExt (globExt nx (nghostOf d ng)) C = true := inExt_iff.2 fun a => by
      have h1 := hC a
      have h2 := hg' a
      have h3 := hn a
      simp only [Pi.add_apply, Pi.zero_apply] at h1 h2
      simp only [globExt]
      omega
    have hCe' : inExt (globExt nx (nghostOf d ng)) (C + (g - g')) = true := inExt_iff.2 fun a => by
      have h1 := hC a
      have h2 := hg a
      have h3 := hn a
      simp only [Pi.add_apply, Pi.zero_apply, Pi.sub_apply] at h1 h2 ⊢
      simp only [globExt]
      omega
    have hSC : Slid (ax b) (nx (ax b)) s (C + (g - g')) C := ⟨by
      simp only [Pi.add_apply, Pi.sub_apply]
      rw [show C (ax b) + (g (ax b) - g' (ax b)) = g (ax b) + (C (ax b) - g' (ax b)) by ring, Int.add_emod, hS.1, ← Int.add_emod]
      congr 1
      ring, fun a ha => by simp only [Pi.add_apply, Pi.sub_apply, hS.2 a ha, sub_self, add_zero]⟩
    have := hW _ _ hCe' hCe hSC
    exact ⟨hG _ _ _ _ fun a ha => (hSC.2 a ha).symm, this, by unfold primGlob; rw [this]⟩

end Heracles

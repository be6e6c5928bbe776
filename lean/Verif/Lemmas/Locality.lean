import Mathlib.Tactic.Linarith
import Verif.Spec.Locality
import Verif.Props.KernelRun

/-!
# What a cell reads, directly and over several iterations
-/

namespace Heracles

variable {d n : ℕ} {F : Type}

section NearLemmas
variable {per : Fin 3 → Prop} {nx g h h' : Cell} {r r' : ℕ}

theorem CloseBy.refl (per : Fin 3 → Prop) (nx g : Cell) (r : ℕ) : CloseBy per nx r g g :=
  ⟨0, fun _ _ => rfl, by simp⟩

theorem CloseBy.mono (hr : r ≤ r') (h1 : CloseBy per nx r g h) : CloseBy per nx r' g h := by
  obtain ⟨t, e1, e2⟩ := h1
  exact ⟨t, e1, e2.trans (by exact_mod_cast hr)⟩

theorem CloseBy.nb (h1 : CloseBy per nx r g h) (a : Fin 3) {t : ℤ} (ht : |t| ≤ 1) : CloseBy per nx (r + 1) g (nb h a t) := by
  obtain ⟨k, e1, e2⟩ := h1
  refine ⟨k, e1, ?_⟩
  have : ∀ b, |g b + k b * nx b - Heracles.nb h a t b| ≤ |g b + k b * nx b - h b| + if b = a then 1 else 0 := by
    intro b
    by_cases hb : b = a
    · subst hb
      rw [nb_self, if_pos rfl]
      have := abs_sub (g b + k b * nx b - h b) t
      rw [show g b + k b * nx b - (h b + t) = g b + k b * nx b - h b - t by ring]
      omega
    · rw [nb_ne _ hb, if_neg hb, add_zero]
  refine (Finset.sum_le_sum fun b _ => this b).trans ?_
  rw [Finset.sum_add_distrib, Finset.sum_ite_eq' Finset.univ a]
  push_cast
  simp
  omega

/-- A cell that is not farther along any direction. -/
theorem CloseBy.closer (hc : ∀ (k : Cell), (∀ a, ¬ per a → k a = 0) → ∀ a, |g a + k a * nx a - h' a| ≤ |g a + k a * nx a - h a|)
    (h1 : CloseBy per nx r g h) : CloseBy per nx r g h' := by
  obtain ⟨k, e1, e2⟩ := h1
  exact ⟨k, e1, (Finset.sum_le_sum fun b _ => hc k e1 b).trans e2⟩

theorem CloseBy.wrapped (hin : ∀ a, ¬ per a → 0 ≤ h a ∧ h a < nx a) (h1 : CloseBy per nx r g h) : CloseBy per nx r g (wrap nx h) := by
  obtain ⟨k, e1, e2⟩ := h1
  refine ⟨fun a => k a - h a / nx a, fun a ha => ?_, le_trans (le_of_eq ?_) e2⟩
  · show k a - h a / nx a = 0
    rw [e1 a ha, Int.ediv_eq_zero_of_lt (hin a ha).1 (hin a ha).2, sub_zero]
  · refine Finset.sum_congr rfl fun a _ => ?_
    congr 1
    have := Int.emod_add_mul_ediv (h a) (nx a)
    simp only [wrap]
    linear_combination -this

end NearLemmas

section Bc
variable [Neg F] {bcs : Fin d → Fin 2 → BcKind} {nx : Cell} {ng : ℤ} {order : List ℕ}

/-- The source of a ghost is not farther away than the ghost. -/
theorem condSrc_near (hd3 : d ≤ 3) {a : Fin d} {f : Fin 2} {g C : Cell} {r : ℕ} (hg : inBox 0 nx g)
    (hper : ∀ a, bcs a 0 = .periodic ↔ bcs a 1 = .periodic) (hnp : bcs a f ≠ .periodic) (hnu : bcs a f ≠ .userDefined)
    (hl : InGhostLayer (globExt nx (nghostOf d ng)) ng (ax a) f C)
    (h1 : CloseBy (periodicAxes bcs) nx r g (C - nghostOf d ng)) :
    CloseBy (periodicAxes bcs) nx r g (condSrc (bcs a f) (globExt nx (nghostOf d ng)) ng (ax a) f C - nghostOf d ng) := by
  refine h1.closer fun k hk b => ?_
  by_cases hb : b = ax a
  · subst hb
    have hnper : ¬ periodicAxes bcs (ax a) := by
      rintro ⟨h, e⟩
      have ea : (⟨(ax a).val, h⟩ : Fin d) = a := Fin.ext (ax_val hd3)
      rw [ea] at e
      rcases face_cases f with rfl | rfl
      · exact hnp e
      · exact hnp ((hper a).1 e)
    rw [hk _ hnper, zero_mul, add_zero]
    have hga := hg (ax a)
    have hnga : nghostOf d ng (ax a) = ng := by simp [nghostOf, ax_val hd3]
    simp only [Pi.zero_apply] at hga
    have habs : ∀ x y : ℤ, (-y ≤ x ∧ x ≤ y ∨ y ≤ x ∧ x ≤ -y) → |x| ≤ |y| := fun x y h => by
      rcases h with h | h
      · exact (abs_le.2 ⟨h.1, h.2⟩).trans (le_abs_self y)
      · rw [← abs_neg y]; exact (abs_le.2 ⟨by omega, h.2⟩).trans (le_abs_self _)
    apply habs
    cases hk' : bcs a f with
    | periodic => exact absurd hk' hnp
    | userDefined => exact absurd hk' hnu
    | nullGradient =>
      rcases face_cases f with rfl | rfl <;>
        simp [condSrc, nearest, interiorLayer, InGhostLayer, globExt, hnga] at hl ⊢ <;> omega
    | reflexive =>
      rcases face_cases f with rfl | rfl <;>
        simp [condSrc, mirror, interiorLayer, ghostDepth, InGhostLayer, globExt, hnga] at hl ⊢ <;> omega
  · rw [Pi.sub_apply, condSrc_other hb, Pi.sub_apply]

/-- Ghosts within a distance of a cell are filled with values within this distance. -/
theorem bcGlob_near (hd3 : d ≤ 3) (hng : 0 ≤ ng) (hpos : ∀ a, 0 < nx a) (hsz : ∀ a : Fin d, ng ≤ nx (ax a)) (ho : ∀ id ∈ order, id < 2 * d)
    (hper : ∀ a, bcs a 0 = .periodic ↔ bcs a 1 = .periodic) (hnu : ∀ a f, bcs a f ≠ .userDefined)
    (hall : ∀ a f, bcs a f ≠ .periodic → faceId a f ∈ order) {g : Cell} (hg : inBox 0 nx g) {r : ℕ} {G G' : Cell → Fields d n F}
    (hG : ∀ h, inBox 0 nx h → CloseBy (periodicAxes bcs) nx r g h → G h = G' h) {C : Cell}
    (hC : inExt (globExt nx (nghostOf d ng)) C = true) (hr : CloseBy (periodicAxes bcs) nx r g (C - nghostOf d ng)) :
    bcGlob bcs nx (nghostOf d ng) order G C = bcGlob bcs nx (nghostOf d ng) order G' C := by
  set ext := globExt nx (nghostOf d ng) with hext
  have hnga : ∀ a : Fin d, nghostOf d ng (ax a) = ng := fun a => by simp [nghostOf, ax_val hd3]
  have hexta : ∀ a : Fin d, ext (ax a) = nx (ax a) + 2 * ng := fun a => by rw [hext]; simp [globExt, hnga]
  have key : ∀ (l : List ℕ), (∀ id ∈ l, id < 2 * d) → ∀ V V' : Cell → Fields d n F,
      (∀ C, inExt ext C = true → CloseBy (periodicAxes bcs) nx r g (C - nghostOf d ng) →
        (∀ a f, bcs a f ≠ .periodic → faceId a f ∈ l → ¬ InGhostLayer ext ng (ax a) f C) → V C = V' C) →
      ∀ C, inExt ext C = true → CloseBy (periodicAxes bcs) nx r g (C - nghostOf d ng) →
        l.foldl (bcPure bcs (fun _ _ => true) ext (nghostOf d ng)) V C = l.foldl (bcPure bcs (fun _ _ => true) ext (nghostOf d ng)) V' C := by
    intro l
    induction l with
    | nil => exact fun _ V V' h C hC hr => h C hC hr fun _ _ _ hm => absurd hm (by simp)
    | cons id l ih =>
      intro hl V V' hV
      rw [List.foldl_cons, List.foldl_cons]
      refine ih (fun i hi => hl i (by simp [hi])) _ _ fun C hC hr hno => ?_
      obtain ⟨a, f, rfl⟩ := faceId_surj (hl id (by simp))
      rw [bcPure_faceId, bcPure_faceId, if_pos rfl, if_pos rfl, condPure_eq, condPure_eq, hnga]
      by_cases hp : bcs a f = .periodic
      · have hV' : V C = V' C := hV C hC hr fun b f' hb hm => by
          rcases List.mem_cons.1 hm with e | e
          · obtain ⟨rfl, rfl⟩ := faceId_inj e; exact absurd hp hb
          · exact hno b f' hb e
        have e : condSrc (bcs a f) ext ng (ax a) f C = C := by rw [hp]; rfl
        rw [e, hV']
      · by_cases hL : InGhostLayer ext ng (ax a) f C
        · rw [if_pos ⟨hC, hL⟩, if_pos ⟨hC, hL⟩]
          congr 1
          have hpa := hpos (ax a)
          have hsa := hsz a
          obtain ⟨h1, h2⟩ := condSrc_inside (kind := bcs a f) hng (by rw [hexta]; omega) (by rw [hexta]; omega) hC hL
          refine hV _ h1 (condSrc_near hd3 hg hper hp (hnu a f) hL hr) fun b f' hb hm hL' => ?_
          by_cases hab : b = a
          · subst hab
            have hin : ng ≤ condSrc (bcs b f) ext ng (ax b) f C (ax b) ∧ condSrc (bcs b f) ext ng (ax b) f C (ax b) < ext (ax b) - ng := by
              cases hk : bcs b f with
              | periodic => exact absurd hk hp
              | userDefined => exact absurd hk (hnu b f)
              | nullGradient =>
                rcases face_cases f with rfl | rfl <;> simp [condSrc, nearest, interiorLayer, hexta] <;> omega
              | reflexive =>
                have hCa := inExt_iff.1 hC (ax b)
                rw [hexta] at hCa
                rcases face_cases f with rfl | rfl <;>
                  simp [condSrc, mirror, interiorLayer, ghostDepth, InGhostLayer, hexta] at hL ⊢ <;> omega
            unfold InGhostLayer at hL'
            omega
          · have hab' : ax b ≠ ax a := fun e => hab (ax_injective hd3 e)
            refine hno b f' hb ?_ ?_
            · rcases List.mem_cons.1 hm with e | e
              · exact absurd (faceId_inj e).1 hab
              · exact e
            · unfold InGhostLayer at hL' ⊢
              rwa [condSrc_other hab'] at hL'
        · rw [if_neg (fun h => hL h.2), if_neg (fun h => hL h.2)]
          refine hV C hC hr fun b f' hb hm => ?_
          rcases List.mem_cons.1 hm with e | e
          · obtain ⟨rfl, rfl⟩ := faceId_inj e; exact hL
          · exact hno b f' hb e
  refine key order ho _ _ (fun C hC hr hno => hG _ (fun a => ⟨Int.emod_nonneg _ (hpos a).ne', Int.emod_lt_of_pos _ (hpos a)⟩)
    (hr.wrapped fun a ha => ?_)) C hC hr
  have hCa := inExt_iff.1 hC a
  rw [hext] at hCa
  simp only [globExt] at hCa
  rw [Pi.sub_apply]
  by_cases had : a.val < d
  · have ea : ax (⟨a.val, had⟩ : Fin d) = a := Fin.ext (by rw [ax_val hd3])
    have hp0 : bcs ⟨a, had⟩ 0 ≠ .periodic := fun e => ha ⟨had, e⟩
    have hp1 : bcs ⟨a, had⟩ 1 ≠ .periodic := fun e => hp0 ((hper _).2 e)
    have g0 := hno ⟨a, had⟩ 0 hp0 (hall _ _ hp0)
    have g1 := hno ⟨a, had⟩ 1 hp1 (hall _ _ hp1)
    have := hnga ⟨a, had⟩
    have h' := hexta ⟨a, had⟩
    rw [ea] at g0 g1 this h'
    simp [InGhostLayer] at g0 g1
    omega
  · have : nghostOf d ng a = 0 := by simp [nghostOf, had]
    rw [this] at hCa ⊢
    omega

end Bc

section Step
variable [Zero F] {k : Kernels d n F} {geom : Geom} {p : PGrid d F}

/-- The reconstruction of the kernels takes the values in the cell itself only (first order). -/
def Kernels.FirstOrder (k : Kernels d n F) : Prop :=
  ∀ dxm dx dxp l l' c r r' side, k.recon dxm dx dxp l c r side = k.recon dxm dx dxp l' c r' side

/-- Face states of a cell read the cell and, beyond first order, its neighbours. -/
theorem kRecVal_reads (dt : F) {W W' : Cell → Fields d n F} {c : Cell} (h0 : W c = W' c)
    (h1 : k.FirstOrder ∨ ∀ (a : Fin d) (t : ℤ), |t| = 1 → W (nb c (ax a) t) = W' (nb c (ax a) t)) :
    kRecVal k geom p dt W (kPrimGlob k W) c = kRecVal k geom p dt W' (kPrimGlob k W') c := by
  have hrec : ∀ q : Fields d n F → F, kReconVal k p (fun c => q (W c)) c = kReconVal k p (fun c => q (W' c)) c := by
    intro q
    funext side a
    unfold kReconVal
    dsimp only
    rcases h1 with h1 | h1
    · rw [h1 _ _ _ _ (q (W' (nb c (ax a) (-1)))) _ _ (q (W' (nb c (ax a) 1))), h0]
    · rw [h0, h1 a 1 (by norm_num), h1 a (-1) (by norm_num)]
  have hUP : kFaceUP k p (kPrimGlob k W) c = kFaceUP k p (kPrimGlob k W') c := by
    funext side a
    unfold kFaceUP kPrimGlob
    congr 1
    · funext i
      exact congrFun (congrFun (hrec fun s => (k.prim s.rho { rhou := s.rhou, E := s.E }).u i) side) a
    · exact congrFun (congrFun (hrec fun s => (k.prim s.rho { rhou := s.rhou, E := s.E }).P) side) a
  have hF : kFaceFields k p W (kPrimGlob k W) c = kFaceFields k p W' (kPrimGlob k W') c := by
    funext side a
    unfold kFaceFields
    have e1 := congrFun (congrFun (hrec fun s => s.rho) side) a
    have e2 : (fun i => kReconVal k p (fun c => (W c).fx i) c side a) = fun i => kReconVal k p (fun c => (W' c).fx i) c side a :=
      funext fun i => congrFun (congrFun (hrec fun s => s.fx i) side) a
    rw [hUP, e1, e2]
  unfold kRecVal
  rw [hUP, hF]

/-- A step reads the cells up to two faces away; at first order, one. -/
theorem kStepVal_reads (dt : F) {W W' : Cell → Fields d n F} {C : Cell} (h0 : W C = W' C)
    (h1 : ∀ (a : Fin d) (t : ℤ), |t| = 1 → W (nb C (ax a) t) = W' (nb C (ax a) t))
    (h2 : k.FirstOrder ∨ ∀ (a b : Fin d) (t s : ℤ), |t| = 1 → |s| = 1 → W (nb (nb C (ax a) t) (ax b) s) = W' (nb (nb C (ax a) t) (ax b) s)) :
    kStepVal k geom p dt W (kPrimGlob k W) C = kStepVal k geom p dt W' (kPrimGlob k W') C := by
  have r0 := kRecVal_reads (k := k) (geom := geom) (p := p) (k.half dt) h0 (Or.inr h1)
  have r1 : ∀ (a : Fin d) (t : ℤ), |t| = 1 → kRecVal k geom p (k.half dt) W (kPrimGlob k W) (nb C (ax a) t) =
      kRecVal k geom p (k.half dt) W' (kPrimGlob k W') (nb C (ax a) t) := fun a t ht =>
    kRecVal_reads (k.half dt) (h1 a t ht) (h2.imp id fun h b s hs => h a b t s ht hs)
  have rp := fun a => r1 a 1 (by norm_num)
  have rm := fun a => r1 a (-1) (by norm_num)
  have wp := fun a => h1 a 1 (by norm_num)
  have wm := fun a => h1 a (-1) (by norm_num)
  unfold kStepVal kFixVal kGodVal
  simp only [h0, r0, rp, rm, wp, wm]

end Step

section Iter
variable [Zero F] [Neg F] {p : KernelParams d n F} {nx : Cell} {ng : ℤ} {order : List ℕ}

/-- Number of faces that matter per iteration. -/
theorem kIterGlob_near (hd3 : d ≤ 3) (hng : 2 ≤ ng) (hpos : ∀ a, 0 < nx a) (hsz : ∀ a : Fin d, ng ≤ nx (ax a)) (ho : ∀ id ∈ order, id < 2 * d)
    (hper : ∀ a, p.bcs a 0 = .periodic ↔ p.bcs a 1 = .periodic) (hnu : ∀ a f, p.bcs a f ≠ .userDefined)
    (hall : ∀ a f, p.bcs a f ≠ .periodic → faceId a f ∈ order) {e : ℕ} (he : 2 ≤ e ∨ e = 1 ∧ p.k.FirstOrder)
    {X : Fin 3 → ℤ → F} {Gr : (Cell → Fields d n F) → Cell → Fin d → F} (hGr : ∀ W W', Gr W = Gr W') (dt : F)
    {g : Cell} (hg : inBox 0 nx g) {r : ℕ} {W W' : Cell → Fields d n F}
    (hW : ∀ C, inExt (globExt nx (nghostOf d ng)) C = true → CloseBy (periodicAxes p.bcs) nx (r + e) g (C - nghostOf d ng) → W C = W' C)
    {C : Cell} (hC : inExt (globExt nx (nghostOf d ng)) C = true) (hr : CloseBy (periodicAxes p.bcs) nx r g (C - nghostOf d ng)) :
    kIterGlob p nx ng X Gr order dt W C = kIterGlob p nx ng X Gr order dt W' C := by
  refine bcGlob_near hd3 (by omega) hpos hsz ho hper hnu hall hg (fun h hh hn => ?_) hC hr
  rw [hGr W W']
  have hnga : ∀ a : Fin d, nghostOf d ng (ax a) = ng := fun a => by simp [nghostOf, ax_val hd3]
  have hbox : ∀ a : Fin 3, 0 ≤ nghostOf d ng a := fun a => by unfold nghostOf; split <;> omega
  -- neighbours stay in the array
  have hin1 : ∀ (a : Fin d) (t : ℤ), |t| = 1 → ∀ b, (if b = ax a then nghostOf d ng b - 1 else nghostOf d ng b) ≤ nb (h + nghostOf d ng) (ax a) t b ∧
      nb (h + nghostOf d ng) (ax a) t b < nx b + nghostOf d ng b + (if b = ax a then 1 else 0) := by
    intro a t ht b
    have h1 := hh b
    have ht' : t = 1 ∨ t = -1 := by rcases abs_eq (by norm_num : (0 : ℤ) ≤ 1) |>.1 ht with h | h <;> omega
    simp only [Pi.zero_apply] at h1
    by_cases hb : b = ax a
    · subst hb; rw [nb_self, if_pos rfl, if_pos rfl, Pi.add_apply]; omega
    · rw [nb_ne _ hb, if_neg hb, if_neg hb, Pi.add_apply]; omega
  have hE1 : ∀ (a : Fin d) (t : ℤ), |t| = 1 → inExt (globExt nx (nghostOf d ng)) (nb (h + nghostOf d ng) (ax a) t) = true := by
    refine fun a t ht => inExt_iff.2 fun b => ?_
    have h1 := hin1 a t ht b
    have := hbox b
    simp only [globExt]
    by_cases hb : b = ax a
    · subst hb
      rw [hnga] at *
      simp only [if_true] at h1
      omega
    · simp only [if_neg hb] at h1
      omega
  have hE2 : ∀ (a b : Fin d) (t s : ℤ), |t| = 1 → |s| = 1 →
      inExt (globExt nx (nghostOf d ng)) (nb (nb (h + nghostOf d ng) (ax a) t) (ax b) s) = true := by
    refine fun a b t s ht hs => inExt_iff.2 fun c => ?_
    have h1 := hin1 a t ht c
    have hs' : s = 1 ∨ s = -1 := by rcases abs_eq (by norm_num : (0 : ℤ) ≤ 1) |>.1 hs with h | h <;> omega
    have := hbox c
    simp only [globExt]
    have hle : c = ax a ∨ c = ax b → nghostOf d ng c = ng := by rintro (rfl | rfl) <;> exact hnga _
    by_cases hb : c = ax b
    · have h2 := hle (Or.inr hb)
      subst hb
      rw [nb_self]
      split at h1 <;> omega
    · rw [nb_ne _ hb]
      by_cases ha : c = ax a
      · have h2 := hle (Or.inl ha)
        rw [if_pos ha, if_pos ha] at h1
        omega
      · rw [if_neg ha, if_neg ha] at h1
        omega
  have sh : ∀ c : Cell, c + nghostOf d ng - nghostOf d ng = c := fun c => add_sub_cancel_right _ _
  have h0 : CloseBy (periodicAxes p.bcs) nx r g (h + nghostOf d ng - nghostOf d ng) := by rw [sh]; exact hn
  have hE0 : inExt (globExt nx (nghostOf d ng)) (h + nghostOf d ng) = true := inExt_iff.2 fun a => by
    have := hh a
    have := hbox a
    simp only [Pi.zero_apply] at *
    simp only [globExt, Pi.add_apply]
    omega
  have he1 : 1 ≤ e := by rcases he with h | h <;> omega
  refine kStepVal_reads dt (hW _ hE0 (h0.mono (by omega))) (fun a t ht => hW _ (hE1 a t ht) ?_) ?_
  · rw [nb_add, sh]
    exact (hn.nb (ax a) ht.le).mono (by omega)
  · rcases he with he | ⟨-, he⟩
    · refine Or.inr fun a b t s ht hs => hW _ (hE2 a b t s ht hs) ?_
      rw [nb_add, nb_add, sh]
      exact ((hn.nb (ax a) ht.le).nb (ax b) hs.le).mono (by omega)
    · exact Or.inl he

end Iter

/-- A reduction over values that could be read gives a time step. -/
theorem kTimeStep_some [LT F] [DecidableLT F] {R : Type} {lo : F} (k : Kernels d n F) {ranks : List R} {parts : R → List (List Cell)}
    {g : R → GridData F} {rho : R → View Cell F} {up : R → View Cell (VelPres d F)} {rate : R → Cell → F}
    (h : ∀ r ∈ ranks, ∀ c ∈ (parts r).flatten, kCellInverseDt k (g r) (rho r) (up r) c = some (rate r c)) (hne : ranks ≠ []) :
    ∃ m, kTimeStep lo k ranks parts g rho up = some (k.inv m) := by
  have h1 := fun r (hr : r ∈ ranks) => parReduce_eq (e := lo) (join := kmax) (op := kmax) (h r hr)
  obtain ⟨v, vs, e, e'⟩ := allReduce_some (op := kmax) (l := ranks.map fun r =>
    ((parts r).map fun l => l.foldl (fun s c => kmax s (rate r c)) lo).foldl kmax lo) (fun h => hne (List.map_eq_nil_iff.1 h))
  refine ⟨vs.foldl kmax v, ?_⟩
  unfold kTimeStep
  rw [mapM_some ranks h1]
  simp only [Option.bind_eq_bind, Option.bind_some]
  rw [e']
  rfl

end Heracles

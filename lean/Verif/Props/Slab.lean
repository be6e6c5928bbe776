import Verif.Lemmas.Slab
import Verif.Props.Locality
import Verif.Props.NanRun

/-!
# C98: a flow that is the same all along the last axis
-/

namespace Heracles

variable {d n : ℕ} {K : Type} [Field K] [LinearOrder K] [IsStrictOrderedRing K]

/-- **C98.** Take a run in `d` dimensions (1 or 2) and a run in `d + 1` dimensions on a Cartesian grid, exact arithmetic, the same other choices (any limiter,
solver and equation of state, with or without the pressure fix), the same nodes along the old axes and any nodes along the new one (equal cells if the
fix is on), any built-in conditions at the two new faces, in any place of the order of faces, and any decompositions, which may have nothing to do with each
other. The second run starts from the state of the first repeated along the new axis, at rest in it, and its gravity does the same. Then both
runs complete, and if they take the same time steps all ranks of the second hold the state of the first repeated along the new axis, at rest in it,
ghost cells included.
Full claim: the same for the runs as they are. What is missing: the time steps, which are not the same (`C98_rate`); the pressure fix on a new axis with
cells of different sizes, for which it is false (`C98_fix_violated`); rounding. -/
theorem C98_slab_partial (hd : d + 1 ≤ 3) {lim : Limiter} {sol : Solver} {eos : EoS K} {tr : Trig K} {fix : Option K} {p : KernelParams d n K} {p' : KernelParams (d + 1) n K}
    (hk : p.k = exactKernels lim sol eos tr .cartesian fix) (hk' : p'.k = exactKernels lim sol eos tr .cartesian fix) (hgeom : p.geom = .cartesian) (hgeom' : p'.geom = .cartesian)
    {nx nx' : Cell} {ng : ℤ} (hpos' : ∀ a, 0 < nx' a) (hnx : ∀ a : Fin 3, a.val ≠ d → nx' a = nx a) (hnx1 : ∀ a : Fin 3, a.val = d → nx a = 1) (hng : 2 ≤ ng)
    (hb' : ∀ a f, p'.bcs a f ≠ .userDefined) (hbc : ∀ a f, p'.bcs (Fin.castSucc a) f = p.bcs a f) {order' : List ℕ} (ho' : ∀ id ∈ order', id < 2 * (d + 1))
    (hpo' : p'.order = order'.map some) (hpo : p.order = (order'.filter fun id => id < 2 * d).map some) {X X' : Fin 3 → ℤ → K}
    (hX : ∀ a : Fin 3, a.val ≠ d → X' a = X a) (hx' : ∀ b i, 0 ≤ i → i < globExt nx' (nghostOf (d + 1) ng) b → X' b i ≠ X' b (i + 1))
    (hx : ∀ b : Fin 3, b.val = d → X b 0 ≠ X b 1)
    (hfix : fix = none ∨ ∀ b : Fin 3, b.val = d → ∀ i, 0 ≤ i → i + 1 < globExt nx' (nghostOf (d + 1) ng) b → X' b (i + 1) - X' b i = X' b (i + 1 + 1) - X' b (i + 1))
    {Gr : (Cell → Fields d n K) → Cell → Fin d → K} {Gr' : (Cell → Fields (d + 1) n K) → Cell → Fin (d + 1) → K}
    (hGr : ∀ W W', (∀ C c, inExt (globExt nx' (nghostOf (d + 1) ng)) C = true → inExt (globExt nx (nghostOf d ng)) c = true → Over d C c → W' C = (W c).lift) →
      ∀ C c, inExt (globExt nx' (nghostOf (d + 1) ng)) C = true → inExt (globExt nx (nghostOf d ng)) c = true → Over d C c →
        (∀ a, Gr' W' C (Fin.castSucc a) = Gr W c a) ∧ Gr' W' C (Fin.last d) = 0)
    {dims dims' : Cell} {sched sched' : Cell → Cell → List Cell} {grav : DistView (Fields d n K) → Cell → GravField d K}
    {grav' : DistView (Fields (d + 1) n K) → Cell → GravField (d + 1) K} {M : ℕ → Cell → RankMem d n K} {M' : ℕ → Cell → RankMem (d + 1) n K} {lf lf' : ℕ → Cell → List Cell}
    (h : KDecomposition p nx ng X Gr dims sched grav M lf) (h' : KDecomposition p' nx' ng X' Gr' dims' sched' grav' M' lf')
    {G : Cell → Fields d n K} {G' : Cell → Fields (d + 1) n K} (hG : ∀ g g', inBox 0 nx g → inBox 0 nx' g' → Over d g' g → G' g' = (G g).lift)
    {D : DistView (Fields d n K)} {D' : DistView (Fields (d + 1) n K)}
    (hext : ∀ rank, inBox 0 dims rank → D.ext rank = localExt nx dims (nghostOf d ng) rank)
    (hint : ∀ rank, inBox 0 dims rank → ∀ c, inBox (nghostOf d ng) (fun a => D.ext rank a - nghostOf d ng a) c →
      D.val rank c = G (globalOf nx dims (nghostOf d ng) rank c))
    (hext' : ∀ rank, inBox 0 dims' rank → D'.ext rank = localExt nx' dims' (nghostOf (d + 1) ng) rank)
    (hint' : ∀ rank, inBox 0 dims' rank → ∀ c, inBox (nghostOf (d + 1) ng) (fun a => D'.ext rank a - nghostOf (d + 1) ng a) c →
      D'.val rank c = G' (globalOf nx' dims' (nghostOf (d + 1) ng) rank c)) (i : ℕ) :
    ∃ R hist R' hist', kRun p sched (borderOf dims) (nghostOf d ng) dims grav M lf D i = some (R, hist) ∧
      kRun p' sched' (borderOf dims') (nghostOf (d + 1) ng) dims' grav' M' lf' D' i = some (R', hist') ∧ hist.length = i ∧ hist'.length = i ∧
      ((∀ j < i, p'.policy (hist'.drop j) = p.policy (hist.drop j)) → ∀ rank c rank' c', inBox 0 dims rank → inBox 0 dims' rank' →
        inExt (localExt nx dims (nghostOf d ng) rank) c = true → inExt (localExt nx' dims' (nghostOf (d + 1) ng) rank') c' = true →
        Over d (c' + startCell nx' dims' rank') (c + startCell nx dims rank) → R'.val rank' c' = (R.val rank c).lift) := by
  have hpos : ∀ a, 0 < nx a := fun a => by
    by_cases ha : a.val = d
    · rw [hnx1 a ha]; norm_num
    · rw [← hnx a ha]; exact hpos' a
  have hb : ∀ a f, p.bcs a f ≠ .userDefined := fun a f => by rw [← hbc]; exact hb' _ _
  obtain ⟨W, R, hist, e1, e2, e3, e4, e5⟩ := kRun_global (by omega) (fun a => (hpos a).le) hng hb (fun id hid => by simpa using (List.mem_filter.1 hid).2) hpo h hext hint i
  obtain ⟨W', R', hist', f1, f2, f3, f4, f5⟩ := kRun_global hd (fun a => (hpos' a).le) hng hb' ho' hpo' h' hext' hint' i
  refine ⟨R, hist, R', hist', e1, f1, e2, f2, fun hdt => ?_⟩
  set E' := globExt nx' (nghostOf (d + 1) ng) with hE'
  have hN : ∀ a : Fin 3, a.val ≠ d → nghostOf (d + 1) ng a = nghostOf d ng a := fun a ha => by
    unfold nghostOf
    have : a.val < d + 1 ↔ a.val < d := by omega
    simp only [this]
  have hEl : E' (ax (Fin.last d)) = nx' (ax (Fin.last d)) + 2 * ng := by
    rw [hE']
    unfold globExt nghostOf
    rw [if_pos (by rw [ax_last hd]; omega)]
  have hE1 : ∀ a : Fin 3, a.val = d → globExt nx (nghostOf d ng) a = 1 := fun a ha => by
    unfold globExt nghostOf
    rw [hnx1 a ha, if_neg (by omega)]; norm_num
  have hEe : ∀ a : Fin 3, a.val ≠ d → E' a = globExt nx (nghostOf d ng) a := fun a ha => by
    rw [hE']; unfold globExt; rw [hN a ha, hnx a ha]
  -- the cell under a cell
  have hsh : ∀ C c, inExt E' C = true → inExt (globExt nx (nghostOf d ng)) c = true → Over d C c → shadow d (E' (ax (Fin.last d))) C = c := by
    intro C c hC hc ho
    funext a
    unfold shadow
    by_cases ha : a.val = d
    · rw [if_pos ha]
      obtain rfl : a = ax (Fin.last d) := Fin.ext (ha.trans (ax_last hd).symm)
      have h1 := inExt_iff.1 hC (ax (Fin.last d))
      have h2 := inExt_iff.1 hc (ax (Fin.last d))
      rw [hE1 _ ha] at h2
      rw [if_pos h1]
      omega
    · rw [if_neg ha]
      exact ho a ha
  have hin : ∀ C, inExt E' C = true → inExt (globExt nx (nghostOf d ng)) (shadow d (E' (ax (Fin.last d))) C) = true := by
    intro C hC
    refine inExt_iff.2 fun a => ?_
    have h1 := inExt_iff.1 hC a
    unfold shadow
    by_cases ha : a.val = d
    · obtain rfl : a = ax (Fin.last d) := Fin.ext (ha.trans (ax_last hd).symm)
      rw [if_pos ha, if_pos h1, hE1 _ ha]; norm_num
    · rw [if_neg ha, ← hEe a ha]; exact h1
  have main : ∀ j ≤ i, ∀ C, W' j C = (W j (shadow d (E' (ax (Fin.last d))) C)).lift := by
    intro j
    induction j with
    | zero =>
      intro _ C
      rw [f4, e4, hEl]
      exact bcGlob_slab hd (by omega) hpos' hnx hnx1 hbc hG C
    | succ j ih =>
      intro hj C
      have ih := ih (by omega)
      rw [f5 j (by omega), e5 j (by omega), hdt _ (by omega), hEl]
      unfold kIterGlob
      refine bcGlob_slab hd (by omega) hpos' hnx hnx1 hbc (fun g g' hg hg' ho => ?_) C
      have ho2 : Over d (g' + nghostOf (d + 1) ng) (g + nghostOf d ng) := fun a ha => by
        show g' a + nghostOf (d + 1) ng a = g a + nghostOf d ng a
        rw [ho a ha, hN a ha]
      have n0 : ∀ (δ : ℕ) a, 0 ≤ nghostOf δ ng a := fun δ a => by unfold nghostOf; split <;> omega
      have hgi : inExt E' (g' + nghostOf (d + 1) ng) = true := inExt_iff.2 fun a => by
        have := hg' a
        have := n0 (d + 1) a
        simp only [Pi.zero_apply] at *
        show 0 ≤ g' a + _ ∧ g' a + _ < nx' a + _
        omega
      have hgi2 : inExt (globExt nx (nghostOf d ng)) (g + nghostOf d ng) = true := inExt_iff.2 fun a => by
        have := hg a
        have := n0 d a
        simp only [Pi.zero_apply] at *
        show 0 ≤ g a + _ ∧ g a + _ < nx a + _
        omega
      rw [hk, hk', hgeom, hgeom', ← hsh _ _ hgi hgi2 ho2]
      refine stepVal_slab (E' := E') hd hX (prim_slab ih) ih (fun C hC => ?_) (fun b i h0 h1 => sub_ne_zero.2 (hx' b i h0 h1).symm) (fun b i h0 h1 h2 => ?_) ?_ (fun a => ?_) _
      · have hC' := inExt_iff.2 hC
        have := hGr (W j) (W' j) (fun C c hC hc ho => by rw [ih, hsh C c hC hc ho]) C _ hC' (hin C hC') (fun a ha => (if_neg ha).symm)
        exact snoc_ext this.1 this.2
      · by_cases hbd : b.val = d
        · rw [h1 hbd]
          exact sub_ne_zero.2 (hx b hbd).symm
        · rw [← hX b hbd]
          exact sub_ne_zero.2 (hx' b i h0 (h2 hbd)).symm
      · exact hfix.imp id fun hf => hf _ (ax_last hd)
      · have := hg' a
        refine ⟨fun ha => ?_, inExt_iff.1 hgi a⟩
        have e : nghostOf (d + 1) ng a = ng := if_pos ha
        simp only [Pi.zero_apply] at *
        show 2 ≤ g' a + nghostOf (d + 1) ng a ∧ g' a + nghostOf (d + 1) ng a + 2 < nx' a + 2 * nghostOf (d + 1) ng a
        omega
  intro rank c rank' c' hr hr' hc hc' ho
  rw [f3.val rank' hr' c' hc', e3.val rank hr c hc, main i le_rfl, hsh _ _ (inExt_shift (fun a => (hpos' a).le) h'.pos hr' hc') (inExt_shift (fun a => (hpos a).le) h.pos hr hc) ho]

/-- **C98, the time step.** Under the same conditions the inverse time step of a cell is larger in `d + 1` dimensions, by the speed of sound over the size of the cell
along the new axis: the time step of the second run is smaller, though nothing moves along the new axis. -/
theorem C98_rate (hd : d + 1 ≤ 3) {lim : Limiter} {sol : Solver} {eos : EoS K} {tr : Trig K} {fix : Option K} {X X' : Fin 3 → ℤ → K}
    (hX : ∀ a : Fin 3, a.val ≠ d → X' a = X a) {W : Cell → Fields d n K} {W' : Cell → Fields (d + 1) n K} {C c : Cell} (ho : Over d C c) (hW : W' C = (W c).lift)
    {b : Fin 3} (hb : b.val = d) :
    kRateVal (exactKernels lim sol eos tr .cartesian fix) .cartesian X' W' (kPrimGlob (exactKernels lim sol eos tr .cartesian fix) W') C =
      kRateVal (exactKernels lim sol eos tr .cartesian fix) .cartesian X W (kPrimGlob (exactKernels lim sol eos tr .cartesian fix) W) c +
        eos.sound (W c).rho (eos.presFromEvol (W c).rho ((W c).E - (W c).cons.ek)) / (X' b (C b + 1) - X' b (C b)) := by
  obtain rfl : b = ax (Fin.last d) := Fin.ext (hb.trans (ax_last hd).symm)
  have ht := toPrim_lift eos (W c).cons
  have hp : toPrim eos (⟨(W' C).rho, (W' C).rhou, (W' C).E⟩ : Cons (d + 1) K) = (toPrim eos (W c).cons).lift := by rw [hW]; exact ht
  have hdx : ∀ (Z : Fin 3 → ℤ → K) (B : Cell) (a : Fin 3), (![Z 0 (B 0 + 1) - Z 0 (B 0), Z 1 (B 1 + 1) - Z 1 (B 1), Z 2 (B 2 + 1) - Z 2 (B 2)] : Fin 3 → K) a = Z a (B a + 1) - Z a (B a) := by
    intro Z B a; fin_cases a <;> rfl
  have e : ∀ {δ : ℕ} (Z : Fin 3 → ℤ → K) (V : Cell → Fields δ n K) (B : Cell), kRateVal (exactKernels lim sol eos tr .cartesian fix) .cartesian Z V
      (kPrimGlob (exactKernels lim sol eos tr .cartesian fix) V) B =
      ∑ a : Fin δ, (|(toPrim eos (⟨(V B).rho, (V B).rhou, (V B).E⟩ : Cons δ K)).u a| + eos.sound (V B).rho (toPrim eos (⟨(V B).rho, (V B).rhou, (V B).E⟩ : Cons δ K)).P) /
        (Z (ax a) (B (ax a) + 1) - Z (ax a) (B (ax a))) := by
    intro δ Z V B
    have : ∀ a : Fin δ, Z (ax a) (B (ax a) + 1) - Z (ax a) (B (ax a)) =
        dxGeom tr .cartesian δ ![Z 0 (B 0 + 1) - Z 0 (B 0), Z 1 (B 1 + 1) - Z 1 (B 1), Z 2 (B 2 + 1) - Z 2 (B 2)] ((Z 0 (B 0) + Z 0 (B 0 + 1)) / 2) ((Z 1 (B 1) + Z 1 (B 1 + 1)) / 2) (ax a) :=
      fun a => (hdx Z B (ax a)).symm
    simp only [this]
    rfl
  rw [e, e, Fin.sum_univ_castSucc, hp, hW]
  refine congrArg₂ (· + ·) (Finset.sum_congr rfl fun a _ => ?_) ?_
  · rw [ax_castSucc, hX _ (ax_ne_last hd a), ho _ (ax_ne_last hd a)]
    simp only [Prim.lift, Fin.snoc_castSucc]
    rfl
  · simp only [Prim.lift, Fin.snoc_last, abs_zero, zero_add]
    rfl

/-- A case: a tube of 4 cells on two ranks with a wall at one end, and a strip of 4 by 3 cells on one rank, with walls on the sides: HLLC, van Leer, pressure fix,
a prescribed time step. -/
example (eos : EoS ℚ) (tr : Trig ℚ) (q : ℤ → Fields 1 1 ℚ) (user : UserBc 1 1 ℚ) (user' : UserBc 2 1 ℚ) :
    ∃ M lf M' lf' D D', ∀ i, ∃ R hist R' hist',
      kRun ⟨exactKernels .vanLeer .hllc eos tr .cartesian (some (1 / 10)), .cartesian, 0, fun _ => 1 / 8, user, fun _ f => if f = 0 then .reflexive else .nullGradient, [some 0, some 1]⟩
        boxList (borderOf ![2, 1, 1]) (nghostOf 1 2) ![2, 1, 1] (fun _ _ _ _ => some 0) M lf D i = some (R, hist) ∧
      kRun ⟨exactKernels .vanLeer .hllc eos tr .cartesian (some (1 / 10)), .cartesian, 0, fun _ => 1 / 8, user', fun a f => if a = 1 ∨ f = 0 then .reflexive else .nullGradient,
        [some 0, some 3, some 1, some 2]⟩ boxList (borderOf ![1, 1, 1]) (nghostOf 2 2) ![1, 1, 1] (fun _ _ _ _ => some 0) M' lf' D' i = some (R', hist') ∧
      R'.val ![0, 0, 0] ![4, 3, 0] = (R.val ![1, 0, 0] ![2, 0, 0]).lift := by
  have hsz : ∀ {δ : ℕ} {nx dims : Cell}, (∀ a, 0 ≤ nx a) → (∀ a : Fin 3, a.val < δ → 2 ≤ nx a / dims a) → ∀ a : Fin 3, a.val < δ → ∀ r, 0 ≤ r → r < dims a →
      (2 : ℤ) ≤ localSize (nx a) (dims a) r := by
    intro δ nx dims hN h2 a ha r h0 h1
    rw [localSize_eq (hN a) (lt_of_le_of_lt h0 h1)]
    have := h2 a ha
    split <;> omega
  obtain ⟨M, lf, h⟩ := exists_kDecomposition (⟨exactKernels .vanLeer .hllc eos tr .cartesian (some (1 / 10)), .cartesian, 0, fun _ => 1 / 8, user,
    fun _ f => if f = 0 then .reflexive else .nullGradient, [some 0, some 1]⟩ : KernelParams 1 1 ℚ) (nx := ![4, 1, 1]) (dims := ![2, 1, 1]) (ng := 2) (by decide) (by decide) (by norm_num)
    (hsz (by decide) (by decide)) (fun _ i => i)
  obtain ⟨M', lf', h'⟩ := exists_kDecomposition (⟨exactKernels .vanLeer .hllc eos tr .cartesian (some (1 / 10)), .cartesian, 0, fun _ => 1 / 8, user',
    fun a f => if a = 1 ∨ f = 0 then .reflexive else .nullGradient, [some 0, some 3, some 1, some 2]⟩ : KernelParams 2 1 ℚ) (nx := ![4, 3, 1]) (dims := ![1, 1, 1]) (ng := 2)
    (by decide) (by decide) (by norm_num) (hsz (by decide) (by decide)) (fun a i => if a = 1 then 5 * i else i)
  refine ⟨M, lf, M', lf', ⟨fun r => localExt ![4, 1, 1] ![2, 1, 1] (nghostOf 1 2) r, fun r c => q (globalOf ![4, 1, 1] ![2, 1, 1] (nghostOf 1 2) r c 0)⟩,
    ⟨fun r => localExt ![4, 3, 1] ![1, 1, 1] (nghostOf 2 2) r, fun r c => (q (globalOf ![4, 3, 1] ![1, 1, 1] (nghostOf 2 2) r c 0)).lift⟩, fun i => ?_⟩
  obtain ⟨R, hist, R', hist', e1, e2, -, -, e3⟩ := C98_slab_partial (lim := .vanLeer) (sol := .hllc) (eos := eos) (tr := tr) (fix := some (1 / 10)) (X := fun _ i => i)
    (X' := fun a i => if a = 1 then 5 * i else i) (by norm_num) (order' := [0, 3, 1, 2]) rfl rfl rfl rfl (by decide)
    (by decide) (by decide) le_rfl (fun a f => by dsimp only; split <;> exact fun h => by cases h)
    (fun a f => by fin_cases a; fin_cases f <;> rfl) (by decide) rfl rfl
    (fun a ha => by funext i; exact if_neg fun h : a = 1 => ha (by rw [h]; rfl)) (fun b i _ _ => by split <;> push_cast <;> intro h <;> linarith) (fun b _ => by norm_num)
    (Or.inr fun b hb i _ _ => by
      obtain rfl : b = 1 := Fin.ext hb
      show (5 * ((i + 1 : ℤ) : ℚ)) - 5 * (i : ℚ) = 5 * ((i + 1 + 1 : ℤ) : ℚ) - 5 * ((i + 1 : ℤ) : ℚ)
      push_cast
      ring) (fun _ _ _ _ _ _ _ _ => ⟨fun _ => rfl, rfl⟩) h h'
    (G := fun g => q (g 0)) (G' := fun g => (q (g 0)).lift) (fun g g' _ _ ho => by rw [ho 0 (by decide)])
    (D := ⟨fun r => localExt ![4, 1, 1] ![2, 1, 1] (nghostOf 1 2) r, fun r c => q (globalOf ![4, 1, 1] ![2, 1, 1] (nghostOf 1 2) r c 0)⟩)
    (D' := ⟨fun r => localExt ![4, 3, 1] ![1, 1, 1] (nghostOf 2 2) r, fun r c => (q (globalOf ![4, 3, 1] ![1, 1, 1] (nghostOf 2 2) r c 0)).lift⟩)
    (fun _ _ => rfl) (fun _ _ _ _ => rfl) (fun _ _ => rfl) (fun _ _ _ _ => rfl) i
  exact ⟨R, hist, R', hist', e1, e2, e3 (fun _ _ => rfl) _ _ _ _ (by decide) (by decide) (by decide) (by decide) (by unfold Over; decide)⟩

end Heracles

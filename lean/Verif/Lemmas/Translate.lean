import Verif.Lemmas.SymmetryRun

/-!
# Translations of a periodic box

On a uniform Cartesian mesh the advance of a cell depends on its neighbours only by their relative positions.
-/

namespace Heracles

variable {d n : ℕ} {p : ProgParams d n} {nx : Cell} {ng : ℤ} {X : Fin 3 → ℤ → ℝ} {order order' : List ℕ}

section Advance
variable {h : Fin 3 → ℝ} (hX : ∀ a i, X a (i + 1) - X a i = h a)
include hX

theorem dx_uniform (tr : Trig ℝ) (Gr : Cell → Fin d → ℝ) (a : Fin 3) (i : ℤ) : (globGrid tr .cartesian X Gr).dx a i = h a := hX a i

theorem ds_uniform (tr : Trig ℝ) (Gr Gr' : Cell → Fin d → ℝ) (c c' : Cell) :
    (globGrid tr .cartesian X Gr').ds c = (globGrid tr .cartesian X Gr).ds c' := by
  simp only [globGrid, dsFun, hX]

theorem dv_uniform (tr : Trig ℝ) (Gr Gr' : Cell → Fin d → ℝ) (c c' : Cell) :
    (globGrid tr .cartesian X Gr').dv c = (globGrid tr .cartesian X Gr).dv c' := by
  simp only [globGrid, dvFun, hX]

theorem dirGeo_uniform (tr : Trig ℝ) (Gr Gr' : Cell → Fin d → ℝ) (a : Fin d) (c c' : Cell) :
    (globGrid tr .cartesian X Gr').dirGeo .cartesian a c = (globGrid tr .cartesian X Gr).dirGeo .cartesian a c' := by
  unfold PGrid.dirGeo
  simp only [ds_uniform hX tr Gr Gr' c c', dv_uniform hX tr Gr Gr' c c', ds_uniform hX tr Gr Gr' (nb c (ax a) 1) (nb c' (ax a) 1)]

/-- The advance of shifted data is the shifted advance. -/
theorem progVal_translate (hd3 : d ≤ 3) (hcart : p.hydro.geom = .cartesian) (t dt : ℝ) {Gr Gr' : Cell → Fin d → ℝ} {s : Cell} (hg : ∀ C, Gr' C = Gr (C + s))
    {U U' : Cell → Fields d n ℝ} {up up' : Cell → VelPres d ℝ} (hU : ∀ C, U' C = U (C + s)) (hup : ∀ C, up' C = up (C + s)) (c : Cell) :
    progVal p (globGrid p.hydro.tr p.hydro.geom X Gr') t dt U' up' c = progVal p (globGrid p.hydro.tr p.hydro.geom X Gr) t dt U up (c + s) := by
  rw [hcart]
  have hrec : ∀ e, recVal p.hydro.lim p.hydro.eos p.hydro.tr .cartesian (globGrid p.hydro.tr .cartesian X Gr') (dt / 2) U' up' e =
      recVal p.hydro.lim p.hydro.eos p.hydro.tr .cartesian (globGrid p.hydro.tr .cartesian X Gr) (dt / 2) U up (e + s) := fun e =>
    recVal_shift _ _ _ _ (dt / 2) (fun a t _ _ => by rw [dx_uniform hX, dx_uniform hX]) (fun a t _ _ => hU _) (fun a t _ _ => hup _)
      (fun a => dirGeo_uniform hX _ _ _ a _ _) (hg e) (dv_uniform hX _ _ _ _ _)
  have hs : stepVal p.hydro.lim p.hydro.sol p.hydro.eos p.hydro.tr .cartesian (globGrid p.hydro.tr .cartesian X Gr') dt U' up' c =
      stepVal p.hydro.lim p.hydro.sol p.hydro.eos p.hydro.tr .cartesian (globGrid p.hydro.tr .cartesian X Gr) dt U up (c + s) := by
    unfold stepVal
    rw [hU c]
    exact godVal_shift _ _ _ _ dt _ (hrec c) (fun a t _ _ => hrec _) (fun a => dirGeo_uniform hX _ _ _ a _ _) (hg c) (dv_uniform hX _ _ _ _ _)
  unfold progVal
  rw [hcart, hs]
  cases p.fix with
  | none => rfl
  | some eps =>
    simp only
    rw [fixPure_shift hd3 p.hydro.eos dt eps _ (fun a t _ _ => hU _) (hU c) (hrec c) (fun a t _ _ => hrec _) (ds_uniform hX _ _ _ _ _)
      (fun a => ds_uniform hX _ _ _ _ _) (dv_uniform hX _ _ _ _ _)]

theorem rate_uniform (eos : EoS ℝ) (tr : Trig ℝ) (nghost : Cell) {W W' : Cell → Fields d n ℝ} {C C' : Cell} (hW : W' C' = W C) :
    (globRank eos nx nghost X W').rate eos tr .cartesian C' = (globRank eos nx nghost X W).rate eos tr .cartesian C := by
  have e : primGlob eos W' C' = primGlob eos W C := by unfold primGlob; rw [hW]
  unfold RankData.rate
  refine Finset.sum_congr rfl fun a _ => ?_
  simp only [globRank, cellLength, reduceCtorEq, if_false, hX, e, hW]

end Advance

/-- Data that repeat with the size of the box. -/
def Repeats (nx : Cell) {α : Type} (W : Cell → α) : Prop := ∀ C k : Cell, W (C + nx * k) = W C

theorem wrap_add_mul (nx C k : Cell) : wrap nx (C + nx * k) = wrap nx C := by
  funext a
  simp only [wrap, Pi.add_apply, Pi.mul_apply, Int.add_mul_emod_self_left]

theorem wrap_eq_add (nx C : Cell) : wrap nx C = C + nx * (fun a => -(C a / nx a)) := by
  funext a
  simp only [wrap, Pi.add_apply, Pi.mul_apply]
  have := Int.emod_add_mul_ediv (C a) (nx a)
  rw [mul_neg]
  omega

theorem Repeats.eq {α : Type} {W : Cell → α} (h : Repeats nx W) {C C' : Cell} (e : wrap nx C = wrap nx C') : W C = W C' := by
  have h1 := h C (fun a => -(C a / nx a))
  have h2 := h C' (fun a => -(C' a / nx a))
  rw [← wrap_eq_add] at h1 h2
  rw [← h1, ← h2, e]

theorem wrap_mem (hpos : ∀ a, 0 < nx a) (C : Cell) : inBox 0 nx (wrap nx C) := fun a =>
  ⟨Int.emod_nonneg _ (hpos a).ne', Int.emod_lt_of_pos _ (hpos a)⟩

theorem wrap_of_mem {g : Cell} (hg : inBox 0 nx g) : wrap nx g = g := by
  funext a
  exact Int.emod_eq_of_lt (hg a).1 (hg a).2

theorem wrap_wrap_add (nx C s : Cell) : wrap nx (wrap nx C + s) = wrap nx (C + s) := by
  rw [wrap_eq_add nx C, add_right_comm, wrap_add_mul]

theorem inExt_of_box (ng : ℤ) (hng : 0 ≤ ng) {g : Cell} (hg : inBox 0 nx g) : inExt (globExt nx (nghostOf d ng)) (g + nghostOf d ng) = true := by
  rw [inExt_iff]
  intro a
  have h1 := hg a
  have h2 := nghostOf_nonneg (ndim := d) hng a
  simp only [Pi.zero_apply] at h1
  simp only [globExt, Pi.add_apply]
  omega

/-- The run of the global array of a periodic box with a uniform Cartesian mesh does not single out a place of the box. -/
theorem globHydro_translate (hd3 : d ≤ 3) (hpos : ∀ a, 0 < nx a) (hng : 2 ≤ ng) (hcart : p.hydro.geom = .cartesian) (hb : ∀ a f, p.hydro.bcs a f = .periodic)
    (ho : ∀ id ∈ order, id < 2 * d) (ho' : ∀ id ∈ order', id < 2 * d) {h : Fin 3 → ℝ} (hX : ∀ a i, X a (i + 1) - X a i = h a)
    {Gr : (Cell → Fields d n ℝ) → Cell → Fin d → ℝ} (hG : ∀ W s C, Gr (fun C => W (C + s)) C = Gr W (C + s)) (s : Cell) :
    (globHydro p nx ng X Gr order).Related 1 (fun W W' => Repeats nx W ∧ W' = fun C => W (C + s)) (globHydro p nx ng X Gr order') := by
  refine ⟨?_, ?_, ?_⟩
  · rintro W _ ⟨hW, rfl⟩
    obtain ⟨m, hr⟩ := isRate_exists p.hydro.lo p.hydro.eos p.hydro.tr p.hydro.geom nx (nghostOf d ng) X W
    rw [globHydro_timeStep hr, one_mul]
    refine globHydro_timeStep ?_
    rw [hcart] at hr ⊢
    have key : ∀ C : Cell, ∃ C', inExt (globExt nx (nghostOf d ng)) C' = true ∧ W C' = W C := fun C =>
      ⟨wrap nx (C - nghostOf d ng) + nghostOf d ng, inExt_of_box ng (by omega) (wrap_mem hpos _), hW.eq (by rw [wrap_wrap_add, sub_add_cancel])⟩
    refine ⟨hr.ge, fun C hC => ?_, ?_⟩
    · obtain ⟨C', h1, h2⟩ := key (C + s)
      rw [rate_uniform hX _ _ _ (W' := fun C => W (C + s)) (C' := C) h2.symm]
      exact hr.le C' h1
    · rcases hr.mem with e | ⟨C, hC, e⟩
      · exact Or.inl e
      · obtain ⟨C', h1, h2⟩ : ∃ C', inExt (globExt nx (nghostOf d ng)) C' = true ∧ W (C' + s) = W C := by
          refine ⟨wrap nx (C - s - nghostOf d ng) + nghostOf d ng, inExt_of_box ng (by omega) (wrap_mem hpos _), hW.eq ?_⟩
          rw [add_assoc, wrap_wrap_add]
          congr 1
          abel
        exact Or.inr ⟨C', h1, by rw [e, rate_uniform hX _ _ _ (W' := fun C => W (C + s)) (C' := C') h2]⟩
  · rintro W _ ⟨hW, rfl⟩
    rw [Bool.eq_iff_iff, globHydro_bad, globHydro_bad]
    constructor
    · rintro ⟨g, hg, hi⟩
      refine ⟨wrap nx (g + s), wrap_mem hpos _, ?_⟩
      rwa [show W (wrap nx (g + s) + nghostOf d ng) = W (g + nghostOf d ng + s) from hW.eq (by rw [wrap_wrap_add]; congr 1; abel)]
    · rintro ⟨g, hg, hi⟩
      refine ⟨wrap nx (g - s), wrap_mem hpos _, ?_⟩
      beta_reduce
      rwa [show W (wrap nx (g - s) + nghostOf d ng + s) = W (g + nghostOf d ng) from hW.eq (by rw [add_assoc, wrap_wrap_add]; congr 1; abel)]
  · rintro W _ ⟨hW, rfl⟩ t dt
    rw [one_mul, one_mul]
    have hself : ∀ k : Cell, (fun C => W (C + nx * k)) = W := fun k => funext fun C => hW C k
    have hper : Repeats nx (progVal p (globGrid p.hydro.tr p.hydro.geom X (Gr W)) t dt W (primGlob p.hydro.eos W)) := fun C k =>
      (progVal_translate hX hd3 hcart t dt (fun C => by
        have := hG W (nx * k) C
        rwa [hself k] at this) (fun C => (hW C k).symm) (fun C => by unfold primGlob; rw [hW C k]) C).symm
    have e1 := bcGlob_periodic (n := n) hb ho nx (nghostOf d ng) fun g =>
      progVal p (globGrid p.hydro.tr p.hydro.geom X (Gr W)) t dt W (primGlob p.hydro.eos W) (g + nghostOf d ng)
    have e2 := bcGlob_periodic (n := n) hb ho' nx (nghostOf d ng) fun g =>
      progVal p (globGrid p.hydro.tr p.hydro.geom X (Gr fun C => W (C + s))) t dt (fun C => W (C + s)) (primGlob p.hydro.eos fun C => W (C + s)) (g + nghostOf d ng)
    refine ⟨?_, ?_⟩
    · intro C k
      refine (congrFun e1 (C + nx * k)).trans (Eq.trans ?_ (congrFun e1 C).symm)
      beta_reduce
      rw [add_sub_right_comm, wrap_add_mul]
    · refine e2.trans (funext fun C => ?_)
      refine Eq.trans ?_ (congrFun e1 (C + s)).symm
      beta_reduce
      rw [progVal_translate hX hd3 hcart t dt (U := W) (U' := fun C => W (C + s)) (up := primGlob p.hydro.eos W) (up' := primGlob p.hydro.eos fun C => W (C + s))
        (fun C => hG W s C) (fun C => rfl) (fun C => rfl)]
      exact hper.eq (by rw [add_assoc, wrap_wrap_add, wrap_wrap_add]; congr 1; abel)

end Heracles

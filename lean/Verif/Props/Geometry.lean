import Verif.Spec.Geometry
import Verif.Props.Moving
import Verif.Props.Reduce

/-!
# C37 Geometric measures
-/

namespace Heracles

/-! ### Closed forms -/

theorem integral_mul_id (C a b : ℝ) : ∫ x in a..b, C * x = C * ((b ^ 2 - a ^ 2) / 2) := by
  rw [intervalIntegral.integral_const_mul, integral_id]

theorem integral_mul_sq (C a b : ℝ) : ∫ x in a..b, C * x ^ 2 = C * ((b ^ 3 - a ^ 3) / 3) := by
  rw [intervalIntegral.integral_const_mul, integral_pow]
  norm_num

theorem integral_mul_sin (C a b : ℝ) : ∫ x in a..b, C * Real.sin x = C * (Real.cos a - Real.cos b) := by
  rw [intervalIntegral.integral_const_mul, integral_sin]

theorem boxVolume_cartesian (lo hi : Fin 3 → ℝ) :
    boxVolume .cartesian lo hi = (hi 0 - lo 0) * (hi 1 - lo 1) * (hi 2 - lo 2) := by
  simp [boxVolume, scaleFactor]
  ring

theorem boxVolume_spherical (lo hi : Fin 3 → ℝ) : boxVolume .spherical lo hi =
    (hi 0 ^ 3 - lo 0 ^ 3) / 3 * (Real.cos (lo 1) - Real.cos (hi 1)) * (hi 2 - lo 2) := by
  have e2 : ∀ q0 q1 : ℝ, ∫ q2 in lo 2..hi 2, scaleFactor .spherical ![q0, q1, q2] 0 * scaleFactor .spherical ![q0, q1, q2] 1
      * scaleFactor .spherical ![q0, q1, q2] 2 = ((hi 2 - lo 2) * (q0 * q0)) * Real.sin q1 := by
    intro q0 q1
    simp only [scaleFactor, Matrix.cons_val_zero, Matrix.cons_val_one, Matrix.cons_val, intervalIntegral.integral_const, smul_eq_mul]
    ring
  have e1 : ∀ q0 : ℝ, ∫ q1 in lo 1..hi 1, ((hi 2 - lo 2) * (q0 * q0)) * Real.sin q1 =
      ((hi 2 - lo 2) * (Real.cos (lo 1) - Real.cos (hi 1))) * q0 ^ 2 := by
    intro q0
    rw [integral_mul_sin]
    ring
  simp only [boxVolume, e2, e1, integral_mul_sq]
  ring

theorem faceArea_cartesian (lo hi : Fin 3 → ℝ) (a : Fin 3) : faceArea .cartesian lo hi a =
    (if a = 0 then 1 else hi 0 - lo 0) * (if a = 1 then 1 else hi 1 - lo 1) * (if a = 2 then 1 else hi 2 - lo 2) := by
  fin_cases a <;> simp [faceArea, scaleFactor] <;> ring

theorem faceArea_r (lo hi : Fin 3 → ℝ) : faceArea .spherical lo hi 0 =
    lo 0 ^ 2 * (Real.cos (lo 1) - Real.cos (hi 1)) * (hi 2 - lo 2) := by
  have e2 : ∀ q1 : ℝ, ∫ q2 in lo 2..hi 2, scaleFactor .spherical ![lo 0, q1, q2] 1 * scaleFactor .spherical ![lo 0, q1, q2] 2 =
      ((hi 2 - lo 2) * (lo 0 * lo 0)) * Real.sin q1 := by
    intro q1
    simp only [scaleFactor, Matrix.cons_val_zero, Matrix.cons_val_one, Matrix.cons_val, intervalIntegral.integral_const, smul_eq_mul]
    ring
  simp only [faceArea, e2, integral_mul_sin]
  ring

theorem faceArea_θ (lo hi : Fin 3 → ℝ) : faceArea .spherical lo hi 1 =
    (hi 0 ^ 2 - lo 0 ^ 2) / 2 * Real.sin (lo 1) * (hi 2 - lo 2) := by
  have e2 : ∀ q0 : ℝ, ∫ q2 in lo 2..hi 2, scaleFactor .spherical ![q0, lo 1, q2] 0 * scaleFactor .spherical ![q0, lo 1, q2] 2 =
      ((hi 2 - lo 2) * Real.sin (lo 1)) * q0 := by
    intro q0
    simp only [scaleFactor, Matrix.cons_val_zero, Matrix.cons_val_one, Matrix.cons_val, intervalIntegral.integral_const, smul_eq_mul]
    ring
  simp only [faceArea, e2, integral_mul_id]
  ring

theorem faceArea_φ (lo hi : Fin 3 → ℝ) : faceArea .spherical lo hi 2 = (hi 0 ^ 2 - lo 0 ^ 2) / 2 * (hi 1 - lo 1) := by
  have e2 : ∀ q0 : ℝ, ∫ q1 in lo 1..hi 1, scaleFactor .spherical ![q0, q1, lo 2] 0 * scaleFactor .spherical ![q0, q1, lo 2] 1 =
      (hi 1 - lo 1) * q0 := by
    intro q0
    simp only [scaleFactor, Matrix.cons_val_zero, Matrix.cons_val_one, intervalIntegral.integral_const, smul_eq_mul]
    ring
  simp only [faceArea, e2, integral_mul_id]
  ring

/-! ### Cells of a rank -/

/-- Node coordinates at the corners of the global cell `c`, `nghost` being the ghost width. -/
def loNode (X : Fin 3 → ℤ → ℝ) (ngh c : Cell) : Fin 3 → ℝ := fun a => X a (c a + ngh a)

def hiNode (X : Fin 3 → ℤ → ℝ) (ngh c : Cell) : Fin 3 → ℝ := fun a => X a (c a + ngh a + 1)

/-- Area of the lower face of the cell. -/
noncomputable def cellFace (geom : Geom) (d : ℕ) (X : Fin 3 → ℤ → ℝ) (ngh c : Cell) (a : Fin 3) : ℝ :=
  faceArea geom (lowerLimit geom d (loNode X ngh c)) (upperLimit geom d (hiNode X ngh c)) a

/-- Volume of the cell. -/
noncomputable def cellVolume (geom : Geom) (d : ℕ) (X : Fin 3 → ℤ → ℝ) (ngh c : Cell) : ℝ :=
  boxVolume geom (lowerLimit geom d (loNode X ngh c)) (upperLimit geom d (hiNode X ngh c))

theorem dvFun_exact (geom : Geom) {d : ℕ} (hd : 1 ≤ d) (hd3 : d ≤ 3) (x : Fin 3 → ℤ → ℝ) (c : Cell) :
    dvFun realTrig geom d x (fun a i => x a (i + 1) - x a i) 0 c =
      boxVolume geom (lowerLimit geom d fun a => x a (c a)) (upperLimit geom d fun a => x a (c a + 1)) := by
  cases geom
  · rw [boxVolume_cartesian]
    rfl
  · rw [boxVolume_spherical]
    have : d = 1 ∨ d = 2 ∨ d = 3 := by omega
    rcases this with rfl | rfl | rfl <;> simp only [dvFun, lowerLimit, upperLimit, realTrig, Matrix.cons_val_zero, Matrix.cons_val_one, Matrix.cons_val, Pi.zero_apply] <;> norm_num [-mul_eq_mul_right_iff, -mul_eq_mul_left_iff] <;> ring

theorem dsFun_exact (geom : Geom) {d : ℕ} (hd3 : d ≤ 3) (x : Fin 3 → ℤ → ℝ) (c : Cell) {a : Fin 3} (ha : a.val < d)
    (hne : geom = .spherical → a ≠ 2) :
    dsFun realTrig geom d x (fun a i => x a (i + 1) - x a i) 0 c a =
      faceArea geom (lowerLimit geom d fun a => x a (c a)) (upperLimit geom d fun a => x a (c a + 1)) a := by
  cases geom
  · rw [faceArea_cartesian]
    rfl
  · have : d = 1 ∨ d = 2 ∨ d = 3 := by omega
    have h2 := hne rfl
    fin_cases a
    · rw [show ((⟨0, by omega⟩ : Fin 3)) = 0 from rfl, faceArea_r]
      rcases this with rfl | rfl | rfl <;> simp only [dsFun, lowerLimit, upperLimit, realTrig, Matrix.cons_val_zero, Matrix.cons_val_one, Matrix.cons_val, Pi.zero_apply] <;> norm_num [-mul_eq_mul_right_iff, -mul_eq_mul_left_iff] <;> ring
    · rw [show ((⟨1, by omega⟩ : Fin 3)) = 1 from rfl, faceArea_θ]
      rcases this with rfl | rfl | rfl
      · simp at ha
      all_goals simp only [dsFun, lowerLimit, upperLimit, realTrig, Matrix.cons_val_zero, Matrix.cons_val_one, Matrix.cons_val, Pi.zero_apply] <;> norm_num [-mul_eq_mul_right_iff, -mul_eq_mul_left_iff] <;> ring
    · exact absurd rfl h2

section
variable {d : ℕ} {geom : Geom} {nx dims rank : Cell} {ng : ℤ} {topo : GridTopo} {r : Range} {l1 : Fin 3 → List ℤ} {l l' : List Cell}

theorem allGhosts_box (hN : ∀ a, 0 ≤ nx a) (hdm : ∀ a, 0 < dims a) (hr : inBox 0 dims rank) (ht : GridTopo.mk? d nx dims rank ng = .ok topo)
    (hrg : topo.range.allGhosts = .ok r) : r.cellBegin d = 0 ∧ r.cellEnd d = topo.nxLocalWg := by
  obtain ⟨e1, e2, e3, e4, e5⟩ := range_box hN hdm hr ht
  obtain ⟨f1, f2⟩ := e5 ng r (by rw [← hrg, Range.allGhosts, e4])
  constructor
  · rw [f1]; funext a; simp [nghostOf]
  · rw [f2]; funext a; simp [nghostOf]

/-- **C37, exactness (all faces but those normal to φ).** On every rank of every decomposition, with the loops in any order, `set_grid`
succeeds; the volume it stores for a cell of the local arrays is the volume of the corresponding cell of the global mesh, and the face areas are
the areas of its lower faces, for every active direction except φ (see `C37_phi_face`). -/
theorem C37_exact_partial (hd : 1 ≤ d) (hd3 : d ≤ 3) (hN : ∀ a, 0 ≤ nx a) (hdm : ∀ a, 0 < dims a) (hr : inBox 0 dims rank)
    (ht : GridTopo.mk? d nx dims rank ng = .ok topo) (h1 : ∀ a, IsLineSchedule (l1 a) (topo.nxLocalWg a)) (hrg : topo.range.allGhosts = .ok r)
    (hl : IsSchedule l (r.cellBegin d) (r.cellEnd d)) (hl' : IsSchedule l' (r.cellBegin d) (r.cellEnd d)) (X : Fin 3 → ℤ → ℝ) :
    ∃ g, setGrid realTrig geom d topo l1 l l' (fun a => View.line (nx a + 2 * topo.nghost a + 1) (X a)) (GridData.alloc topo.nxLocalWg) = some g ∧
      ∀ c, inExt (localExt nx dims (nghostOf d ng) rank) c = true →
        g.dv.rd c = some (cellVolume geom d X (nghostOf d ng) (globalOf nx dims (nghostOf d ng) rank c)) ∧
        ∃ s, g.ds.rd c = some s ∧ ∀ a : Fin 3, a.val < d → (geom = .spherical → a ≠ 2) →
          s a = cellFace geom d X (nghostOf d ng) (globalOf nx dims (nghostOf d ng) rank c) a := by
  obtain ⟨e1, e2, e3, -, -⟩ := range_box hN hdm hr ht
  obtain ⟨fb, fe⟩ := allGhosts_box hN hdm hr ht hrg
  rw [fb, fe] at hl hl'
  obtain ⟨g, hg, hh⟩ := setGrid_holds realTrig geom hN hdm hr ht h1 hl hl' X (GridData.alloc topo.nxLocalWg) (Or.inl rfl)
  refine ⟨g, hg, fun c hc => ?_⟩
  rw [← e1] at hc
  have hlo : (fun a => (g.x a).val (c a)) = loNode X (nghostOf d ng) (globalOf nx dims (nghostOf d ng) rank c) := by
    funext a
    rw [hh.x, e2]
    simp only [loNode, globalOf]
    congr 1
    omega
  have hhi : (fun a => (g.x a).val (c a + 1)) = hiNode X (nghostOf d ng) (globalOf nx dims (nghostOf d ng) rank c) := by
    funext a
    rw [hh.x, e2]
    simp only [hiNode, globalOf]
    congr 1
    omega
  refine ⟨?_, _, View.rd_of_dom (by rw [hh.shape.2.2.1]; exact hc), fun a ha hne => ?_⟩
  · rw [View.rd_of_dom (by rw [hh.shape.2.2.2]; exact hc), hh.dv c hc, dvFun_exact geom hd hd3, hlo, hhi]
    rfl
  · rw [hh.ds c hc, dsFun_exact geom hd3 _ c ha hne, hlo, hhi]
    rfl

/-- **C37, faces normal to φ.** In 3D spherical geometry the stored area of the face normal to φ is short of the exact area by
`Δr² Δθ / 2`: the code uses the inner radius of the cell instead of the mean radius. -/
theorem C37_phi_face (hN : ∀ a, 0 ≤ nx a) (hdm : ∀ a, 0 < dims a) (hr : inBox 0 dims rank)
    (ht : GridTopo.mk? 3 nx dims rank ng = .ok topo) (h1 : ∀ a, IsLineSchedule (l1 a) (topo.nxLocalWg a)) (hrg : topo.range.allGhosts = .ok r)
    (hl : IsSchedule l (r.cellBegin 3) (r.cellEnd 3)) (hl' : IsSchedule l' (r.cellBegin 3) (r.cellEnd 3)) (X : Fin 3 → ℤ → ℝ) :
    ∃ g, setGrid realTrig .spherical 3 topo l1 l l' (fun a => View.line (nx a + 2 * topo.nghost a + 1) (X a)) (GridData.alloc topo.nxLocalWg) = some g ∧
      ∀ c, inExt (localExt nx dims (nghostOf 3 ng) rank) c = true → ∃ s, g.ds.rd c = some s ∧
        cellFace .spherical 3 X (nghostOf 3 ng) (globalOf nx dims (nghostOf 3 ng) rank c) 2 - s 2 =
          (hiNode X (nghostOf 3 ng) (globalOf nx dims (nghostOf 3 ng) rank c) 0 - loNode X (nghostOf 3 ng) (globalOf nx dims (nghostOf 3 ng) rank c) 0) ^ 2
            * (hiNode X (nghostOf 3 ng) (globalOf nx dims (nghostOf 3 ng) rank c) 1
              - loNode X (nghostOf 3 ng) (globalOf nx dims (nghostOf 3 ng) rank c) 1) / 2 := by
  obtain ⟨e1, e2, e3, -, -⟩ := range_box hN hdm hr ht
  obtain ⟨fb, fe⟩ := allGhosts_box hN hdm hr ht hrg
  rw [fb, fe] at hl hl'
  obtain ⟨g, hg, hh⟩ := setGrid_holds realTrig .spherical hN hdm hr ht h1 hl hl' X (GridData.alloc topo.nxLocalWg) (Or.inl rfl)
  refine ⟨g, hg, fun c hc => ?_⟩
  rw [← e1] at hc
  have hlo : ∀ a, loNode X (nghostOf 3 ng) (globalOf nx dims (nghostOf 3 ng) rank c) a = (g.x a).val (c a) := by
    intro a
    rw [hh.x, e2]
    simp only [loNode, globalOf]
    congr 1
    omega
  have hhi : ∀ a, hiNode X (nghostOf 3 ng) (globalOf nx dims (nghostOf 3 ng) rank c) a = (g.x a).val (c a + 1) := by
    intro a
    rw [hh.x, e2]
    simp only [hiNode, globalOf]
    congr 1
    omega
  refine ⟨_, View.rd_of_dom (by rw [hh.shape.2.2.1]; exact hc), ?_⟩
  rw [hh.ds c hc, cellFace, faceArea_φ]
  simp [dsFun, lowerLimit, upperLimit, hlo, hhi]
  ring

/-- The full statement of the exactness half of C37 is false: a 3D spherical mesh with one cell `1 ≤ r ≤ 2` has a φ face smaller than the exact
one (its stored area is 2/3 of it). -/
theorem C37_violated : ∃ (X : Fin 3 → ℤ → ℝ) (topo : GridTopo) (r : Range) (g : GridData ℝ) (c : Cell) (s : Fin 3 → ℝ),
    (∀ a, StrictMono (X a)) ∧ GridTopo.mk? 3 ![1, 1, 1] ![1, 1, 1] 0 0 = .ok topo ∧ topo.range.allGhosts = .ok r ∧
      setGrid realTrig .spherical 3 topo (fun a => intRange 0 (topo.nxLocalWg a)) (boxList (r.cellBegin 3) (r.cellEnd 3))
        (boxList (r.cellBegin 3) (r.cellEnd 3)) (fun a => View.line (2 : ℤ) (X a)) (GridData.alloc topo.nxLocalWg) = some g ∧
      g.ds.rd c = some s ∧ s 2 = 2 / 3 * cellFace .spherical 3 X 0 c 2 ∧ s 2 ≠ cellFace .spherical 3 X 0 c 2 := by
  let X : Fin 3 → ℤ → ℝ := fun a i => if a = 0 then i + 1 else i
  have hX : ∀ a, StrictMono (X a) := by
    intro a i j h
    have h' : (i : ℝ) < j := by exact_mod_cast h
    simp only [X]
    split
    · linarith
    · exact h'
  obtain ⟨topo, ht, -, -, -, e4, e5, -⟩ := GridTopo.mk?_ok (ndim := 3) (nx := ![1, 1, 1]) (dims := ![1, 1, 1]) (rank := 0) (ng := 0)
    (by decide) (by decide) (by decide)
  have hn : nghostOf 3 0 = 0 := by funext a; simp [nghostOf]
  have hn' : topo.nghost = 0 := by rw [e4]; exact hn
  have hrg : ∃ r, topo.range.allGhosts = .ok r := by
    obtain ⟨-, -, -, h4, -⟩ := range_box (d := 3) (nx := ![1, 1, 1]) (dims := ![1, 1, 1]) (rank := 0) (ng := 0) (by decide) (by decide) (by decide) ht
    unfold Range.allGhosts Range.withGhosts
    rw [h4]
    exact ⟨_, if_neg (by omega)⟩
  obtain ⟨r, hrg⟩ := hrg
  obtain ⟨g, hg, hh⟩ := C37_phi_face (nx := ![1, 1, 1]) (dims := ![1, 1, 1]) (rank := 0) (ng := 0) (by decide) (by decide) (by decide) ht
    (l1 := fun a => intRange 0 (topo.nxLocalWg a)) (fun a => ⟨intRange_nodup _ _, fun i => mem_intRange⟩) hrg (boxList_isSchedule _ _)
    (boxList_isSchedule _ _) X
  obtain ⟨s, hs, he⟩ := hh 0 (inExt_iff.2 (by decide))
  have hz : globalOf ![1, 1, 1] ![1, 1, 1] (nghostOf 3 0) 0 0 = 0 := by decide
  rw [hz, hn] at he
  have hA : cellFace .spherical 3 X 0 0 2 = 3 / 2 := by
    rw [cellFace, faceArea_φ]
    simp [lowerLimit, upperLimit, loNode, hiNode, X]
    norm_num
  rw [hA] at he
  have hs2 : s 2 = 1 := by
    simp [loNode, hiNode, X] at he
    norm_num at he
    linarith
  refine ⟨X, topo, r, g, 0, s, hX, ht, hrg, ?_, hs, ?_, ?_⟩
  · rw [← hg]
    congr 1
    funext a
    rw [hn']
    fin_cases a <;> rfl
  · rw [hA, hs2]; norm_num
  · rw [hA, hs2]; norm_num

end

/-! ### Positivity -/

/-- A mesh that makes sense in the given geometry: in spherical coordinates radii are not negative and colatitudes are in `[0, π]`. -/
structure Mesh (geom : Geom) (d : ℕ) (nx ngh : Cell) (X : Fin 3 → ℤ → ℝ) : Prop where
  mono : ∀ a, StrictMono (X a)
  radius : geom = .spherical → 0 ≤ X 0 (ngh 0)
  colat : geom = .spherical → 2 ≤ d → 0 ≤ X 1 (ngh 1) ∧ X 1 (nx 1 + ngh 1) ≤ Real.pi

/-- **C37, positivity.** Volumes of interior cells are positive. Areas of their lower faces are positive, except on the axis: they vanish at
`r = 0` (for the faces normal to `r`) and at `θ = 0` (for those normal to `θ`). -/
theorem C37_positive {geom : Geom} {d : ℕ} (hd : 1 ≤ d) (hd3 : d ≤ 3) {nx ngh : Cell} {X : Fin 3 → ℤ → ℝ} (hX : Mesh geom d nx ngh X) {c : Cell}
    (hc : inBox 0 nx c) :
    0 < cellVolume geom d X ngh c ∧ ∀ a : Fin 3, a.val < d → 0 ≤ cellFace geom d X ngh c a ∧
      (0 < cellFace geom d X ngh c a ↔ ¬ (geom = .spherical ∧ (a = 0 ∧ loNode X ngh c 0 = 0 ∨ a = 1 ∧ loNode X ngh c 1 = 0))) := by
  have hlt : ∀ a, loNode X ngh c a < hiNode X ngh c a := fun a => hX.mono a (by omega)
  cases geom
  · constructor
    · rw [cellVolume, boxVolume_cartesian]
      exact mul_pos (mul_pos (sub_pos.2 (hlt 0)) (sub_pos.2 (hlt 1))) (sub_pos.2 (hlt 2))
    · intro a _
      have : 0 < cellFace .cartesian d X ngh c a := by
        rw [cellFace, faceArea_cartesian]
        have h0 := sub_pos.2 (hlt 0)
        have h1 := sub_pos.2 (hlt 1)
        have h2 := sub_pos.2 (hlt 2)
        simp only [lowerLimit, upperLimit]
        refine mul_pos (mul_pos ?_ ?_) ?_ <;> split <;> first | exact one_pos | assumption
      refine ⟨this.le, ?_⟩
      simp [this]
  · set lo := lowerLimit .spherical d (loNode X ngh c) with hlo
    set hi := upperLimit .spherical d (hiNode X ngh c) with hhi
    have r0 : 0 ≤ lo 0 := by
      have h1 := hX.radius rfl
      have h2 := (hX.mono 0).monotone (show ngh 0 ≤ c 0 + ngh 0 by have := (hc 0).1; simp only [Pi.zero_apply] at this; omega)
      exact h1.trans h2
    have r1 : lo 0 < hi 0 := hlt 0
    have t0 : 0 ≤ lo 1 ∧ lo 1 < hi 1 ∧ hi 1 ≤ Real.pi := by
      by_cases h : d < 2
      · simp only [hlo, hhi, lowerLimit, upperLimit, Matrix.cons_val_one, Matrix.cons_val_zero, if_pos h]
        exact ⟨le_rfl, Real.pi_pos, le_rfl⟩
      · simp only [hlo, hhi, lowerLimit, upperLimit, Matrix.cons_val_one, Matrix.cons_val_zero, if_neg h]
        obtain ⟨h1, h2⟩ := hX.colat rfl (by omega)
        have hc1 := hc 1
        simp only [Pi.zero_apply] at hc1
        exact ⟨h1.trans ((hX.mono 1).monotone (by omega)), hlt 1, ((hX.mono 1).monotone (by omega)).trans h2⟩
    have p0 : lo 2 < hi 2 := by
      by_cases h : d < 3
      · simp only [hlo, hhi, lowerLimit, upperLimit, Matrix.cons_val, if_pos h]
        exact mul_pos two_pos Real.pi_pos
      · simp only [hlo, hhi, lowerLimit, upperLimit, Matrix.cons_val, if_neg h]
        exact hlt 2
    have hcos : 0 < Real.cos (lo 1) - Real.cos (hi 1) := by
      have := Real.strictAntiOn_cos ⟨t0.1, (t0.2.1.trans_le t0.2.2).le⟩ ⟨(t0.1.trans_lt t0.2.1).le, t0.2.2⟩ t0.2.1
      linarith
    have hr2 : 0 < (hi 0 ^ 2 - lo 0 ^ 2) / 2 := by nlinarith
    have hr3 : 0 < (hi 0 ^ 3 - lo 0 ^ 3) / 3 := by
      have := pow_lt_pow_left₀ r1 r0 (n := 3) (by norm_num)
      linarith
    constructor
    · rw [cellVolume, boxVolume_spherical]
      exact mul_pos (mul_pos hr3 hcos) (sub_pos.2 p0)
    · intro a ha
      have h0 : lo 0 = loNode X ngh c 0 := rfl
      fin_cases a
      · show 0 ≤ faceArea .spherical lo hi 0 ∧ (0 < faceArea .spherical lo hi 0 ↔ _)
        rw [faceArea_r, ← h0]
        have hk := mul_pos hcos (sub_pos.2 p0)
        rw [mul_assoc]
        refine ⟨mul_nonneg (sq_nonneg _) hk.le, ?_⟩
        simp only [Fin.zero_eta, Fin.isValue, true_and, zero_ne_one, false_and, or_false]
        constructor
        · intro h e
          rw [e] at h
          simp at h
        · intro h
          exact mul_pos (pow_pos (lt_of_le_of_ne r0 (Ne.symm h)) 2) hk
      · show 0 ≤ faceArea .spherical lo hi 1 ∧ (0 < faceArea .spherical lo hi 1 ↔ _)
        have hd2 : ¬ d < 2 := by simp at ha; omega
        have h1 : lo 1 = loNode X ngh c 1 := by
          simp only [hlo, lowerLimit, Matrix.cons_val_one, Matrix.cons_val_zero, if_neg hd2]
        rw [faceArea_θ, ← h1]
        have hk := mul_pos hr2 (sub_pos.2 p0)
        have hs : 0 ≤ Real.sin (lo 1) := Real.sin_nonneg_of_nonneg_of_le_pi t0.1 (t0.2.1.le.trans t0.2.2)
        rw [mul_right_comm]
        refine ⟨mul_nonneg hk.le hs, ?_⟩
        simp only [Fin.mk_one, Fin.isValue, one_ne_zero, false_and, true_and, false_or]
        constructor
        · intro h e
          rw [e] at h
          simp at h
        · intro h
          exact mul_pos hk (Real.sin_pos_of_pos_of_lt_pi (lt_of_le_of_ne t0.1 (Ne.symm h)) (t0.2.1.trans_le t0.2.2))
      · show 0 ≤ faceArea .spherical lo hi 2 ∧ (0 < faceArea .spherical lo hi 2 ↔ _)
        rw [faceArea_φ]
        have hk := mul_pos hr2 (sub_pos.2 t0.2.1)
        refine ⟨hk.le, ?_⟩
        simp [hk]

/-! ### Total volume -/

theorem ico_telescope (F : ℤ → ℝ) (m : ℕ) : ∑ i ∈ Finset.Ico (0 : ℤ) (m : ℤ), (F (i + 1) - F i) = F m - F 0 := by
  induction m with
  | zero => simp
  | succ m ih =>
    have : Finset.Ico (0 : ℤ) ((m + 1 : ℕ) : ℤ) = insert (m : ℤ) (Finset.Ico (0 : ℤ) (m : ℤ)) := by
      ext i
      simp only [Finset.mem_Ico, Finset.mem_insert]
      push_cast
      omega
    rw [this, Finset.sum_insert (by simp), ih]
    push_cast
    ring

theorem cells_prod (nx : Cell) (hN : ∀ a, 0 ≤ nx a) (F : Fin 3 → ℤ → ℝ) :
    ∑ c ∈ cells 0 nx, (F 0 (c 0 + 1) - F 0 (c 0)) * (F 1 (c 1 + 1) - F 1 (c 1)) * (F 2 (c 2 + 1) - F 2 (c 2)) =
      (F 0 (nx 0) - F 0 0) * (F 1 (nx 1) - F 1 0) * (F 2 (nx 2) - F 2 0) := by
  have h := Finset.prod_univ_sum (fun a : Fin 3 => Finset.Ico (0 : ℤ) (nx a)) fun a i => F a (i + 1) - F a i
  simp only [Fin.prod_univ_three] at h
  have ht : ∀ a, ∑ i ∈ Finset.Ico (0 : ℤ) (nx a), (F a (i + 1) - F a i) = F a (nx a) - F a 0 := by
    intro a
    obtain ⟨m, hm⟩ := Int.eq_ofNat_of_zero_le (hN a)
    rw [hm]
    exact ico_telescope (F a) m
  rw [ht, ht, ht] at h
  rw [h]
  rfl

/-- The cell volumes of a mesh add up to the volume of the domain. In spherical coordinates the directions that are not simulated must have one
cell. -/
theorem sum_cellVolume {geom : Geom} {d : ℕ} {nx ngh : Cell} (hN : ∀ a, 0 ≤ nx a)
    (hone : geom = .spherical → ∀ a : Fin 3, d ≤ a.val → nx a = 1) (X : Fin 3 → ℤ → ℝ) :
    ∑ c ∈ cells 0 nx, cellVolume geom d X ngh c =
      boxVolume geom (lowerLimit geom d fun a => X a (ngh a)) (upperLimit geom d fun a => X a (nx a + ngh a)) := by
  cases geom
  · have := cells_prod nx hN fun a i => X a (i + ngh a)
    simp only [zero_add] at this
    rw [boxVolume_cartesian]
    refine Eq.trans (Finset.sum_congr rfl fun c _ => ?_) this
    rw [cellVolume, boxVolume_cartesian]
    simp only [lowerLimit, upperLimit, loNode, hiNode, add_right_comm]
  · let F : Fin 3 → ℤ → ℝ := ![fun i => X 0 (i + ngh 0) ^ 3 / 3,
      fun i => if d < 2 then 2 * (i : ℝ) else - Real.cos (X 1 (i + ngh 1)),
      fun i => if d < 3 then 2 * Real.pi * (i : ℝ) else X 2 (i + ngh 2)]
    have := cells_prod nx hN F
    rw [boxVolume_spherical]
    refine Eq.trans (Finset.sum_congr rfl fun c _ => ?_) (this.trans ?_)
    · rw [cellVolume, boxVolume_spherical]
      simp only [lowerLimit, upperLimit, loNode, hiNode, F, Matrix.cons_val_zero, Matrix.cons_val_one, Matrix.cons_val, add_right_comm]
      congr 1
      · congr 1
        · ring
        · split
          · rw [Real.cos_zero, Real.cos_pi]; push_cast; ring
          · ring
      · split
        · push_cast; ring
        · ring
    · simp only [lowerLimit, upperLimit, F, Matrix.cons_val_zero, Matrix.cons_val_one, Matrix.cons_val, zero_add]
      congr 1
      · congr 1
        · ring
        · by_cases h : d < 2
          · simp only [if_pos h]
            rw [Real.cos_zero, Real.cos_pi, hone rfl 1 (by simp; omega)]
            push_cast
            ring
          · simp only [if_neg h]
            ring
      · by_cases h : d < 3
        · simp only [if_pos h]
          rw [hone rfl 2 (by simp; omega)]
          push_cast
          ring
        · simp only [if_neg h]

/-- **C37, total volume.** On every decomposition, the volumes stored by the ranks for their interior cells add up to the exact volume of
the domain. -/
theorem C37_total_volume {geom : Geom} {d : ℕ} (hd : 1 ≤ d) (hd3 : d ≤ 3) {nx dims : Cell} {ng : ℤ} (hng : 0 ≤ ng) (hN : ∀ a, 0 ≤ nx a)
    (hdm : ∀ a, 0 < dims a) (hone : geom = .spherical → ∀ a : Fin 3, d ≤ a.val → nx a = 1) (X : Fin 3 → ℤ → ℝ)
    {topo : Cell → GridTopo} {r : Cell → Range} {l1 : Cell → Fin 3 → List ℤ} {l l' : Cell → List Cell} {g : Cell → GridData ℝ}
    (h : ∀ rank, inBox 0 dims rank → GridTopo.mk? d nx dims rank ng = .ok (topo rank) ∧
      (∀ a, IsLineSchedule (l1 rank a) ((topo rank).nxLocalWg a)) ∧ (topo rank).range.allGhosts = .ok (r rank) ∧
      IsSchedule (l rank) ((r rank).cellBegin d) ((r rank).cellEnd d) ∧ IsSchedule (l' rank) ((r rank).cellBegin d) ((r rank).cellEnd d) ∧
      setGrid realTrig geom d (topo rank) (l1 rank) (l rank) (l' rank) (fun a => View.line (nx a + 2 * (topo rank).nghost a + 1) (X a))
        (GridData.alloc (topo rank).nxLocalWg) = some (g rank)) :
    ∑ rank ∈ cells 0 dims, ∑ c ∈ cells (interiorBegin d ng) (interiorEnd d nx dims rank ng), (g rank).dv.val c =
      boxVolume geom (lowerLimit geom d fun a => X a (nghostOf d ng a)) (upperLimit geom d fun a => X a (nx a + nghostOf d ng a)) := by
  rw [← sum_cellVolume hN hone, ← sum_ranks d ng hN hdm]
  refine Finset.sum_congr rfl fun rank hrank => Finset.sum_congr rfl fun c hc => ?_
  rw [mem_cells] at hrank hc
  obtain ⟨a1, a2, a3, a4, a5, a6⟩ := h rank hrank
  obtain ⟨g', hg', hh⟩ := C37_exact_partial (geom := geom) hd hd3 hN hdm hrank a1 a2 a3 a4 a5 X
  rw [a6] at hg'
  cases hg'
  have hin : inExt (localExt nx dims (nghostOf d ng) rank) c = true := by
    refine inExt_iff.2 fun a => ?_
    have h1 := hc a
    have h2 : 0 ≤ nghostOf d ng a := by unfold nghostOf; split <;> omega
    simp only [interiorBegin, interiorEnd] at h1
    unfold localExt
    omega
  have := (hh c hin).1
  unfold View.rd at this
  split at this
  · simpa using this
  · cases this

/-- A sphere of radius 2 in two shells: the hypotheses can be met, and the volumes add up to `4 π 8 / 3`. -/
example : Mesh .spherical 1 ![2, 1, 1] (nghostOf 1 2) (fun _ i => (i : ℝ) - 2) ∧
    boxVolume .spherical (lowerLimit .spherical 1 fun a => ((nghostOf 1 2 a : ℤ) : ℝ) - 2)
      (upperLimit .spherical 1 fun a => (((![2, 1, 1] : Cell) a + nghostOf 1 2 a : ℤ) : ℝ) - 2) = 4 * Real.pi * 2 ^ 3 / 3 := by
  constructor
  · refine ⟨fun a i j h => ?_, fun _ => ?_, fun _ h => absurd h (by omega)⟩
    · have : (i : ℝ) < j := by exact_mod_cast h
      linarith
    · simp [nghostOf]
  · rw [boxVolume_spherical]
    simp [lowerLimit, upperLimit, nghostOf]
    ring

/-- A mesh of a spherical wedge away from the axis in three dimensions. -/
example : Mesh .spherical 3 ![4, 2, 3] (nghostOf 3 2) (fun a i => if a = 0 then (i : ℝ) - 1 else ((i : ℝ) - 1) / 2) ∧
    inBox 0 ![4, 2, 3] (![3, 1, 2] : Cell) := by
  refine ⟨⟨fun a i j h => ?_, fun _ => ?_, fun _ _ => ?_⟩, by decide⟩
  · have : (i : ℝ) < j := by exact_mod_cast h
    split <;> linarith
  · simp [nghostOf]
  · simp [nghostOf]
    have := Real.pi_gt_three
    constructor <;> norm_num
    linarith

end Heracles

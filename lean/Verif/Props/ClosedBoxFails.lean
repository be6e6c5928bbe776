import Verif.Props.ClosedBox
import Verif.Props.PositivityFails

/-!
# A wall under gravity

C75 fails when gravity points into a reflexive wall: the predictor accelerates the ghost cell in the same direction as the cell it mirrors, so
the states on the two sides of the wall are no longer mirror images and gas goes through the wall.
-/

namespace Heracles

/-- The unit grid in one dimension under a uniform gravity `g`. -/
noncomputable def heavyGrid (tr : Trig ℝ) (g : ℝ) : PGrid 1 ℝ := globGrid tr .cartesian (fun _ i => (i : ℝ)) fun _ _ => g

/-- Densities of two cells (numbers 2 and 3) between reflexive walls, with two ghost cells on either side. -/
noncomputable def closedRho (i : ℤ) : ℝ := if i = 1 ∨ i = 2 ∨ i = 5 then 2 else 1

/-- Gas at rest at uniform pressure `1` between the walls. -/
noncomputable def closedGas (i : ℤ) : Fields 1 0 ℝ := st2 (closedRho i) 0 1

theorem closedRho_pos (i : ℤ) : 0 < closedRho i := by
  unfold closedRho
  split <;> norm_num

theorem closedRho_at : closedRho 0 = 1 ∧ closedRho 1 = 2 ∧ closedRho 2 = 2 ∧ closedRho 3 = 1 ∧ closedRho 4 = 1 ∧ closedRho 5 = 2 := by
  refine ⟨?_, ?_, ?_, ?_, ?_, ?_⟩ <;> simp [closedRho]

/-- The predicted faces of a cell at rest without slopes. -/
theorem heavy_faces (lim : Limiter) (tr : Trig ℝ) (g dt : ℝ) {c : Cell}
    (hc : (closedRho (c 0) - closedRho (c 0 - 1)) * (closedRho (c 0 + 1) - closedRho (c 0)) ≤ 0) :
    recVal lim twoGas tr .cartesian (heavyGrid tr g) dt (fun c => closedGas (c 0)) (fun _ => ⟨fun _ => 0, 1⟩) c =
      fun _ _ => ⟨closedRho (c 0), fun _ => dt * g * closedRho (c 0), 1, Fin.elim0⟩ := by
  have hr := closedRho_pos (c 0)
  have q1 : ∀ side (a : Fin 1), reconVal lim (heavyGrid tr g).dx (fun c => (closedGas (c 0)).rho) c side a = closedRho (c 0) := fun side a =>
    (unitGrid_recon tr lim (fun i => closedRho i) c side a).trans (reconFace_flat lim hc side)
  have q2 : ∀ (x : ℝ) side (a : Fin 1), reconVal lim (heavyGrid tr g).dx (fun _ => x) c side a = x := fun x side a =>
    (unitGrid_recon tr lim (fun _ => x) c side a).trans (reconFace_flat lim (by simp) side)
  have f1 : faceUP lim (heavyGrid tr g) (fun _ => ⟨fun _ => 0, 1⟩) c = fun _ _ => (⟨fun _ => 0, 1⟩ : VelPres 1 ℝ) := by
    funext side a
    unfold faceUP
    simp only [q2]
  have f2 : faceFields lim twoGas (heavyGrid tr g) (fun c => closedGas (c 0)) (fun _ => ⟨fun _ => 0, 1⟩) c =
      fun _ _ => (⟨closedRho (c 0), fun _ => 0, 1, Fin.elim0⟩ : Fields 1 0 ℝ) := by
    funext side a
    unfold faceFields
    rw [f1]
    simp only [q1, toCons, Prim.ek, twoGas_evol hr, Fields.mk.injEq, true_and]
    exact ⟨funext fun _ => by ring, by simp, funext fun i => i.elim0⟩
  funext side a
  unfold recVal
  rw [f1, f2]
  have ha : (ax (0 : Fin 1) : Fin 3) = 0 := rfl
  unfold hanVal
  simp only [Fin.sum_univ_one, fluxDiff, momDiff, PGrid.dirGeo, heavyGrid, globGrid, dsFun, dvFun, fluxPrim, facePrim, Prim.ek, twoGas_evol hr, ha]
  refine Fields.ext ?_ (funext fun i => ?_) ?_ (funext fun i => i.elim0)
  · simp
  · fin_cases i
    simp
  · simp

/-- C75 fails under gravity, for every limiter and every Riemann solver: a gas with `γ = 2` at rest, in two cells of unit length between two
reflexive walls, densities 2 and 1, pressure 1, gravity `-1`, time step `1/10`. The ghost cells mirror the cells inside, with reversed
momentum, but gravity is the same on both sides of a wall. The step takes a mass of 1/200 out of the box. -/
theorem C75_gravity_violated (lim : Limiter) (sol : Solver) (tr : Trig ℝ) : ∃ (U : Cell → Fields 1 0 ℝ) (up : Cell → VelPres 1 ℝ),
    (∀ c, 0 < (U c).rho ∧ 0 < (U c).cons.pressure twoGas) ∧
    (∀ c, (∀ i, (up c).u i = (U c).rhou i / (U c).rho) ∧ (up c).P = (U c).cons.pressure twoGas) ∧
    (∀ i, 0 ≤ i → i < 2 → U ![i, 0, 0] = (U ![3 - i, 0, 0]).flip 0) ∧ (∀ i, 4 ≤ i → i < 6 → U ![i, 0, 0] = (U ![7 - i, 0, 0]).flip 0) ∧
    (∀ c, 2 * (1 / 10) * (|(up c).u 0| + twoGas.sound (U c).rho (up c).P) ≤ 1) ∧
    ∀ {g : GridData ℝ} {grav : GravField 1 ℝ} {sc : RecScheds 1 0} {l l' : List Cell}, StepOk g grav ![6, 1, 1] (heavyGrid tr (-1)) 2 sc l l' →
    ∀ upRec rec new, ∃ out, hydroStep lim sol twoGas tr .cartesian g grav (1 / 10) sc l l' ⟨inExt ![6, 1, 1], U⟩ ⟨inExt ![6, 1, 1], up⟩ ⟨inExt ![6, 1, 1], upRec⟩
        ⟨inExt ![6, 1, 1], rec⟩ ⟨inExt ![6, 1, 1], new⟩ = some ⟨inExt ![6, 1, 1], out⟩ ∧
      (U ![2, 0, 0]).rho + (U ![3, 0, 0]).rho = 3 ∧ (out ![2, 0, 0]).rho + (out ![3, 0, 0]).rho = 3 - 1 / 200 := by
  obtain ⟨r0, r1, r2, r3, r4, r5⟩ := closedRho_at
  refine ⟨fun c => closedGas (c 0), fun _ => ⟨fun _ => 0, 1⟩, fun c => ⟨closedRho_pos _, ?_⟩, fun c => ⟨fun i => ?_, ?_⟩, fun i h1 h2 => ?_, fun i h1 h2 => ?_, fun c => ?_,
    fun {g grav sc l l'} h upRec rec new => ?_⟩
  · show 0 < (closedGas (c 0)).cons.pressure twoGas
    rw [closedGas, st2_pressure (closedRho_pos _)]; exact one_pos
  · simp [closedGas, st2]
  · show (1 : ℝ) = (closedGas (c 0)).cons.pressure twoGas
    rw [closedGas, st2_pressure (closedRho_pos _)]
  · obtain rfl | rfl : i = 0 ∨ i = 1 := by omega
    all_goals
      simp only [Matrix.cons_val_zero, closedGas]
      norm_num [r0, r1, r2, r3]
      refine Fields.ext rfl (funext fun j => ?_) rfl rfl
      simp [Fields.flip, st2]
  · obtain rfl | rfl : i = 4 ∨ i = 5 := by omega
    all_goals
      simp only [Matrix.cons_val_zero, closedGas]
      norm_num [r5, r4, r2, r3]
      refine Fields.ext rfl (funext fun j => ?_) rfl rfl
      simp [Fields.flip, st2]
  · have : twoGas.sound (closedRho (c 0)) 1 ≤ 2 := by
      rw [twoGas_sound]
      refine Real.sqrt_le_iff.2 ⟨by norm_num, ?_⟩
      rw [div_le_iff₀ (closedRho_pos _)]
      have : 1 ≤ closedRho (c 0) := by unfold closedRho; split <;> norm_num
      linarith
    simp only [abs_zero, zero_add, closedGas, st2]
    linarith
  · refine ⟨_, h.step lim sol twoGas tr .cartesian _ _ _ upRec rec new, ?_, ?_⟩
    · show closedRho 2 + closedRho 3 = 3
      rw [r2, r3]; norm_num
    have hb : ∀ i : ℤ, i = 2 ∨ i = 3 → layer 1 (![6, 1, 1] : Cell) 2 ![i, 0, 0] := by
      rintro i (rfl | rfl) <;> intro a <;> fin_cases a <;> simp [nghostOf]
    simp only [if_pos (hb 2 (.inl rfl)), if_pos (hb 3 (.inr rfl))]
    have F := fun (i : ℤ) (hi : 1 ≤ i ∧ i ≤ 4) => heavy_faces lim tr (-1) (1 / 10 / 2) (c := ![i, 0, 0]) (by
      obtain rfl | rfl | rfl | rfl : i = 1 ∨ i = 2 ∨ i = 3 ∨ i = 4 := by omega
      all_goals
        simp only [Matrix.cons_val_zero]
        norm_num [r0, r1, r2, r3, r4, r5])
    have N : ∀ i s : ℤ, nb ![i, 0, 0] (ax (0 : Fin 1)) s = ![i + s, 0, 0] := by
      intro i s
      funext j
      fin_cases j <;> rfl
    have flux : ∀ r : ℝ, (r = 1 ∨ r = 2) → (sol.flux twoGas (⟨r, fun _ => 1 / 10 / 2 * -1 * r, 1, Fin.elim0⟩ : Fields 1 0 ℝ).cons
        (⟨r, fun _ => 1 / 10 / 2 * -1 * r, 1, Fin.elim0⟩ : Fields 1 0 ℝ).cons 0).rho = -(r / 20) := by
      intro r hr
      have hr0 : 0 < r := by rcases hr with rfl | rfl <;> norm_num
      have hA : (⟨r, fun _ => 1 / 10 / 2 * -1 * r, 1, Fin.elim0⟩ : Fields 1 0 ℝ).cons.Adm twoGas := by
        refine ⟨hr0, ?_⟩
        rw [Cons.pressure, Fields.cons, twoGas_pres hr0]
        simp only [Cons.eint, Fields.cons, Fin.sum_univ_one]
        rcases hr with rfl | rfl <;> norm_num
      have he : twoGas.Lawful := PerfectGas.lawful sampleGas_physical
      rw [C24_consistency sol he hA]
      simp only [physFlux, eulerFlux, Fields.cons]
      field_simp
      try norm_num
    unfold stepVal godVal
    simp only [Fin.sum_univ_one, N, show (2 : ℤ) + -1 = 1 from rfl, show (2 : ℤ) + 1 = 3 from rfl, show (3 : ℤ) + -1 = 2 from rfl, show (3 : ℤ) + 1 = 4 from rfl]
    simp only [F 1 (by norm_num), F 2 (by norm_num), F 3 (by norm_num), F 4 (by norm_num), Matrix.cons_val_zero, r1, r2, r3, r4]
    have ha : (ax (0 : Fin 1) : Fin 3) = 0 := rfl
    have f1 := flux 1 (.inl rfl)
    have f2 := flux 2 (.inr rfl)
    norm_num only at f1 f2 ⊢
    simp only [fluxDiff, PGrid.dirGeo, heavyGrid, globGrid, dsFun, dvFun, ha, closedGas, st2, r2, r3, f1, f2]
    norm_num
    try ring

/-- The arrays of the theorem exist: van Leer limiter and HLLC. -/
example (tr : Trig ℝ) : ∃ (U out : Cell → Fields 1 0 ℝ) (up : Cell → VelPres 1 ℝ) (g : GridData ℝ) (grav : GravField 1 ℝ) (sc : RecScheds 1 0) (l l' : List Cell)
    (upRec : FaceArr 1 (VelPres 1 ℝ)) (rec : FaceArr 1 (Fields 1 0 ℝ)),
    hydroStep .vanLeer .hllc twoGas tr .cartesian g grav (1 / 10) sc l l' ⟨inExt ![6, 1, 1], U⟩ ⟨inExt ![6, 1, 1], up⟩ upRec rec ⟨inExt ![6, 1, 1], U⟩ =
      some ⟨inExt ![6, 1, 1], out⟩ ∧
    (out ![2, 0, 0]).rho + (out ![3, 0, 0]).rho < (U ![2, 0, 0]).rho + (U ![3, 0, 0]).rho := by
  obtain ⟨U, up, -, -, -, -, -, h⟩ := C75_gravity_violated .vanLeer .hllc tr
  obtain ⟨out, e, h1, h2⟩ := h (globStepOk (by norm_num) (le_refl 2) (heavyGrid tr (-1)) ![6, 1, 1]) (fun _ _ _ => ⟨0, 0⟩) (fun _ _ _ => ⟨0, 0, 0, 0⟩) U
  exact ⟨U, out, up, _, _, _, _, _, _, _, e, by rw [h1, h2]; norm_num⟩

end Heracles

import Verif.Props.Initial
import Verif.Props.Thermo

/-!
# C67: the boundary conditions of the stratified setups continue the initial state
-/

namespace Heracles

variable {d : ℕ}

/-- A loop that writes `T c` in every cell of a box. -/
theorem parFor_write {l : List Cell} {b e : Cell} (hl : IsSchedule l b e) {ext : Cell} (hb : ∀ c, inBox b e c → inExt ext c = true)
    {v : View Cell (Fields d 0 ℝ)} (hv : v.dom = inExt ext) (T : Cell → Fields d 0 ℝ)
    {body : Cell → View Cell (Fields d 0 ℝ) → Option (View Cell (Fields d 0 ℝ))}
    (hbody : ∀ c, inBox b e c → ∀ w : View Cell (Fields d 0 ℝ), w.dom = v.dom → ∀ s, w.rd c = some s → body c w = w.wr c (T c)) :
    ∃ w, parFor l body v = some w ∧ w.dom = v.dom ∧ (∀ c, inBox b e c → w.val c = T c) ∧ ∀ c, ¬ inBox b e c → w.val c = v.val c := by
  refine ⟨_, parFor_update l hl.1 v body T fun c hc w hw1 hw2 => ?_, rfl, fun c hc => ?_, fun c hc => ?_⟩
  · have hin : w.dom c = true := by rw [hw1, hv]; exact hb c ((hl.2 c).1 hc)
    rw [hbody c ((hl.2 c).1 hc) w hw1 _ (View.rd_of_dom hin)]
    exact View.wr_of_dom hin
  · exact if_pos ((hl.2 c).2 hc)
  · exact if_neg (fun h => hc ((hl.2 c).1 h))

theorem slab_inExt {ext : Cell} {ng : ℤ} {a : Fin 3} (ha : ng ≤ ext a) {face : Fin 2} {c : Cell}
    (hc : inBox (slabBegin ext ng a face) (slabEnd ext ng a face) c) : inExt ext c = true := by
  refine inExt_iff.2 fun b => ?_
  have h := hc b
  by_cases hb : b = a
  · subst hb
    simp only [slabBegin, slabEnd, Function.update_self] at h
    split at h <;> omega
  · simpa [slabBegin, slabEnd, Function.update_of_ne hb] using h

/-- The energy written in a ghost cell against that of the state `(r, u0, P(r, T0))`. -/
theorem ghost_energy {G : Gas} (hG : G.Physical) {r : ℝ} (hr : 0 < r) (u0 T0 : ℝ) :
    PerfectGas.evolFromTemp G r T0 = (fieldsOf (PerfectGas.toEoS G)
      (⟨r, fun _ => u0, PerfectGas.presFromTemp G r T0, 0⟩ : InitCell d 0)).E - d * (r * u0 ^ 2 / 2) := by
  obtain ⟨q1, -, q3, q4⟩ := C17_perfect_gas_law hG hr
  simp only [fieldsOf, toCons, Prim.ek, PerfectGas.toEoS]
  rw [q1, q3, q4, Finset.sum_const, Finset.card_univ, Fintype.card_fin, nsmul_eq_mul]
  ring

theorem ghost_rest {G : Gas} (hG : G.Physical) {r : ℝ} (hr : 0 < r) (rho0 T0 : ℝ) :
    (⟨r, fun _ => rho0 * 0, PerfectGas.evolFromTemp G r T0, fun i => i.elim0⟩ : Fields d 0 ℝ) =
      fieldsOf (PerfectGas.toEoS G) ⟨r, fun _ => 0, PerfectGas.presFromTemp G r T0, 0⟩ := by
  refine Fields.ext rfl ?_ ?_ ?_
  · simp [fieldsOf, toCons]
  · have := ghost_energy (d := d) hG hr 0 T0
    simpa using this
  · funext i
    exact i.elim0

/-- The statement shared by the two setups: with the kernel `k`, the condition `bc` puts in every cell of the face `face` of direction `a`
the conservative variables of the state that `k` writes there, and leaves the rest. -/
def ContinuesInitial (eos : EoS ℝ) (k : InitKernel d 0) (bc : List Cell → View Cell (Fields d 0 ℝ) → Option (View Cell (Fields d 0 ℝ)))
    (ext : Cell) (ng : ℤ) (a : Fin 3) (face : Fin 2) : Prop :=
  ∀ l, IsSchedule l (slabBegin ext ng a face) (slabEnd ext ng a face) → ∀ v, v.dom = inExt ext →
    ∃ w, bc l v = some w ∧ w.dom = v.dom ∧
      (∀ c, inBox (slabBegin ext ng a face) (slabEnd ext ng a face) c → ∃ s, k c ⟨0, 0, 0, 0⟩ = some s ∧ w.val c = fieldsOf eos s) ∧
      ∀ c, ¬ inBox (slabBegin ext ng a face) (slabEnd ext ng a face) c → w.val c = v.val c

/-- What the two conditions write when the gas moves: the momentum of the density `rho0`, an energy without its kinetic part. Both are
wrong in every ghost cell. -/
def MissesKinetic (eos : EoS ℝ) (rho0 u0 : ℝ) (k : InitKernel d 0)
    (bc : List Cell → View Cell (Fields d 0 ℝ) → Option (View Cell (Fields d 0 ℝ))) (ext : Cell) (ng : ℤ) (a : Fin 3) (face : Fin 2) : Prop :=
  ∀ l, IsSchedule l (slabBegin ext ng a face) (slabEnd ext ng a face) → ∀ v, v.dom = inExt ext →
    ∃ w, bc l v = some w ∧ ∀ c, inBox (slabBegin ext ng a face) (slabEnd ext ng a face) c → ∃ s, k c ⟨0, 0, 0, 0⟩ = some s ∧
      (∀ i, (w.val c).rhou i = rho0 * u0 ∧ (fieldsOf eos s).rhou i = s.rho * u0) ∧
      (w.val c).E = (fieldsOf eos s).E - d * (s.rho * u0 ^ 2 / 2) ∧ w.val c ≠ fieldsOf eos s

section
variable {G : Gas} (hG : G.Physical) {rho0 T0 : ℝ} (hr : 0 < rho0) {ext : Cell} {ng : ℤ} {a : Fin 3} (ha : ng ≤ ext a) (face : Fin 2)
  {g : GridData ℝ} {x : ℤ → ℝ} (hx : ∀ i, 0 ≤ i → i < ext 0 → (g.xc 0).rd i = some (x i))

include hG hr ha hx in
/-- **C67, stratified atmosphere.** Started at rest, a perfect gas: the user boundary condition of any face fills its ghost layers with the
conservative variables of the state that the initialisation would write there, and changes no other cell. -/
theorem C67_stratified_partial {grav : GravField (d + 1) ℝ} {gx : Cell → ℝ} (hgr : ∀ c, inExt ext c = true → grav c 0 = some (gx c)) :
    ContinuesInitial (d := d + 1) (PerfectGas.toEoS G) (stratifiedInit (PerfectGas.setupEos G) rho0 0 T0 g grav)
      (stratifiedBc (PerfectGas.setupEos G) rho0 0 T0 g grav) ext ng a face := by
  intro l hl v hv
  have hin : ∀ c, inBox (slabBegin ext ng a face) (slabEnd ext ng a face) c → inExt ext c = true := fun c => slab_inExt ha
  have hpos : ∀ c : Cell, 0 < rho0 * Real.exp (-x (c 0) / (kB * T0 / (G.mmw * mP * |gx c|))) := fun c => mul_pos hr (Real.exp_pos _)
  obtain ⟨w, h1, h2, h3, h4⟩ : ∃ w, stratifiedBc (PerfectGas.setupEos G) rho0 0 T0 g grav l v = some w ∧ _ :=
    parFor_write hl hin hv (fun c => ⟨rho0 * Real.exp (-x (c 0) / (kB * T0 / (G.mmw * mP * |gx c|))), fun _ => rho0 * 0,
      PerfectGas.evolFromTemp G (rho0 * Real.exp (-x (c 0) / (kB * T0 / (G.mmw * mP * |gx c|)))) T0, fun i => i.elim0⟩) (fun c hc w hw s hs => by
      have h0 := inExt_iff.1 (hin c hc) 0
      simp only [hs, hgr c (hin c hc), hx _ h0.1 h0.2, Option.bind_eq_bind, Option.bind_some]
      exact congrArg (w.wr c) (Fields.ext rfl rfl rfl (funext fun i => i.elim0)))
  refine ⟨w, h1, h2, fun c hc => ?_, h4⟩
  have h0 := inExt_iff.1 (hin c hc) 0
  refine ⟨_, by simp only [stratifiedInit, hgr c (hin c hc), hx _ h0.1 h0.2, Option.bind_eq_bind, Option.bind_some]; rfl, ?_⟩
  rw [h3 c hc]
  exact ghost_rest hG (hpos c) rho0 T0

include hG hr ha hx in
/-- **C67, violated, stratified atmosphere.** When the gas moves, the ghost cells get the momentum of the density `rho0` instead of the local one, and
an energy that lacks the kinetic energy of all components: they differ from the initial state in every ghost cell. -/
theorem C67_stratified_moving {grav : GravField (d + 1) ℝ} {gx : Cell → ℝ} (hgr : ∀ c, inExt ext c = true → grav c 0 = some (gx c)) {u0 : ℝ} (hu : u0 ≠ 0) :
    MissesKinetic (d := d + 1) (PerfectGas.toEoS G) rho0 u0 (stratifiedInit (PerfectGas.setupEos G) rho0 u0 T0 g grav)
      (stratifiedBc (PerfectGas.setupEos G) rho0 u0 T0 g grav) ext ng a face := by
  intro l hl v hv
  have hin : ∀ c, inBox (slabBegin ext ng a face) (slabEnd ext ng a face) c → inExt ext c = true := fun c => slab_inExt ha
  have hpos : ∀ c : Cell, 0 < rho0 * Real.exp (-x (c 0) / (kB * T0 / (G.mmw * mP * |gx c|))) := fun c => mul_pos hr (Real.exp_pos _)
  obtain ⟨w, h1, h2, h3, h4⟩ : ∃ w, stratifiedBc (PerfectGas.setupEos G) rho0 u0 T0 g grav l v = some w ∧ _ :=
    parFor_write hl hin hv (fun c => ⟨rho0 * Real.exp (-x (c 0) / (kB * T0 / (G.mmw * mP * |gx c|))), fun _ => rho0 * u0,
      PerfectGas.evolFromTemp G (rho0 * Real.exp (-x (c 0) / (kB * T0 / (G.mmw * mP * |gx c|)))) T0, fun i => i.elim0⟩) (fun c hc w hw s hs => by
      have h0 := inExt_iff.1 (hin c hc) 0
      simp only [hs, hgr c (hin c hc), hx _ h0.1 h0.2, Option.bind_eq_bind, Option.bind_some]
      exact congrArg (w.wr c) (Fields.ext rfl rfl rfl (funext fun i => i.elim0)))
  refine ⟨w, h1, fun c hc => ?_⟩
  have h0 := inExt_iff.1 (hin c hc) 0
  have hE := ghost_energy (d := d + 1) hG (hpos c) u0 T0
  refine ⟨_, by simp only [stratifiedInit, hgr c (hin c hc), hx _ h0.1 h0.2, Option.bind_eq_bind, Option.bind_some]; rfl, ?_⟩
  rw [h3 c hc]
  refine ⟨fun i => ⟨rfl, rfl⟩, hE, fun h => ?_⟩
  have h5 := congrArg Fields.E h
  simp only [PerfectGas.setupEos] at h5
  rw [hE] at h5
  have h6 := hpos c
  have h7 : 0 < ((d + 1 : ℕ) : ℝ) * ((rho0 * Real.exp (-x (c 0) / (kB * T0 / (G.mmw * mP * |gx c|)))) * u0 ^ 2 / 2) := by positivity
  linarith

include hG hr ha hx in
/-- **C67, hydrostatic sphere.** Started at rest, a perfect gas: the user boundary condition of any face fills its ghost layers with the
conservative variables of the state that the initialisation would write there, and changes no other cell. -/
theorem C67_equilibrium_partial (M : ℝ) :
    ContinuesInitial (d := d) (PerfectGas.toEoS G) (eqHydroInit (PerfectGas.setupEos G) rho0 0 T0 M g)
      (eqHydroBc (PerfectGas.setupEos G) rho0 0 T0 M g) ext ng a face := by
  intro l hl v hv
  have hin : ∀ c, inBox (slabBegin ext ng a face) (slabEnd ext ng a face) c → inExt ext c = true := fun c => slab_inExt ha
  have hpos : ∀ c : Cell, 0 < rho0 * Real.exp (1 / (x (c 0) * (kB * T0 / (G.mmw * mP * gravG * M)))) := fun c => mul_pos hr (Real.exp_pos _)
  obtain ⟨w, h1, h2, h3, h4⟩ : ∃ w, eqHydroBc (PerfectGas.setupEos G) rho0 0 T0 M g l v = some w ∧ _ :=
    parFor_write hl hin hv (fun c => ⟨rho0 * Real.exp (1 / (x (c 0) * (kB * T0 / (G.mmw * mP * gravG * M)))), fun _ => rho0 * 0,
      PerfectGas.evolFromTemp G (rho0 * Real.exp (1 / (x (c 0) * (kB * T0 / (G.mmw * mP * gravG * M))))) T0, fun i => i.elim0⟩) (fun c hc w hw s hs => by
      have h0 := inExt_iff.1 (hin c hc) 0
      simp only [hs, hx _ h0.1 h0.2, Option.bind_eq_bind, Option.bind_some]
      exact congrArg (w.wr c) (Fields.ext rfl rfl rfl (funext fun i => i.elim0)))
  refine ⟨w, h1, h2, fun c hc => ?_, h4⟩
  have h0 := inExt_iff.1 (hin c hc) 0
  refine ⟨_, by simp only [eqHydroInit, hx _ h0.1 h0.2, Option.bind_eq_bind, Option.bind_some]; rfl, ?_⟩
  rw [h3 c hc]
  exact ghost_rest hG (hpos c) rho0 T0

include hG hr ha hx in
/-- **C67, violated, hydrostatic sphere.** When the gas moves, the ghost cells get the momentum of the density `rho0` instead of the local one, and
an energy that lacks the kinetic energy of all components: they differ from the initial state in every ghost cell. -/
theorem C67_equilibrium_moving (M : ℝ) {u0 : ℝ} (hu : u0 ≠ 0) (hd : 0 < d) :
    MissesKinetic (d := d) (PerfectGas.toEoS G) rho0 u0 (eqHydroInit (PerfectGas.setupEos G) rho0 u0 T0 M g)
      (eqHydroBc (PerfectGas.setupEos G) rho0 u0 T0 M g) ext ng a face := by
  intro l hl v hv
  have hin : ∀ c, inBox (slabBegin ext ng a face) (slabEnd ext ng a face) c → inExt ext c = true := fun c => slab_inExt ha
  have hpos : ∀ c : Cell, 0 < rho0 * Real.exp (1 / (x (c 0) * (kB * T0 / (G.mmw * mP * gravG * M)))) := fun c => mul_pos hr (Real.exp_pos _)
  obtain ⟨w, h1, h2, h3, h4⟩ : ∃ w, eqHydroBc (PerfectGas.setupEos G) rho0 u0 T0 M g l v = some w ∧ _ :=
    parFor_write hl hin hv (fun c => ⟨rho0 * Real.exp (1 / (x (c 0) * (kB * T0 / (G.mmw * mP * gravG * M)))), fun _ => rho0 * u0,
      PerfectGas.evolFromTemp G (rho0 * Real.exp (1 / (x (c 0) * (kB * T0 / (G.mmw * mP * gravG * M))))) T0, fun i => i.elim0⟩) (fun c hc w hw s hs => by
      have h0 := inExt_iff.1 (hin c hc) 0
      simp only [hs, hx _ h0.1 h0.2, Option.bind_eq_bind, Option.bind_some]
      exact congrArg (w.wr c) (Fields.ext rfl rfl rfl (funext fun i => i.elim0)))
  refine ⟨w, h1, fun c hc => ?_⟩
  have h0 := inExt_iff.1 (hin c hc) 0
  have hE := ghost_energy (d := d) hG (hpos c) u0 T0
  refine ⟨_, by simp only [eqHydroInit, hx _ h0.1 h0.2, Option.bind_eq_bind, Option.bind_some]; rfl, ?_⟩
  rw [h3 c hc]
  refine ⟨fun i => ⟨rfl, rfl⟩, hE, fun h => ?_⟩
  have h5 := congrArg Fields.E h
  simp only [PerfectGas.setupEos] at h5
  rw [hE] at h5
  have h6 := hpos c
  have h7 : 0 < ((d : ℕ) : ℝ) * ((rho0 * Real.exp (1 / (x (c 0) * (kB * T0 / (G.mmw * mP * gravG * M))))) * u0 ^ 2 / 2) := by positivity
  linarith

end

/-! ### The hypotheses can be met -/

/-- A 2-D domain with two ghost layers, the upper face of direction 0, an atmosphere that moves at speed 3. -/
example : ∃ w, stratifiedBc (d := 1) (PerfectGas.setupEos ⟨2, 2 - 1, 1⟩) 5 3 100 (⟨fun _ => View.line 8 (fun i => (i : ℝ)), fun _ => View.line 8 (fun i => (i : ℝ) + 1 / 2),
      fun _ => View.line 8 1, ⟨fun _ => true, 1⟩, ⟨fun _ => true, 1⟩⟩) (fun _ _ => some (-10)) (boxList ![6, 0, 0] ![8, 8, 1])
      ⟨inExt ![8, 8, 1], fun _ => ⟨1, 0, 1, 0⟩⟩ = some w ∧ (w.val ![7, 3, 0]).rhou 0 = 15 := by
  have h := C67_stratified_moving (d := 1) (T0 := 100) (rho0 := 5) (G := ⟨2, 2 - 1, 1⟩) ⟨by norm_num, by norm_num, rfl⟩ (by norm_num) (ext := ![8, 8, 1]) (ng := 2) (a := 0)
    (by decide) 1 (g := ⟨fun _ => View.line 8 (fun i => (i : ℝ)), fun _ => View.line 8 (fun i => (i : ℝ) + 1 / 2), fun _ => View.line 8 1, ⟨fun _ => true, 1⟩,
      ⟨fun _ => true, 1⟩⟩) (x := fun i => (i : ℝ) + 1 / 2) (fun i h0 h1 => line_rd h0 h1) (grav := fun _ _ => some (-10)) (gx := fun _ => -10)
    (fun _ _ => rfl) (u0 := 3) (by norm_num)
  obtain ⟨w, h1, h2⟩ := h (boxList ![6, 0, 0] ![8, 8, 1]) (by
    have e1 : slabBegin ![8, 8, 1] 2 0 1 = ![6, 0, 0] := by decide
    have e2 : slabEnd ![8, 8, 1] 2 0 1 = ![8, 8, 1] := by decide
    rw [e1, e2]
    exact boxList_isSchedule _ _) ⟨inExt ![8, 8, 1], fun _ => ⟨1, 0, 1, 0⟩⟩ rfl
  refine ⟨w, h1, ?_⟩
  obtain ⟨s, -, h3, -⟩ := h2 ![7, 3, 0] (by decide)
  rw [(h3 0).1]
  norm_num

end Heracles

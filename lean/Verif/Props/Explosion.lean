import Verif.Spec.Explosion
import Verif.Props.Initial

/-!
# C77: the energy of the explosions
-/

namespace Heracles

variable {d n : ℕ}

theorem cellVolume_dv (geom : Geom) (hd : 1 ≤ d) (hd3 : d ≤ 3) (X : Fin 3 → ℤ → ℝ) (Gr : Cell → Fin d → ℝ) (C ngh : Cell) :
    (globGrid realTrig geom X Gr).dv (C + ngh) = cellVolume geom d X ngh C :=
  dvFun_exact geom hd hd3 X (C + ngh)

/-- From the values written in the cells to the energy. -/
theorem startsWith_of {D : Cell → Prop} {S : Setup d n} {geom : Geom} {nx : Cell} {ng : ℤ} {X : Fin 3 → ℤ → ℝ} {Gr : Cell → Fin d → ℝ}
    {e : ℝ → ℝ → ℝ} {E : ℝ} {W : Cell → InitCell d n} (h : InitialState D S realTrig geom nx ng X Gr W) (hN : ∀ a, 0 ≤ nx a) (hng : 0 ≤ ng)
    {dims : Cell} (hD : D dims) (hdm : ∀ a, 0 < dims a) (hE : domainEnergy geom e nx (nghostOf d ng) X W = E) :
    StartsWith D S geom nx ng X Gr e E := by
  refine ⟨⟨W, h⟩, fun W' h' => ?_⟩
  rw [← hE]
  refine Finset.sum_congr rfl fun C hC => ?_
  rw [h'.unique h hN hng hD hdm (mem_cells.1 hC)]

theorem card_cells {nx : Cell} (hN : ∀ a, 0 ≤ nx a) : ((cells 0 nx).card : ℝ) = nx 0 * nx 1 * nx 2 := by
  have h : ∀ a, ((nx a).toNat : ℝ) = nx a := fun a => by exact_mod_cast Int.toNat_of_nonneg (hN a)
  simp only [cells, Fintype.card_piFinset, Int.card_Ico, Fin.prod_univ_three, Pi.zero_apply, sub_zero]
  push_cast
  rw [h, h, h]

/-- A sum over cells that hold `E1` in the set `A` and `E0` elsewhere. -/
theorem sum_two {nx : Cell} (hN : ∀ a, 0 ≤ nx a) (A : Finset Cell) (hA : A ⊆ cells 0 nx) (f : Cell → ℝ) (E0 E1 : ℝ)
    (hf : ∀ C ∈ cells 0 nx, (C ∈ A → f C = E1) ∧ (C ∉ A → f C = E0)) :
    ∑ C ∈ cells 0 nx, f C = A.card * E1 + (nx 0 * nx 1 * nx 2 - A.card) * E0 := by
  rw [← Finset.sum_sdiff hA, Finset.sum_congr rfl (g := fun _ => E0) (fun C hC => (hf C (Finset.sdiff_subset hC)).2 (Finset.mem_sdiff.1 hC).2),
    Finset.sum_congr rfl (s₁ := A) (g := fun _ => E1) (fun C hC => (hf C (hA hC)).1 hC), Finset.sum_const, Finset.sum_const, nsmul_eq_mul,
    nsmul_eq_mul, Finset.card_sdiff_of_subset hA, Nat.cast_sub (Finset.card_le_card hA), card_cells hN]
  ring

theorem evol_pres {g : Gas} (hm : 0 < g.mmw) (hg : 0 < g.gammaM1) {rho : ℝ} (hr : rho ≠ 0) (e : ℝ) :
    PerfectGas.evolFromPres g rho (g.gammaM1 * e) = e := by
  have h1 : kB ≠ 0 := by unfold kB; norm_num
  have h2 : mP ≠ 0 := by unfold mP; norm_num
  have h3 := hm.ne'
  have h4 := hg.ne'
  simp only [PerfectGas.evolFromPres, PerfectGas.evolFromTemp, PerfectGas.tempFromPres]
  field_simp

/-! ### Two dimensions -/

/-- The cells of the domain whose lower left node is closer to the origin than 0.025. -/
noncomputable def nodesInDisc (nx : Cell) (ng : ℤ) (X : Fin 3 → ℤ → ℝ) : Finset Cell := by
  classical
  exact (cells 0 nx).filter fun C => Real.sqrt (X 0 (C 0 + ng) ^ 2 + X 1 (C 1 + ng) ^ 2) < 0.025

/-- **C77, two dimensions.** On every process grid, for every mesh, number of ghosts and value of the parameters, the domain contains the
energy `E1` once for every cell whose lower left node is closer to the origin than 0.025, and `E0` for every other cell. -/
theorem C77_sedov2d {g : Gas} (hm : 0 < g.mmw) (hg : 0 < g.gammaM1) {rho0 : ℝ} (hr : rho0 ≠ 0) (u0 E0 E1 : ℝ) {nx : Cell} {ng : ℤ}
    (hN : ∀ a, 0 ≤ nx a) (hng : 0 ≤ ng) {X : Fin 3 → ℤ → ℝ} (hX : ∀ a, StrictMono (X a)) (Gr : Cell → Fin 2 → ℝ) :
    StartsWith (n := n) (fun _ => True) (fun _ _ G _ => sedov2dKernel (PerfectGas.setupEos g) rho0 u0 E0 E1 G) .cartesian nx ng X Gr
      (PerfectGas.evolFromPres g)
      ((nodesInDisc nx ng X).card * E1 + (nx 0 * nx 1 * nx 2 - (nodesInDisc nx ng X).card) * E0) := by
  classical
  have hst : InitialState (n := n) (fun _ => True) (fun _ _ G _ => sedov2dKernel (PerfectGas.setupEos g) rho0 u0 E0 E1 G) realTrig .cartesian
      nx ng X Gr (fun C => ⟨rho0, fun _ => u0,
        if Real.sqrt (X 0 (C 0 + nghostOf 2 ng 0) * X 0 (C 0 + nghostOf 2 ng 0) + X 1 (C 1 + nghostOf 2 ng 1) * X 1 (C 1 + nghostOf 2 ng 1)) < 0.025
        then (PerfectGas.setupEos g).presFromEvol rho0 (E1 / cellVolume .cartesian 2 X (nghostOf 2 ng) C)
        else (PerfectGas.setupEos g).presFromEvol rho0 (E0 / cellVolume .cartesian 2 X (nghostOf 2 ng) C), 0⟩) := by
    refine initialState_of_kernel hN hng _ ?_
    intro dims rank topo G grav _ hdm hrk hG c hc
    have h := hG.cell hN hdm hrk (rank_interior_inExt hng hc)
    rw [cellVolume_dv .cartesian (by norm_num) (by norm_num)] at h
    simp only [sedov2dKernel, h.x, h.dv, Option.bind_eq_bind, Option.bind_some]
    rfl
  refine startsWith_of hst hN hng (dims := 1) trivial (fun _ => one_pos) (sum_two hN _ (Finset.filter_subset _ _) _ _ _ fun C hC => ?_)
  have hV : cellVolume .cartesian 2 X (nghostOf 2 ng) C ≠ 0 := by
    rw [cellVolume, boxVolume_cartesian]
    have : ∀ a, 0 < hiNode X (nghostOf 2 ng) C a - loNode X (nghostOf 2 ng) C a := fun a => sub_pos.2 (hX a (by omega))
    exact (mul_pos (mul_pos (this 0) (this 1)) (this 2)).ne'
  have hp : ∀ e, (PerfectGas.setupEos g).presFromEvol rho0 e = g.gammaM1 * e := fun e => perfect_evol_temp hm hr e
  have hmem : C ∈ nodesInDisc nx ng X ↔ Real.sqrt (X 0 (C 0 + nghostOf 2 ng 0) * X 0 (C 0 + nghostOf 2 ng 0) +
      X 1 (C 1 + nghostOf 2 ng 1) * X 1 (C 1 + nghostOf 2 ng 1)) < 0.025 := by
    simp only [nodesInDisc, Finset.mem_filter, hC, true_and, pow_two]
    rfl
  constructor
  · intro h
    simp only [if_pos (hmem.1 h), hp, evol_pres hm hg hr]
    field_simp
  · intro h
    simp only [if_neg (mt hmem.2 h), hp, evol_pres hm hg hr]
    field_simp

/-- A regular mesh of `N` x `N` cells over the square of side 10 centred at the origin (inputs/sedov2d.ini 5-14). -/
noncomputable def squareMesh (N ng : ℤ) : Fin 3 → ℤ → ℝ := ![evenNodes (-5) 5 N ng, evenNodes (-5) 5 N ng, evenNodes 0 1 1 0]

theorem evenNodes_mono {lo hi : ℝ} {N : ℤ} (h : lo < hi) (hN : 0 < N) (ng : ℤ) : StrictMono (evenNodes lo hi N ng) := by
  intro i j hij
  have h1 : (0 : ℝ) < N := by exact_mod_cast hN
  have h2 : (i : ℝ) < j := by exact_mod_cast hij
  have h3 := div_pos (sub_pos.2 h) h1
  simp only [evenNodes]
  nlinarith

theorem squareMesh_mono {N : ℤ} (hN : 0 < N) (ng : ℤ) (a : Fin 3) : StrictMono (squareMesh N ng a) := by
  fin_cases a
  · exact evenNodes_mono (by norm_num) hN ng
  · exact evenNodes_mono (by norm_num) hN ng
  · exact evenNodes_mono (by norm_num) one_pos 0

theorem mem_nodesInDisc {N ng : ℤ} (hN : 0 < N) {C : Cell} : C ∈ nodesInDisc ![N, N, 1] ng (squareMesh N ng) ↔
    inBox 0 ![N, N, 1] C ∧ 40000 * ((2 * C 0 - N) ^ 2 + (2 * C 1 - N) ^ 2) < N ^ 2 := by
  classical
  have hR : (0 : ℝ) < N := by exact_mod_cast hN
  simp only [nodesInDisc, Finset.mem_filter, mem_cells]
  refine and_congr_right fun _ => ?_
  rw [Real.sqrt_lt' (by norm_num)]
  have e : squareMesh N ng 0 (C 0 + ng) ^ 2 + squareMesh N ng 1 (C 1 + ng) ^ 2 =
      25 * ((2 * C 0 - N) ^ 2 + (2 * C 1 - N) ^ 2 : ℝ) / N ^ 2 := by
    simp only [squareMesh, evenNodes, Matrix.cons_val_zero, Matrix.cons_val_one]
    push_cast
    field_simp
    ring
  rw [e, div_lt_iff₀ (by positivity)]
  constructor
  · intro h
    have : (40000 * ((2 * C 0 - N) ^ 2 + (2 * C 1 - N) ^ 2) : ℝ) < N ^ 2 := by norm_num at h; linarith
    exact_mod_cast this
  · intro h
    have : (40000 * ((2 * C 0 - N) ^ 2 + (2 * C 1 - N) ^ 2) : ℝ) < N ^ 2 := by exact_mod_cast h
    norm_num
    linarith

/-- How many nodes lie in the disc: `w` in each direction. -/
theorem card_nodesInDisc {N ng a w : ℤ} (hN : 0 < N) (ha : 0 ≤ a) (hw : 0 ≤ w) (hb : a + w ≤ N)
    (h : ∀ x y : ℤ, 40000 * ((2 * x - N) ^ 2 + (2 * y - N) ^ 2) < N ^ 2 ↔ (a ≤ x ∧ x < a + w) ∧ (a ≤ y ∧ y < a + w)) :
    ((nodesInDisc ![N, N, 1] ng (squareMesh N ng)).card : ℝ) = w ^ 2 := by
  have e : nodesInDisc ![N, N, 1] ng (squareMesh N ng) = cells ![a, a, 0] ![a + w, a + w, 1] := by
    ext C
    rw [mem_nodesInDisc hN, mem_cells, h, inBox, inBox, Fin.forall_fin_succ, Fin.forall_fin_succ, Fin.forall_fin_one, Fin.forall_fin_succ,
      Fin.forall_fin_succ, Fin.forall_fin_one]
    simp
    omega
  rw [e]
  have hw' : (w.toNat : ℝ) = w := by exact_mod_cast Int.toNat_of_nonneg hw
  simp only [cells, Fintype.card_piFinset, Int.card_Ico, Fin.prod_univ_three]
  simp [hw']
  ring

theorem disc_400 (x y : ℤ) : 40000 * ((2 * x - 400) ^ 2 + (2 * y - 400) ^ 2) < 400 ^ 2 ↔
    (200 ≤ x ∧ x < 200 + 1) ∧ (200 ≤ y ∧ y < 200 + 1) := by
  constructor
  · intro h
    refine ⟨⟨?_, ?_⟩, ?_, ?_⟩ <;> nlinarith [sq_nonneg (2 * x - 400), sq_nonneg (2 * y - 400)]
  · rintro ⟨⟨h1, h2⟩, h3, h4⟩
    obtain rfl : x = 200 := by omega
    obtain rfl : y = 200 := by omega
    norm_num

theorem disc_800 (x y : ℤ) : 40000 * ((2 * x - 800) ^ 2 + (2 * y - 800) ^ 2) < 800 ^ 2 ↔
    (399 ≤ x ∧ x < 399 + 3) ∧ (399 ≤ y ∧ y < 399 + 3) := by
  constructor
  · intro h
    refine ⟨⟨?_, ?_⟩, ?_, ?_⟩ <;> nlinarith [sq_nonneg (2 * x - 800), sq_nonneg (2 * y - 800)]
  · rintro ⟨⟨h1, h2⟩, h3, h4⟩
    obtain rfl | rfl | rfl : x = 399 ∨ x = 400 ∨ x = 401 := by omega
    all_goals obtain rfl | rfl | rfl : y = 399 ∨ y = 400 ∨ y = 401 := by omega
    all_goals norm_num

theorem disc_401 (x y : ℤ) : 40000 * ((2 * x - 401) ^ 2 + (2 * y - 401) ^ 2) < 401 ^ 2 ↔
    (200 ≤ x ∧ x < 200 + 2) ∧ (200 ≤ y ∧ y < 200 + 2) := by
  constructor
  · intro h
    refine ⟨⟨?_, ?_⟩, ?_, ?_⟩ <;> nlinarith [sq_nonneg (2 * x - 401), sq_nonneg (2 * y - 401)]
  · rintro ⟨⟨h1, h2⟩, h3, h4⟩
    obtain rfl | rfl : x = 200 ∨ x = 201 := by omega
    all_goals obtain rfl | rfl : y = 200 ∨ y = 201 := by omega
    all_goals norm_num

theorem disc_201 (x y : ℤ) : 40000 * ((2 * x - 201) ^ 2 + (2 * y - 201) ^ 2) < 201 ^ 2 ↔
    (0 ≤ x ∧ x < 0 + 0) ∧ (0 ≤ y ∧ y < 0 + 0) := by
  constructor
  · intro h
    exfalso
    have h1 : 1 ≤ (2 * x - 201) ^ 2 := by
      have : 2 * x - 201 ≠ 0 := by omega
      have := sq_pos_of_ne_zero this
      omega
    have h2 : 1 ≤ (2 * y - 201) ^ 2 := by
      have : 2 * y - 201 ≠ 0 := by omega
      have := sq_pos_of_ne_zero this
      omega
    nlinarith
  · rintro ⟨⟨h1, h2⟩, -⟩
    omega

/-- **C77, two dimensions, the part that holds.** On the mesh of inputs/sedov2d.ini, 400 x 400 cells over the square of side 10, one cell
receives the energy `E1` of the file. The full statement is the same on every mesh; it is false, see `C77_sedov2d_resolution` and
`C77_sedov2d_violated`. -/
theorem C77_sedov2d_partial {g : Gas} (hm : 0 < g.mmw) (hg : 0 < g.gammaM1) {rho0 : ℝ} (hr : rho0 ≠ 0) (u0 E0 E1 : ℝ) {ng : ℤ}
    (hng : 0 ≤ ng) (Gr : Cell → Fin 2 → ℝ) :
    StartsWith (n := n) (fun _ => True) (fun _ _ G _ => sedov2dKernel (PerfectGas.setupEos g) rho0 u0 E0 E1 G) .cartesian ![400, 400, 1] ng
      (squareMesh 400 ng) Gr (PerfectGas.evolFromPres g) (E1 + (400 ^ 2 - 1) * E0) := by
  have h := C77_sedov2d (n := n) hm hg hr u0 E0 E1 (nx := ![400, 400, 1]) (by decide) hng (squareMesh_mono (N := 400) (by norm_num) ng) Gr
  rw [card_nodesInDisc (a := 200) (w := 1) (by norm_num) (by norm_num) (by norm_num) (by norm_num) disc_400] at h
  convert h using 1
  simp only [Matrix.cons_val_zero, Matrix.cons_val_one, Matrix.cons_val]
  push_cast
  ring

/-- **C77, two dimensions.** The energy of the explosion depends on the resolution: on the same square, 201 x 201 cells receive
none, 401 x 401 cells receive four times the energy of the file, and 800 x 800 cells nine times. -/
theorem C77_sedov2d_resolution {g : Gas} (hm : 0 < g.mmw) (hg : 0 < g.gammaM1) {rho0 : ℝ} (hr : rho0 ≠ 0) (u0 E0 E1 : ℝ) {ng : ℤ}
    (hng : 0 ≤ ng) (Gr : Cell → Fin 2 → ℝ) :
    StartsWith (n := n) (fun _ => True) (fun _ _ G _ => sedov2dKernel (PerfectGas.setupEos g) rho0 u0 E0 E1 G) .cartesian ![201, 201, 1] ng
      (squareMesh 201 ng) Gr (PerfectGas.evolFromPres g) (201 ^ 2 * E0) ∧
    StartsWith (n := n) (fun _ => True) (fun _ _ G _ => sedov2dKernel (PerfectGas.setupEos g) rho0 u0 E0 E1 G) .cartesian ![401, 401, 1] ng
      (squareMesh 401 ng) Gr (PerfectGas.evolFromPres g) (4 * E1 + (401 ^ 2 - 4) * E0) ∧
    StartsWith (n := n) (fun _ => True) (fun _ _ G _ => sedov2dKernel (PerfectGas.setupEos g) rho0 u0 E0 E1 G) .cartesian ![800, 800, 1] ng
      (squareMesh 800 ng) Gr (PerfectGas.evolFromPres g) (9 * E1 + (800 ^ 2 - 9) * E0) := by
  refine ⟨?_, ?_, ?_⟩
  · have h := C77_sedov2d (n := n) hm hg hr u0 E0 E1 (nx := ![201, 201, 1]) (by decide) hng (squareMesh_mono (N := 201) (by norm_num) ng) Gr
    rw [card_nodesInDisc (a := 0) (w := 0) (by norm_num) (by norm_num) (by norm_num) (by norm_num) disc_201] at h
    convert h using 1
    simp only [Matrix.cons_val_zero, Matrix.cons_val_one, Matrix.cons_val]
    push_cast
    ring
  · have h := C77_sedov2d (n := n) hm hg hr u0 E0 E1 (nx := ![401, 401, 1]) (by decide) hng (squareMesh_mono (N := 401) (by norm_num) ng) Gr
    rw [card_nodesInDisc (a := 200) (w := 2) (by norm_num) (by norm_num) (by norm_num) (by norm_num) disc_401] at h
    convert h using 1
    simp only [Matrix.cons_val_zero, Matrix.cons_val_one, Matrix.cons_val]
    push_cast
    ring
  · have h := C77_sedov2d (n := n) hm hg hr u0 E0 E1 (nx := ![800, 800, 1]) (by decide) hng (squareMesh_mono (N := 800) (by norm_num) ng) Gr
    rw [card_nodesInDisc (a := 399) (w := 3) (by norm_num) (by norm_num) (by norm_num) (by norm_num) disc_800] at h
    convert h using 1
    simp only [Matrix.cons_val_zero, Matrix.cons_val_one, Matrix.cons_val]
    push_cast
    ring

theorem StartsWith.value_unique {D : Cell → Prop} {S : Setup d n} {geom : Geom} {nx : Cell} {ng : ℤ} {X : Fin 3 → ℤ → ℝ}
    {Gr : Cell → Fin d → ℝ} {e : ℝ → ℝ → ℝ} {E E' : ℝ} (h : StartsWith D S geom nx ng X Gr e E) (h' : StartsWith D S geom nx ng X Gr e E') :
    E = E' := by
  obtain ⟨⟨W, hW⟩, h1⟩ := h
  rw [← h1 W hW, ← h'.2 W hW]

/-- **C77, two dimensions, violated.** It is not true that the explosion has the energy of the file on every regular mesh of the domain of
inputs/sedov2d.ini. -/
theorem C77_sedov2d_violated {g : Gas} (hm : 0 < g.mmw) (hg : 0 < g.gammaM1) {rho0 : ℝ} (hr : rho0 ≠ 0) (u0 : ℝ) {E0 E1 : ℝ} (hE : E0 ≠ E1) :
    ¬ ∀ N : ℤ, 0 < N → StartsWith (d := 2) (n := n) (fun _ => True) (fun _ _ G _ => sedov2dKernel (PerfectGas.setupEos g) rho0 u0 E0 E1 G) .cartesian
      ![N, N, 1] 2 (squareMesh N 2) (fun _ _ => 0) (PerfectGas.evolFromPres g) (E1 + (N ^ 2 - 1) * E0) := by
  intro h
  have h1 := (h 800 (by norm_num)).value_unique (C77_sedov2d_resolution hm hg hr u0 E0 E1 (by norm_num) _).2.2
  push_cast at h1
  exact hE (by linarith)

/-! ### One dimension -/

theorem cellVolume_regular (d : ℕ) (o h : Fin 3 → ℝ) (ngh C : Cell) :
    cellVolume .cartesian d (fun a i => o a + i * h a) ngh C = h 0 * h 1 * h 2 := by
  rw [cellVolume, boxVolume_cartesian]
  simp only [lowerLimit, upperLimit, loNode, hiNode]
  push_cast
  ring

/-- **C77, one dimension, the part that holds.** In Cartesian geometry, on a regular mesh of any size with two ghosts, on every process grid,
the first cell receives half of the energy `E1` (the explosion is symmetric about the origin and the domain is one half of it) and every
other cell `E0`. The full statement is the same for every number of ghosts; it is false, see `C77_sedov1d_violated`. -/
theorem C77_sedov1d_partial {g : Gas} (hm : 0 < g.mmw) (hg : 0 < g.gammaM1) {rho0 : ℝ} (hr : rho0 ≠ 0) (u0 E0 E1 : ℝ) {N : ℤ} (hN : 0 < N)
    (o : Fin 3 → ℝ) {h : Fin 3 → ℝ} (hh : ∀ a, 0 < h a) (Gr : Cell → Fin 1 → ℝ) :
    StartsWith (n := n) (fun _ => True) (fun q _ G _ => sedov1dInit (PerfectGas.setupEos g) .cartesian q rho0 u0 E0 E1 G) .cartesian
      ![N, 1, 1] 2 (fun a i => o a + i * h a) Gr (PerfectGas.evolFromPres g) (E1 / 2 + (N - 1) * E0) := by
  have hNx : ∀ a, 0 ≤ (![N, 1, 1] : Cell) a := by intro a; fin_cases a <;> simp; exact hN.le
  have hV : h 0 * h 1 * h 2 ≠ 0 := (mul_pos (mul_pos (hh 0) (hh 1)) (hh 2)).ne'
  refine startsWith_of (sedov1d_writes (PerfectGas.setupEos g) rho0 u0 E0 E1 realTrig (nx := ![N, 1, 1]) (hNx 0) rfl rfl o h Gr) hNx (by norm_num)
    (dims := 1) trivial (fun _ => one_pos) ?_
  have h0 : (![0, 0, 0] : Cell) ∈ cells 0 ![N, 1, 1] := by
    rw [mem_cells]; intro a; fin_cases a <;> simp; exact hN
  unfold domainEnergy
  rw [sum_two hNx {![0, 0, 0]} (Finset.singleton_subset_iff.2 h0) _ E0 (E1 / 2)]
  · simp
  · intro C hC
    rw [mem_cells] at hC
    have hz : C ∈ ({![0, 0, 0]} : Finset Cell) ↔ C 0 = 0 := by
      rw [Finset.mem_singleton]
      constructor
      · intro e; rw [e]; rfl
      · intro e
        have h1 := hC 1
        have h2 := hC 2
        simp at h1 h2
        funext a
        fin_cases a
        · exact e
        · show C 1 = 0; omega
        · show C 2 = 0; omega
    rw [hz, cellVolume_regular]
    constructor <;> intro e
    · simp only [if_pos e, perfect_evol_temp hm hr, evol_pres hm hg hr]
      rw [div_mul_cancel₀ _ hV]
      norm_num
      ring
    · simp only [if_neg e, perfect_evol_temp hm hr, evol_pres hm hg hr]
      rw [div_mul_cancel₀ _ hV]

/-- **C77, one dimension, violated.** With three ghosts the cell of index 2, which is to receive the energy, is a ghost cell: there is no
explosion, whatever `E1`. -/
theorem C77_sedov1d_violated {g : Gas} (hm : 0 < g.mmw) (hg : 0 < g.gammaM1) {rho0 : ℝ} (hr : rho0 ≠ 0) (u0 E0 E1 : ℝ) {N : ℤ} (hN : 0 < N)
    (o : Fin 3 → ℝ) {h : Fin 3 → ℝ} (hh : ∀ a, 0 < h a) (Gr : Cell → Fin 1 → ℝ) :
    StartsWith (n := n) (fun _ => True) (fun q _ G _ => sedov1dInit (PerfectGas.setupEos g) .cartesian q rho0 u0 E0 E1 G) .cartesian
      ![N, 1, 1] 3 (fun a i => o a + i * h a) Gr (PerfectGas.evolFromPres g) (N * E0) := by
  have hNx : ∀ a, 0 ≤ (![N, 1, 1] : Cell) a := by intro a; fin_cases a <;> simp; exact hN.le
  have hV : h 0 * h 1 * h 2 ≠ 0 := (mul_pos (mul_pos (hh 0) (hh 1)) (hh 2)).ne'
  have hst : InitialState (n := n) (fun _ => True) (fun q _ G _ => sedov1dInit (PerfectGas.setupEos g) .cartesian q rho0 u0 E0 E1 G) realTrig
      .cartesian ![N, 1, 1] 3 (fun a i => o a + i * h a) Gr
      (fun _ => ⟨rho0, fun _ => u0, g.gammaM1 * (E0 / (h 0 * h 1 * h 2)), 0⟩) := by
    refine initialState_of_kernel hNx (by norm_num) _ ?_
    intro dims rank topo G grav _ hdm hrk hG c hc
    have hin : inExt (localExt ![N, 1, 1] dims (nghostOf 1 3) rank) ![2, 0, 0] = true := by
      refine inExt_iff.2 fun a => ?_
      have := hc a
      have := localSize_nonneg (hNx a) (hdm a) (r := rank a)
      simp only [localExt, nghostOf] at *
      fin_cases a <;> simp at * <;> omega
    have hd := (hG.cell hNx hdm hrk hin).dv
    rw [cellVolume_dv .cartesian (by norm_num) (by norm_num), cellVolume_regular] at hd
    have hc0 := (hc 0).1
    have : ¬ (cartRank dims rank = 0 ∧ c 0 = 2) := by
      rintro ⟨-, h2⟩
      rw [h2] at hc0
      simp [nghostOf] at hc0
    simp only [sedov1dInit, hd, Option.bind_eq_bind, Option.bind_some, if_neg this, perfect_evol_temp hm hr]
    rfl
  refine startsWith_of hst hNx (by norm_num) (dims := 1) trivial (fun _ => one_pos) ?_
  unfold domainEnergy
  rw [sum_two hNx ∅ (Finset.empty_subset _) _ E0 0]
  · simp
  · intro C hC
    refine ⟨fun h => absurd h (Finset.notMem_empty C), fun _ => ?_⟩
    simp only [cellVolume_regular, evol_pres hm hg hr]
    rw [div_mul_cancel₀ _ hV]

/-- **C77, one dimension, spherical.** On one process with two ghosts, on every mesh, the first cell receives the energy `E1`, and the rest of the
domain the density of energy `E0 / V`, where `V` is the volume of the first cell. -/
theorem C77_sedov1d_spherical {g : Gas} (hm : 0 < g.mmw) (hg : 0 < g.gammaM1) {rho0 : ℝ} (hr : rho0 ≠ 0) (u0 E0 E1 : ℝ) {N : ℤ} (hN : 0 < N)
    {X : Fin 3 → ℤ → ℝ} (hX : Mesh .spherical 1 ![N, 1, 1] (nghostOf 1 2) X) (Gr : Cell → Fin 1 → ℝ) :
    StartsWith (n := n) (fun dims => dims = 1) (fun q _ G _ => sedov1dInit (PerfectGas.setupEos g) .spherical q rho0 u0 E0 E1 G) .spherical
      ![N, 1, 1] 2 X Gr (PerfectGas.evolFromPres g)
      (E1 + E0 / cellVolume .spherical 1 X (nghostOf 1 2) 0 *
        (4 * Real.pi / 3 * (X 0 (N + 2) ^ 3 - X 0 2 ^ 3) - cellVolume .spherical 1 X (nghostOf 1 2) 0)) := by
  have hNx : ∀ a, 0 ≤ (![N, 1, 1] : Cell) a := by intro a; fin_cases a <;> simp; exact hN.le
  have h0 : inBox 0 ![N, 1, 1] (0 : Cell) := by intro a; fin_cases a <;> simp; exact hN
  set V := cellVolume .spherical 1 X (nghostOf 1 2) 0 with hVd
  have hV : 0 < V := (C37_positive (by norm_num) (by norm_num) hX h0).1
  have hst : InitialState (n := n) (fun dims => dims = 1) (fun q _ G _ => sedov1dInit (PerfectGas.setupEos g) .spherical q rho0 u0 E0 E1 G)
      realTrig .spherical ![N, 1, 1] 2 X Gr
      (fun C => ⟨rho0, fun _ => u0, if C 0 = 0 then g.gammaM1 * (E1 / V) else g.gammaM1 * (E0 / V), 0⟩) := by
    refine initialState_of_kernel hNx (by norm_num) _ ?_
    rintro dims rank topo G grav rfl hdm hrk hG c hc
    obtain rfl : rank = 0 := by
      funext a
      have := hrk a
      simp only [Pi.zero_apply, Pi.one_apply] at this ⊢
      omega
    have hin : inExt (localExt ![N, 1, 1] 1 (nghostOf 1 2) 0) ![2, 0, 0] = true := by
      refine inExt_iff.2 fun a => ?_
      have := localSize_nonneg (hNx a) (hdm a) (r := (0 : Cell) a)
      have := hc a
      simp only [localExt, nghostOf] at *
      fin_cases a <;> simp at * <;> omega
    have hd := (hG.cell hNx hdm hrk hin).dv
    have e0 : ∀ c : Cell, globalOf ![N, 1, 1] 1 (nghostOf 1 2) 0 c = c - nghostOf 1 2 := fun c => by
      funext a
      simp only [globalOf, Pi.zero_apply, Pi.sub_apply]
      rw [localStart_zero (hNx a) (hdm a), zero_add]
    have e1 : (![2, 0, 0] : Cell) - nghostOf 1 2 = 0 := by decide
    rw [cellVolume_dv .spherical (by norm_num) (by norm_num), e0, e1, ← hVd] at hd
    have e2 : (cartRank 1 0 = 0 ∧ c 0 = 2) ↔ (c - nghostOf 1 2) 0 = 0 := by
      have : nghostOf 1 2 0 = 2 := rfl
      simp only [cartRank, Pi.zero_apply, Pi.sub_apply, this]
      omega
    simp only [sedov1dInit, hd, Option.bind_eq_bind, Option.bind_some, perfect_evol_temp hm hr, e0, e2, reduceCtorEq, if_false, one_mul]
    rfl
  refine startsWith_of hst hNx (by norm_num) (dims := 1) rfl (fun _ => one_pos) ?_
  have hsum : ∑ C ∈ cells 0 ![N, 1, 1], cellVolume .spherical 1 X (nghostOf 1 2) C = 4 * Real.pi / 3 * (X 0 (N + 2) ^ 3 - X 0 2 ^ 3) := by
    rw [sum_cellVolume hNx (fun _ a ha => by fin_cases a <;> simp at *), boxVolume_spherical]
    simp [lowerLimit, upperLimit, nghostOf]
    ring
  have hm0 : (0 : Cell) ∈ cells 0 ![N, 1, 1] := mem_cells.2 h0
  unfold domainEnergy
  rw [← hsum, ← Finset.add_sum_erase _ _ hm0, ← Finset.add_sum_erase _ (fun C => cellVolume .spherical 1 X (nghostOf 1 2) C) hm0, ← hVd]
  simp only [Pi.zero_apply, if_true, evol_pres hm hg hr]
  rw [div_mul_cancel₀ _ hV.ne', add_sub_cancel_left, Finset.mul_sum]
  congr 1
  refine Finset.sum_congr rfl fun C hC => ?_
  obtain ⟨hne, hC⟩ := Finset.mem_erase.1 hC
  have : C 0 ≠ 0 := by
    intro e
    refine hne ?_
    have hb := mem_cells.1 hC
    have h1 := hb 1
    have h2 := hb 2
    simp at h1 h2
    funext a
    fin_cases a
    · exact e
    · show C 1 = 0; omega
    · show C 2 = 0; omega
  rw [if_neg this, evol_pres hm hg hr]

/-! ### Three dimensions -/

/-- Along the direction `a`, the global index `i` has the local index `nx a / 2` in the interior of one of the processes. -/
def HalfIndex (nx dims : Cell) (ng : ℤ) (a : Fin 3) (i : ℤ) : Prop :=
  ∃ r, 0 ≤ r ∧ r < dims a ∧ i = localStart (nx a) (dims a) r + ((nx a).tdiv 2 - ng) ∧ ng ≤ (nx a).tdiv 2 ∧
    (nx a).tdiv 2 < localSize (nx a) (dims a) r + ng

/-- The cells that receive the energy. -/
noncomputable def hitCells (nx dims : Cell) (ng : ℤ) (X : Fin 3 → ℤ → ℝ) : Finset Cell := by
  classical
  exact (cells 0 nx).filter fun C => X 0 (C 0 + ng) = 1 ∧ HalfIndex nx dims ng 1 (C 1) ∧ HalfIndex nx dims ng 2 (C 2)

theorem halfIndex_local {nx dims : Cell} {ng : ℤ} {a : Fin 3} (hN : 0 ≤ nx a) (hdm : 0 < dims a) {r c : ℤ} (hr : 0 ≤ r) (hrd : r < dims a)
    (hc : ng ≤ c) (hc' : c < localSize (nx a) (dims a) r + ng) :
    HalfIndex nx dims ng a (localStart (nx a) (dims a) r + c - ng) ↔ c = (nx a).tdiv 2 := by
  constructor
  · rintro ⟨r', h1, h2, h3, h4, h5⟩
    obtain rfl := owner_unique (c := localStart (nx a) (dims a) r + c - ng) (r := r) (s := r') hN hdm ⟨by omega, by omega⟩ ⟨by omega, by omega⟩
    omega
  · rintro rfl
    exact ⟨r, hr, hrd, by omega, hc, hc'⟩

open Classical in
/-- What the three-dimensional setup leaves on the process grid `dims`. -/
theorem sedov3d_initial {g : Gas} (hm : 0 < g.mmw) {rho0 : ℝ} (hr : rho0 ≠ 0) (P0 E1 : ℝ) {nx dims : Cell} {ng : ℤ}
    (hN : ∀ a, 0 ≤ nx a) (hdm : ∀ a, 0 < dims a) (hng : 0 ≤ ng) (X : Fin 3 → ℤ → ℝ) (Gr : Cell → Fin 3 → ℝ) :
    InitialState (n := n) (fun dm => dm = dims) (fun _ topo G _ => sedov3dKernel (PerfectGas.setupEos g) topo.nxGlob rho0 P0 E1 G)
      realTrig .spherical nx ng X Gr (fun C => ⟨rho0, fun _ => 0,
        if X 0 (C 0 + ng) = 1 ∧ HalfIndex nx dims ng 1 (C 1) ∧ HalfIndex nx dims ng 2 (C 2) then
          g.gammaM1 * (E1 / cellVolume .spherical 3 X (nghostOf 3 ng) C) else P0, 0⟩) := by
  have hn : ∀ a, nghostOf 3 ng a = ng := fun a => by
    unfold nghostOf
    rw [if_pos a.isLt]
  refine initialState_of_kernel hN hng _ ?_
  rintro dm rank topo G grav rfl - hrk hG c hc
  refine (sedov3d_writes (PerfectGas.setupEos g) rho0 P0 E1 hN hng hdm hrk hG hc).trans ?_
  have hb : ∀ a, ng ≤ c a ∧ c a < localSize (nx a) (dm a) (rank a) + ng := fun a => by
    have := hc a
    simp only [localExt, hn] at this
    omega
  have hh : ∀ a, HalfIndex nx dm ng a (globalOf nx dm (nghostOf 3 ng) rank c a) ↔ c a = (nx a).tdiv 2 := fun a => by
    have := halfIndex_local (nx := nx) (dims := dm) (a := a) (hN a) (hdm a) (hrk a).1 (hrk a).2 (hb a).1 (hb a).2
    simpa only [globalOf, hn] using this
  rw [cellVolume_dv .spherical (by norm_num) (by norm_num)]
  have hp : ∀ e, (PerfectGas.setupEos g).presFromEvol rho0 e = g.gammaM1 * e := fun e => perfect_evol_temp hm hr e
  simp only [hh, hn, hp]

/-- **C77, three dimensions.** On the process grid `dims`, for every mesh and value of the parameters: the energy `E1` goes to every cell whose
inner radius is exactly 1 and whose indices of the second and third directions, in the arrays of its process, are half the size of the domain.
The other cells have the ambient pressure. -/
theorem C77_sedov3d {g : Gas} (hm : 0 < g.mmw) (hg : 0 < g.gammaM1) {rho0 : ℝ} (hr : rho0 ≠ 0) (P0 E1 : ℝ) {nx dims : Cell} {ng : ℤ}
    (hN : ∀ a, 0 ≤ nx a) (hdm : ∀ a, 0 < dims a) (hng : 0 ≤ ng) {X : Fin 3 → ℤ → ℝ} (hX : Mesh .spherical 3 nx (nghostOf 3 ng) X)
    (Gr : Cell → Fin 3 → ℝ) :
    StartsWith (n := n) (fun dm => dm = dims) (fun _ topo G _ => sedov3dKernel (PerfectGas.setupEos g) topo.nxGlob rho0 P0 E1 G) .spherical nx ng
      X Gr (PerfectGas.evolFromPres g)
      ((hitCells nx dims ng X).card * E1 +
        PerfectGas.evolFromPres g rho0 P0 * ∑ C ∈ cells 0 nx \ hitCells nx dims ng X, cellVolume .spherical 3 X (nghostOf 3 ng) C) := by
  classical
  have hst := sedov3d_initial (n := n) hm hr P0 E1 hN hdm hng X Gr
  refine startsWith_of hst hN hng (dims := dims) rfl hdm ?_
  have hA : hitCells nx dims ng X ⊆ cells 0 nx := Finset.filter_subset _ _
  unfold domainEnergy
  rw [← Finset.sum_sdiff hA, add_comm, Finset.mul_sum]
  congr 1
  · rw [← nsmul_eq_mul, ← Finset.sum_const]
    refine Finset.sum_congr rfl fun C hC => ?_
    have hV := (C37_positive (by norm_num) (by norm_num) hX (mem_cells.1 (hA hC))).1.ne'
    have h := hC
    simp only [hitCells, Finset.mem_filter] at h
    simp only [if_pos h.2, evol_pres hm hg hr, div_mul_cancel₀ _ hV]
  · refine Finset.sum_congr rfl fun C hC => ?_
    obtain ⟨h1, h2⟩ := Finset.mem_sdiff.1 hC
    have h : ¬ (X 0 (C 0 + ng) = 1 ∧ HalfIndex nx dims ng 1 (C 1) ∧ HalfIndex nx dims ng 2 (C 2)) := fun h => h2 (by
      simp only [hitCells, Finset.mem_filter]
      exact ⟨h1, h⟩)
    simp only [if_neg h]

/-- The mesh of inputs/sedov3d_sph.ini 8-21, with `N` cells in the radial direction. -/
noncomputable def shellMesh (N : ℤ) : Fin 3 → ℤ → ℝ :=
  ![evenNodes (1 / 2) (3 / 2) N 2, evenNodes (Real.pi / 4) (3 * Real.pi / 4) 20 2, evenNodes (Real.pi / 4) (3 * Real.pi / 4) 100 2]

theorem shellMesh_ok {N : ℤ} (hN : 0 < N) : Mesh .spherical 3 ![N, 20, 100] (nghostOf 3 2) (shellMesh N) := by
  have hp := Real.pi_pos
  refine ⟨fun a => ?_, fun _ => ?_, fun _ _ => ?_⟩
  · fin_cases a
    · exact evenNodes_mono (by norm_num) hN 2
    · exact evenNodes_mono (by linarith) (by norm_num) 2
    · exact evenNodes_mono (by linarith) (by norm_num) 2
  · simp [shellMesh, evenNodes, nghostOf]
  · simp [shellMesh, evenNodes, nghostOf]
    constructor <;> linarith

theorem shell_node {N i : ℤ} (hN : 0 < N) : shellMesh N 0 (i + 2) = 1 ↔ 2 * i = N := by
  have hR : (0 : ℝ) < N := by exact_mod_cast hN
  simp only [shellMesh, evenNodes, Matrix.cons_val_zero]
  push_cast
  constructor
  · intro h
    field_simp at h
    have : (2 * i : ℝ) = N := by linarith
    exact_mod_cast this
  · intro h
    have : (2 * i : ℝ) = N := by exact_mod_cast h
    rw [← this] at hR ⊢
    have hi : (i : ℝ) ≠ 0 := by intro e; rw [e] at hR; linarith
    field_simp
    ring

theorem half_one {N i : ℤ} {a : Fin 3} {nx dims : Cell} (hn : nx a = N) (hd : dims a = 1) (h : 4 ≤ N) : HalfIndex nx dims 2 a i ↔ i = N.tdiv 2 - 2 := by
  rw [HalfIndex, hn, hd]
  have h0 : localStart N 1 0 = 0 := localStart_zero (by omega) one_pos
  have h1 : localSize N 1 0 = N := by rw [localSize_eq (by omega) one_pos]; simp
  have h2 : N.tdiv 2 = N / 2 := Int.tdiv_eq_ediv_of_nonneg (by omega)
  constructor
  · rintro ⟨r, r1, r2, r3, -⟩
    obtain rfl : r = 0 := by omega
    omega
  · intro e
    exact ⟨0, le_rfl, one_pos, by omega, by omega, by omega⟩

theorem half_two (i : ℤ) : HalfIndex ![20, 20, 100] ![1, 2, 1] 2 1 i ↔ i = 8 ∨ i = 18 := by
  have a0 : localStart 20 2 0 = 0 := by decide
  have a1 : localStart 20 2 1 = 10 := by decide
  have b0 : localSize 20 2 0 = 10 := by decide
  have b1 : localSize 20 2 1 = 10 := by decide
  have c0 : Int.tdiv 20 2 = 10 := by decide
  simp only [HalfIndex, Matrix.cons_val_one, Matrix.cons_val_zero]
  constructor
  · rintro ⟨r, r1, r2, r3, -⟩
    obtain rfl | rfl : r = 0 ∨ r = 1 := by omega
    · rw [a0, c0] at r3; left; omega
    · rw [a1, c0] at r3; right; omega
  · rintro (rfl | rfl)
    · exact ⟨0, by decide⟩
    · exact ⟨1, by decide⟩

theorem half_four (i : ℤ) : ¬ HalfIndex ![20, 20, 100] ![1, 4, 1] 2 1 i := by
  rintro ⟨r, r1, r2, -, -, r3⟩
  simp only [Matrix.cons_val_one, Matrix.cons_val_zero] at r2 r3
  rw [localSize_eq (by norm_num) (by norm_num)] at r3
  have : Int.tdiv 20 2 = 10 := by decide
  rw [this] at r3
  split at r3 <;> omega

/-- **C77, three dimensions, the part that holds.** On the mesh of inputs/sedov3d_sph.ini on one process, one cell, (10, 8, 48), receives the energy of
the file. The full statement is the same on every mesh and every process grid; it is false, see `C77_sedov3d_violated`. -/
theorem C77_sedov3d_partial {g : Gas} (hm : 0 < g.mmw) (hg : 0 < g.gammaM1) {rho0 : ℝ} (hr : rho0 ≠ 0) (P0 E1 : ℝ) (Gr : Cell → Fin 3 → ℝ) :
    StartsWith (n := n) (fun dm => dm = 1) (fun _ topo G _ => sedov3dKernel (PerfectGas.setupEos g) topo.nxGlob rho0 P0 E1 G) .spherical
      ![20, 20, 100] 2 (shellMesh 20) Gr (PerfectGas.evolFromPres g)
      (E1 + PerfectGas.evolFromPres g rho0 P0 * ∑ C ∈ cells 0 ![20, 20, 100] \ {![10, 8, 48]}, cellVolume .spherical 3 (shellMesh 20) (nghostOf 3 2) C) := by
  have h := C77_sedov3d (n := n) hm hg hr P0 E1 (nx := ![20, 20, 100]) (dims := 1) (ng := 2) (by decide) (fun _ => one_pos) (by norm_num)
    (shellMesh_ok (by norm_num)) Gr
  have e : hitCells ![20, 20, 100] 1 2 (shellMesh 20) = {![10, 8, 48]} := by
    ext C
    have t1 : Int.tdiv 20 2 = 10 := by decide
    have t2 : Int.tdiv 100 2 = 50 := by decide
    simp only [hitCells, Finset.mem_filter, mem_cells, Finset.mem_singleton, shell_node (N := 20) (by norm_num),
      half_one (N := 20) (a := 1) (nx := ![20, 20, 100]) (dims := 1) rfl rfl (by norm_num),
      half_one (N := 100) (a := 2) (nx := ![20, 20, 100]) (dims := 1) rfl rfl (by norm_num), t1, t2]
    constructor
    · rintro ⟨-, h0, h1, h2⟩
      funext a
      fin_cases a
      · show C 0 = 10; omega
      · show C 1 = 8; omega
      · show C 2 = 48; omega
    · rintro rfl
      decide
  rw [e] at h
  simpa using h

/-- **C77, three dimensions, violated.** With the same input and the second direction cut in two, two cells receive the energy of the file; cut in
four, none; and with 21 cells in the radial direction, none on any process grid. -/
theorem C77_sedov3d_violated {g : Gas} (hm : 0 < g.mmw) (hg : 0 < g.gammaM1) {rho0 : ℝ} (hr : rho0 ≠ 0) (P0 E1 : ℝ) (Gr : Cell → Fin 3 → ℝ) :
    StartsWith (n := n) (fun dm => dm = ![1, 2, 1]) (fun _ topo G _ => sedov3dKernel (PerfectGas.setupEos g) topo.nxGlob rho0 P0 E1 G) .spherical
      ![20, 20, 100] 2 (shellMesh 20) Gr (PerfectGas.evolFromPres g) (2 * E1 + PerfectGas.evolFromPres g rho0 P0 *
        ∑ C ∈ cells 0 ![20, 20, 100] \ {![10, 8, 48], ![10, 18, 48]}, cellVolume .spherical 3 (shellMesh 20) (nghostOf 3 2) C) ∧
    StartsWith (n := n) (fun dm => dm = ![1, 4, 1]) (fun _ topo G _ => sedov3dKernel (PerfectGas.setupEos g) topo.nxGlob rho0 P0 E1 G) .spherical
      ![20, 20, 100] 2 (shellMesh 20) Gr (PerfectGas.evolFromPres g) (PerfectGas.evolFromPres g rho0 P0 *
        ∑ C ∈ cells 0 ![20, 20, 100], cellVolume .spherical 3 (shellMesh 20) (nghostOf 3 2) C) ∧
    ∀ dims : Cell, (∀ a, 0 < dims a) → StartsWith (n := n) (fun dm => dm = dims)
      (fun _ topo G _ => sedov3dKernel (PerfectGas.setupEos g) topo.nxGlob rho0 P0 E1 G) .spherical
      ![21, 20, 100] 2 (shellMesh 21) Gr (PerfectGas.evolFromPres g) (PerfectGas.evolFromPres g rho0 P0 *
        ∑ C ∈ cells 0 ![21, 20, 100], cellVolume .spherical 3 (shellMesh 21) (nghostOf 3 2) C) := by
  refine ⟨?_, ?_, fun dims hdm => ?_⟩
  · have h := C77_sedov3d (n := n) hm hg hr P0 E1 (nx := ![20, 20, 100]) (dims := ![1, 2, 1]) (ng := 2) (by decide) (by decide) (by norm_num)
      (shellMesh_ok (by norm_num)) Gr
    have e : hitCells ![20, 20, 100] ![1, 2, 1] 2 (shellMesh 20) = {![10, 8, 48], ![10, 18, 48]} := by
      ext C
      have t2 : Int.tdiv 100 2 = 50 := by decide
      simp only [hitCells, Finset.mem_filter, mem_cells, Finset.mem_singleton, Finset.mem_insert, shell_node (N := 20) (by norm_num), half_two,
        half_one (N := 100) (a := 2) (nx := ![20, 20, 100]) (dims := ![1, 2, 1]) rfl rfl (by norm_num), t2]
      constructor
      · rintro ⟨-, h0, h1 | h1, h2⟩
        · left
          funext a
          fin_cases a
          · show C 0 = 10; omega
          · show C 1 = 8; omega
          · show C 2 = 48; omega
        · right
          funext a
          fin_cases a
          · show C 0 = 10; omega
          · show C 1 = 18; omega
          · show C 2 = 48; omega
      · rintro (rfl | rfl) <;> decide
    have hc : ({![10, 8, 48], ![10, 18, 48]} : Finset Cell).card = 2 := by decide
    rw [e, hc] at h
    exact_mod_cast h
  · have h := C77_sedov3d (n := n) hm hg hr P0 E1 (nx := ![20, 20, 100]) (dims := ![1, 4, 1]) (ng := 2) (by decide) (by decide) (by norm_num)
      (shellMesh_ok (by norm_num)) Gr
    have e : hitCells ![20, 20, 100] ![1, 4, 1] 2 (shellMesh 20) = ∅ := by
      ext C
      simp [hitCells, half_four]
    rw [e] at h
    simpa using h
  · have h := C77_sedov3d (n := n) hm hg hr P0 E1 (nx := ![21, 20, 100]) (dims := dims) (ng := 2) (by decide) hdm (by norm_num)
      (shellMesh_ok (by norm_num)) Gr
    have e : hitCells ![21, 20, 100] dims 2 (shellMesh 21) = ∅ := by
      ext C
      simp only [hitCells, Finset.mem_filter, shell_node (N := 21) (by norm_num)]
      constructor
      · rintro ⟨-, h0, -⟩
        omega
      · intro h
        exact absurd h (Finset.notMem_empty C)
    rw [e] at h
    simpa using h

/-! ### The hypotheses can be met -/

/-- The energies of inputs/sedov1d.ini and inputs/sedov2d.ini, of a gas with `gamma = 1.4`. -/
example : StartsWith (d := 1) (n := 0) (fun _ => True)
    (fun q _ G _ => sedov1dInit (PerfectGas.setupEos ⟨1.4, 0.4, 1⟩) .cartesian q 1 0 1e-12 1 G) .cartesian ![400, 1, 1] 2
    (fun a i => ![-2 / 400, 0, 0] a + i * ![1 / 400, 1, 1] a) (fun _ _ => 0) (PerfectGas.evolFromPres ⟨1.4, 0.4, 1⟩)
    (1 / 2 + ((400 : ℤ) - 1) * 1e-12) ∧
    StartsWith (d := 2) (n := 0) (fun _ => True)
      (fun _ _ G _ => sedov2dKernel (PerfectGas.setupEos ⟨1.4, 0.4, 1⟩) 1 0 1e-12 1e5 G) .cartesian ![400, 400, 1] 2
      (squareMesh 400 2) (fun _ _ => 0) (PerfectGas.evolFromPres ⟨1.4, 0.4, 1⟩) (1e5 + (400 ^ 2 - 1) * 1e-12) :=
  ⟨C77_sedov1d_partial one_pos (by norm_num) one_ne_zero _ _ _ (by norm_num) _ (fun a => by fin_cases a <;> simp) _,
    C77_sedov2d_partial one_pos (by norm_num) one_ne_zero _ _ _ (by norm_num) _⟩

end Heracles

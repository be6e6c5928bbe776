import Verif.Lemmas.Start
import Verif.Spec.Start
import Verif.Model.SetupInit
import Verif.Props.Program
import Verif.Props.Initial
import Verif.Props.WindError

/-!
# C107: from the setup to the result files
-/

namespace Heracles

variable {d n : ℕ}

section All
variable {p : ProgParams d n} {nx : Cell} {ng : ℤ} {X : Fin 3 → ℤ → ℝ} {Gr : (Cell → Fields d n ℝ) → Cell → Fin d → ℝ} {A B : Machine d n} {order : List ℕ}

/-- The initialisation goes through the cells of each rank, without ghosts, in any order. -/
def InitOrders (d : ℕ) (nx : Cell) (ng : ℤ) (dims : Cell) (initL : Cell → List Cell) : Prop :=
  ∀ r, inBox 0 dims r → IsSchedule (initL r) (nghostOf d ng) (fun a => localExt nx dims (nghostOf d ng) r a - nghostOf d ng a)

/-- **C107.** From the nodes of the mesh and the setup to the result files, for every setup of C66 whose data do not depend on the decomposition (`C66_independent_1d`, `C66_independent_2d`): the grids of the ranks, the gravity of the
empty arrays, the initialisation, the conversion, the ghosts and any number `k` of turns of the main loop. On two process grids `A`, `B`, whatever the orders of the loops, neither run accesses an array out of bounds; both have the
same status, time and counters, hold the same values in corresponding cells and have written the same files. -/
theorem C107_decomposition (hd3 : d ≤ 3) (hN : ∀ a, 0 ≤ nx a) (hng : 2 ≤ ng) (hp : ParamsOk p order) (hA : MachineOk nx ng Gr A) (hB : MachineOk nx ng Gr B)
    {S : Setup d n} (hS : DecompositionFree S) {initA initB : Cell → List Cell} (hlA : InitOrders d nx ng A.dims initA) (hlB : InitOrders d nx ng B.dims initB) (clock : ℕ → Bool) (k : ℕ) :
    ∃ z z', progRun p nx (nghostOf d ng) (borderOf A.dims) A clock (progSetup p nx (nghostOf d ng) (borderOf A.dims) A (cartRank A.dims) initA X S) k = some z ∧
      progRun p nx (nghostOf d ng) (borderOf B.dims) B clock (progSetup p nx (nghostOf d ng) (borderOf B.dims) B (cartRank B.dims) initB X S) k = some z' ∧
      SameState nx ng A.dims B.dims z z' ∧ List.Forall₂ SameFile z.files z'.files := by
  obtain ⟨W, hW⟩ := hS p.hydro.tr p.hydro.geom nx ng X (startGravity Gr (nghostOf d ng)) hN (by omega)
  obtain ⟨U, up, hi, e⟩ := progSetup_eq (p := p) (X := X) hN (by omega) hA trivial hW hlA
  obtain ⟨U', up', hi', e'⟩ := progSetup_eq (p := p) (X := X) hN (by omega) hB trivial hW hlB
  rw [e, e']
  exact C68_decomposition hd3 hN hng hp hA hB hi hi' clock k

end All

/-! ### The advections -/

section Wind
variable {p : ProgParams 1 n} {nx : Cell} {ng : ℤ} {X : Fin 3 → ℤ → ℝ} {Gr : (Cell → Fields 1 n ℝ) → Cell → Fin 1 → ℝ} {A : Machine 1 n}
  {order : List ℕ} {S : Cell → Prim 1 ℝ} {Fx : Cell → Fin n → ℝ} {U : Cell → View Cell (Fields 1 n ℝ)} {up : Cell → View Cell (VelPres 1 ℝ)}
  {h : Fin 3 → ℝ} {w : VelPres 1 ℝ} {lo hi : ℝ}

/-- A sum over the cells of a row. -/
theorem sum_row {N : ℕ} (hNx : nx 0 = N) (h1 : nx 1 = 1) (h2 : nx 2 = 1) (F : Cell → ℝ) : ∑ g ∈ domain nx, F g = ∑ i ∈ Finset.range N, F ![i, 0, 0] := by
  refine Finset.sum_nbij' (fun g => (g 0).toNat) (fun i => ![(i : ℤ), 0, 0]) (fun g hg => ?_) (fun i hi => ?_) (fun g hg => ?_) (fun i _ => by simp) (fun g hg => ?_)
  · have := mem_domain.1 hg 0
    simp only [Pi.zero_apply] at this
    rw [Finset.mem_range]
    omega
  · have hi := Finset.mem_range.1 hi
    refine mem_domain.2 fun a => ?_
    fin_cases a
    · refine ⟨by simp, ?_⟩
      show (i : ℤ) < nx 0
      omega
    · exact ⟨le_rfl, by show (0 : ℤ) < nx 1; omega⟩
    · exact ⟨le_rfl, by show (0 : ℤ) < nx 2; omega⟩
  · have hg := mem_domain.1 hg
    have a0 := hg 0
    have a1 := hg 1
    have a2 := hg 2
    simp only [Pi.zero_apply] at a0 a1 a2
    funext a
    fin_cases a
    · show ((g 0).toNat : ℤ) = g 0
      omega
    · show (0 : ℤ) = g 1
      omega
    · show (0 : ℤ) = g 2
      omega
  · have hg := mem_domain.1 hg
    have a0 := hg 0
    have a1 := hg 1
    have a2 := hg 2
    simp only [Pi.zero_apply] at a0 a1 a2
    congr 1
    funext a
    fin_cases a
    · show g 0 = ((g 0).toNat : ℤ)
      omega
    · show g 1 = (0 : ℤ)
      omega
    · show g 2 = (0 : ℤ)
      omega

/-- All that is proved of the files of a wind, from the arrays at the start. -/
theorem wind_files (hpos : ∀ a, 0 < nx a) (hng : 2 ≤ ng) (hp : ParamsOk p order) (hA : MachineOk nx ng Gr A)
    (hI : InitOf nx ng A S Fx U up) (clock : ℕ → Bool) (he : p.hydro.eos.Lawful) {e : ℝ} (hev : ∀ r, 0 < r → p.hydro.eos.evolFromPres r w.P = e)
    (hP : 0 < w.P) (hl : p.hydro.lim = .constant ∨ p.hydro.lim = .minmod ∨ hi < 2 * lo) (hsol : p.hydro.sol = .hllc)
    (hgeom : p.hydro.geom = .cartesian) (hb : ∀ a f, p.hydro.bcs a f = .periodic)
    (h0 : ∀ W C a, Gr W C a = 0) (hfix : p.fix = none) (hs : p.step ≠ .heatNickel)
    (hh : ∀ a, 0 < h a) (hX : ∀ a i, X a (i + 1) - X a i = h a) (hc0 : 0 ≤ p.loop.cfl) (hc1 : p.loop.cfl ≤ 1) (ht : p.tIni ≤ p.loop.tEnd)
    {N : ℕ} (hNx : nx 0 = N) (hN1 : nx 1 = 1) (hN2 : nx 2 = 1) {r : ℤ → ℝ} (hper : ∀ i, r (i + N) = r i) (hlo : 0 < lo) (hbd : ∀ i, lo ≤ r i ∧ r i ≤ hi)
    (hS : ∀ g, inBox 0 nx g → S g = ⟨r (g 0), w.u, w.P⟩) (k : ℕ) :
    ∃ z, progRun p nx (nghostOf 1 ng) (borderOf A.dims) A clock (progFresh p nx (nghostOf 1 ng) (borderOf A.dims) A X U up) k = some z ∧
      ∀ f ∈ z.files, WindFile nx N (h 0) (w.u 0) w.P lo hi r (f.t - p.tIni) f.h := by
  obtain ⟨z, e1, -, f1⟩ := C102_contact_run_partial (X := X) (h := h) hpos hng hp hA hI clock he hev hP hl hsol hgeom hb h0 hfix hs hh hX hc0 hc1 ht hNx hlo (fun i _ _ => hbd i) hS k
  obtain ⟨z', e2, -, f2⟩ := C106_contact_partial (X := X) (h := h) hpos hng hp hA hI clock he hev hP hl hsol hgeom hb h0 hfix hs hh hX hc0 hc1 ht hNx hper hlo hbd hS k
  obtain ⟨z'', e3, f3⟩ := C69_mass (X := X) (by norm_num) hpos hng hp hA hI clock hb hgeom
    ⟨fun a i _ _ => sub_pos.1 (by rw [hX]; exact hh a), fun a _ i _ _ => by rw [hX, hX]⟩ (fun W hW => by
      intro a C
      funext b
      rw [h0, h0]) k
  obtain rfl := Option.some.inj (e1.symm.trans e2)
  obtain rfl := Option.some.inj (e1.symm.trans e3)
  have hrow : ∀ i : ℤ, 0 ≤ i → i < N → inBox 0 nx ![i, 0, 0] := fun i i0 i1 a => by
    fin_cases a
    · exact ⟨i0, by show i < nx 0; omega⟩
    · exact ⟨le_rfl, hpos 1⟩
    · exact ⟨le_rfl, hpos 2⟩
  refine ⟨z, e1, fun f hf => ?_⟩
  obtain ⟨q, q1, q2, q3⟩ := f1 f hf
  refine ⟨fun g hg => (q3 g hg).2, fun g hg => by rw [(q3 g hg).1]; exact q1 _, le_of_eq_of_le ?_ q2, ?_, f2 f hf⟩
  · unfold circleVar
    refine Finset.sum_congr rfl fun i hi => ?_
    have hi := Finset.mem_range.1 hi
    beta_reduce
    rw [(q3 _ (hrow _ (Int.emod_nonneg _ (by omega)) (Int.emod_lt_of_pos _ (by omega)))).1, (q3 _ (hrow i (by omega) (by omega))).1]
    rfl
  · have hv : ∀ g, boxCellVol 1 ng X g = ∏ a : Fin 3, h a := fun g => by
      unfold boxCellVol
      exact Finset.prod_congr rfl fun a _ => hX a _
    have := f3 f hf
    simp only [hv, ← Finset.mul_sum] at this
    have := mul_left_cancel₀ (Finset.prod_ne_zero_iff.2 fun a _ => (hh a).ne') this
    rw [sum_row hNx hN1 hN2, sum_row hNx hN1 hN2] at this
    rw [this]
    refine Finset.sum_congr rfl fun i hi => ?_
    have hi := Finset.mem_range.1 hi
    rw [hS _ (hrow i (by omega) (by omega))]
    rfl

/-- The same from a setup that puts the density `rho` of the centre of the cell into a wind. -/
theorem wind_setup (hpos : ∀ a, 0 < nx a) (hng : 2 ≤ ng) (hp : ParamsOk p order) (hA : MachineOk nx ng Gr A) {initL : Cell → List Cell} (hil : InitOrders 1 nx ng A.dims initL)
    (clock : ℕ → Bool) (he : p.hydro.eos.Lawful) {u0 P0 e : ℝ} (hev : ∀ r, 0 < r → p.hydro.eos.evolFromPres r P0 = e)
    (hP : 0 < P0) (hl : p.hydro.lim = .constant ∨ p.hydro.lim = .minmod ∨ hi < 2 * lo) (hsol : p.hydro.sol = .hllc)
    (hgeom : p.hydro.geom = .cartesian) (hb : ∀ a f, p.hydro.bcs a f = .periodic)
    (h0 : ∀ W C a, Gr W C a = 0) (hfix : p.fix = none) (hs : p.step ≠ .heatNickel) {xmin xmax : Fin 3 → ℝ} (hx : ∀ a, xmin a < xmax a) (hc0 : 0 ≤ p.loop.cfl) (hc1 : p.loop.cfl ≤ 1) (ht : p.tIni ≤ p.loop.tEnd)
    {N : ℕ} (hNx : nx 0 = N) (hN1 : nx 1 = 1) (hN2 : nx 2 = 1) {rho : ℝ → ℝ} (hlo : 0 < lo) (hbd : ∀ x, lo ≤ rho x ∧ rho x ≤ hi) {T : Setup 1 n}
    (hT : ∀ q topo g grav c xl xm dv gr, CellData g grav c xl xm dv gr → T q topo g grav c ⟨0, 0, 0, 0⟩ = some ⟨rho (xm 0), fun _ => u0, P0, 0⟩) (k : ℕ) :
    ∃ z, progRun p nx (nghostOf 1 ng) (borderOf A.dims) A clock
        (progSetup p nx (nghostOf 1 ng) (borderOf A.dims) A (cartRank A.dims) initL (regularNodes (nghostOf 1 ng) nx xmin xmax) T) k = some z ∧
      ∀ f ∈ z.files, WindFile nx N ((xmax 0 - xmin 0) / N) u0 P0 lo hi (fun i => rho (xmin 0 + ((i % N : ℤ) + 1 / 2) * ((xmax 0 - xmin 0) / N))) (f.t - p.tIni) f.h := by
  have hW := positional_state (F := fun _ xm _ _ => ⟨rho (xm 0), fun _ => u0, P0, 0⟩) hT p.hydro.tr p.hydro.geom (fun a => (hpos a).le) (ng := ng) (by omega)
    (regularNodes (nghostOf 1 ng) nx xmin xmax) (startGravity Gr (nghostOf 1 ng))
  obtain ⟨U, up, hi', e'⟩ := progSetup_eq (p := p) (fun a => (hpos a).le) (by omega) hA trivial hW hil
  rw [e']
  have hposR : ∀ a, (0 : ℝ) < nx a := fun a => by exact_mod_cast hpos a
  have hNp : (0 : ℤ) < N := hNx ▸ hpos 0
  have hgh : nghostOf 1 ng 0 = ng := by simp [nghostOf]
  have hnode : ∀ a i, regularNodes (nghostOf 1 ng) nx xmin xmax a i = xmin a + ((i - nghostOf 1 ng a : ℤ) : ℝ) * ((xmax a - xmin a) / nx a) := fun a i => rfl
  have key := wind_files (X := regularNodes (nghostOf 1 ng) nx xmin xmax) (h := fun a => (xmax a - xmin a) / nx a) (w := ⟨fun _ => u0, P0⟩) hpos hng hp hA hi' clock he hev hP hl hsol hgeom hb h0 hfix hs
    (fun a => div_pos (sub_pos.2 (hx a)) (hposR a)) (fun a i => by rw [hnode, hnode]; push_cast; ring) hc0 hc1 ht hNx hN1 hN2
    (r := fun i => rho (xmin 0 + ((i % N : ℤ) + 1 / 2) * ((xmax 0 - xmin 0) / N))) (fun i => by rw [Int.add_emod_right]) hlo (fun i => hbd _) (fun g hg => ?_) k
  · have e3 : (nx 0 : ℝ) = N := by rw [hNx]; exact Int.cast_natCast N
    simpa only [e3] using key
  · have hg0 := hg 0
    simp only [Pi.zero_apply] at hg0
    have e3 : (nx 0 : ℝ) = N := by rw [hNx]; exact Int.cast_natCast N
    rw [Int.emod_eq_of_lt hg0.1 (by omega)]
    simp only [hnode, hgh, e3]
    congr 2
    push_cast
    ring

end Wind

end Heracles

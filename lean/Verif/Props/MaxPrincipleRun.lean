import Verif.Lemmas.MaxPrinciple
import Verif.Props.Positivity

/-!
# C100 over whole runs of the program
-/

namespace Heracles

variable {d n : ℕ} {p : ProgParams d n} {nx : Cell} {ng : ℤ} {X : Fin 3 → ℤ → ℝ} {Gr : (Cell → Fields d n ℝ) → Cell → Fin d → ℝ} {A : Machine d n}
  {order : List ℕ} {S : Cell → Prim d ℝ} {Fx : Cell → Fin n → ℝ} {U : Cell → View Cell (Fields d n ℝ)} {up : Cell → View Cell (VelPres d ℝ)}

/-- One iteration of the global array keeps a fraction between its bounds. -/
theorem advance_fx (hd : 0 < d) (hd3 : d ≤ 3) (hpos : ∀ a, 0 < nx a) (hng : 2 ≤ ng) (he : p.hydro.eos.Lawful) (hf : p.hydro.eos.Fast)
    (hlim : p.hydro.lim = .constant) (hsol : p.hydro.sol = .hll ∨ p.hydro.sol = .hllc)
    (hgeom : p.hydro.geom = .cartesian) (h0 : ∀ W C a, Gr W C a = 0) (hfix : p.fix = none) (hs : p.step ≠ .heatNickel) {κ : ℝ} (hκ : 0 ≤ κ)
    (hX : SmoothMesh d nx ng κ X) (hc0 : 0 ≤ p.loop.cfl) (hcfl : 2 * d * κ * p.loop.cfl ≤ 1) {W : Cell → Fields d n ℝ} (hW : ∀ C, (W C).cons.Adm p.hydro.eos)
    (t : ℝ) {dt : ℝ} (hdt0 : 0 ≤ dt) (hdt : dt ≤ p.loop.cfl * (globHydro p nx ng X Gr order).timeStep W) {s : Fin n} {lo hi : ℝ} (hlo : 0 ≤ lo) (hhi : hi ≤ 1)
    (hfx : ∀ C, lo ≤ (W C).fx s ∧ (W C).fx s ≤ hi) (C : Cell) :
    lo ≤ ((globHydro p nx ng X Gr order).advance W t dt C).fx s ∧ ((globHydro p nx ng X Gr order).advance W t dt C).fx s ≤ hi := by
  rw [globHydro_advance]
  refine bcGlob_forall (I := fun f => lo ≤ f.fx s ∧ f.fx s ≤ hi) hpos (fun _ _ h => h) (fun g hg => ?_) C
  rw [progVal_plain hfix hs, hlim, hgeom]
  have hl : layer d (globExt nx (nghostOf d ng)) ng (g + nghostOf d ng) := layer_glob.2 (by rw [add_sub_cancel_right]; exact hg)
  have hpr : ∀ C, primGlob p.hydro.eos W C = ⟨(W C).cons.vel, (W C).cons.pressure p.hydro.eos⟩ := fun C => by rw [primGlob_toPrim, toPrim_eq]
  have hcin := layer_inExt hl (by omega)
  have hcb := inExt_iff.1 hcin
  have hG := globGeoOf p.hydro.tr .cartesian (globExt nx (nghostOf d ng)) X (Gr W)
  set P := globGrid p.hydro.tr .cartesian X (Gr W) with hP
  have hdx : ∀ a i, 0 ≤ i → i < globExt nx (nghostOf d ng) a → 0 < P.dx a i := fun a i h1 h2 => sub_pos.2 (hX.incr a i h1 (by simpa [globExt] using h2))
  have hin : ∀ (a : Fin d) (t : ℤ), -1 ≤ t → t ≤ 1 → inExt (globExt nx (nghostOf d ng)) (nb (g + nghostOf d ng) (ax a) t) = true := fun a t h1 h2 =>
    layer_inExt (layer_nb hd3 hl a h1 h2) (by omega)
  set c := g + nghostOf d ng with hc
  have hpc : ∀ b, 0 < P.dx b (c b) := fun b => hdx b _ (hcb b).1 (hcb b).2
  have hdv : 0 < P.dv c := by
    rw [hG.dv _ hcin]
    simp only [dvFun]
    have := hpc 0; have := hpc 1; have := hpc 2
    positivity
  have hds : ∀ a : Fin d, 0 ≤ P.ds c (ax a) := fun a => by
    rw [hG.ds _ hcin]
    simp only [dsFun]
    have := hpc 0; have := hpc 1; have := hpc 2
    split_ifs <;> positivity
  exact stepVal_fx_cfl he hf hsol p.hydro.tr P (dt := dt) (U := W) (up := primGlob p.hydro.eos W) (c := c) hd hd3 (fun a t _ _ => hW _)
    (fun a t _ _ => by rw [hpr, toPrim_eq]) (fun a t _ _ b => h0 _ _ b)
    (fun a t h1 h2 b => by
      rw [hG.ds _ (layer_inExt (layer_nb hd3 (layer_nb hd3 hl a h1 h2) b (by norm_num) (by norm_num)) (by omega)), hG.ds _ (hin a t h1 h2), dsFun_nb])
    (l := fun a => dt / P.dx (ax a) (c (ax a)))
    (fun a => by
      rw [hG.ds _ hcin, hG.dv _ hcin]
      exact dsFun_div p.hydro.tr P.x P.dx c a (fun b => (hpc b).ne') dt)
    (div_nonneg hdt0 hdv.le) hds
    (fun a t h1 h2 => by
      have hca : nb c (ax a) t (ax a) = c (ax a) + t := nb_self _ _ _
      have := (glob_dt (Gr := Gr) (order := order) hd hd3 hpos hng he hgeom hκ hX hc0 hcfl hW).2 dt hdt0 hdt c hcin _ a (hin a t h1 h2) (by omega) (by omega)
      rw [hpr] at this
      rw [← mul_div_assoc, div_mul_eq_mul_div, div_le_one (hpc _)]
      exact this)
    hlo hhi (fun a t _ _ => hfx _)

/-- **C100, whole runs.** Constant reconstruction, HLL or HLLC, Cartesian grid, no gravity, no pressure fix and no heating, any boundary conditions other than user
ones, any process grid. Let `κ` bound the ratio of the lengths of neighbouring cells and let the Courant number be at most `1 / (2 d κ)`. From an initial state of positive
density and pressure whose mass fractions `s` lie between `lo s` and `hi s` in all cells, with `0 ≤ lo s` and `hi s ≤ 1`, at every turn so do those of all cells of the arrays, ghosts
included, and of all files. -/
theorem C100_run_partial (hd : 0 < d) (hd3 : d ≤ 3) (hpos : ∀ a, 0 < nx a) (hng : 2 ≤ ng) (hp : ParamsOk p order) (hA : MachineOk nx ng Gr A)
    (hi : InitOf nx ng A S Fx U up) (clock : ℕ → Bool) (he : p.hydro.eos.Lawful) (hf : p.hydro.eos.Fast) (hpe : p.hydro.eos.Positive)
    (hlim : p.hydro.lim = .constant) (hsol : p.hydro.sol = .hll ∨ p.hydro.sol = .hllc)
    (hgeom : p.hydro.geom = .cartesian) (h0 : ∀ W C a, Gr W C a = 0) (hfix : p.fix = none) (hs : p.step ≠ .heatNickel) {κ : ℝ} (hκ : 0 ≤ κ)
    (hX : SmoothMesh d nx ng κ X) (hc0 : 0 ≤ p.loop.cfl) (hcfl : 2 * d * κ * p.loop.cfl ≤ 1) (ht : p.tIni ≤ p.loop.tEnd)
    (hS : ∀ g, inBox 0 nx g → 0 < (S g).rho ∧ 0 < (S g).P) {lo up' : Fin n → ℝ} (hlo : ∀ s, 0 ≤ lo s) (hup : ∀ s, up' s ≤ 1)
    (hFx : ∀ g, inBox 0 nx g → ∀ s, lo s ≤ Fx g s ∧ Fx g s ≤ up' s) (k : ℕ) :
    ∃ z, progRun p nx (nghostOf d ng) (borderOf A.dims) A clock (progFresh p nx (nghostOf d ng) (borderOf A.dims) A X U up) k = some z ∧
      (∀ r, inBox 0 A.dims r → ∀ c, inExt (localExt nx A.dims (nghostOf d ng) r) c = true → ∀ s, lo s ≤ (z.s.h.val r c).fx s ∧ (z.s.h.val r c).fx s ≤ up' s) ∧
      (∀ f ∈ z.files, ∀ g, inBox 0 nx g → ∀ s, lo s ≤ (f.h.fx s).at g ∧ (f.h.fx s).at g ≤ up' s) := by
  obtain ⟨z0, e0, f0⟩ := progFresh_follows (X := X) hd3 (fun a => (hpos a).le) hng hp hA hi
  obtain ⟨z, e, h⟩ := progRun_follows hd3 (fun a => (hpos a).le) hng hp hA clock e0 f0 k
  set W0 := bcGlob p.hydro.bcs nx (nghostOf d ng) order fun g => consFields p.hydro.eos (S g) (Fx g) with hW0
  have htt : ∀ W, (freshRun p.loop p.tIni W : RunState (Cell → Fields d n ℝ) ℝ).s.t = p.tIni := fun W => by unfold freshRun; split <;> rfl
  have hinit : ∀ C, (W0 C).cons.Adm p.hydro.eos := fun C => by
    refine bcGlob_forall (I := fun s => s.cons.Adm p.hydro.eos) hpos (fun s a h => Fields.flip_adm s a h) (fun g hg => ?_) C
    have e1 : toPrim p.hydro.eos (consFields p.hydro.eos (S g) (Fx g)).cons = S g := toPrim_toCons he (hS g hg).1
    refine ⟨(hS g hg).1, ?_⟩
    have := congrArg Prim.P e1
    rw [toPrim_eq] at this
    dsimp only at this
    rw [this]
    exact (hS g hg).2
  have hinitF : ∀ C s, lo s ≤ (W0 C).fx s ∧ (W0 C).fx s ≤ up' s := fun C s =>
    bcGlob_forall (I := fun f => lo s ≤ f.fx s ∧ f.fx s ≤ up' s) hpos (fun _ _ h => h) (fun g hg => hFx g hg s) C
  have h1 := freshRun_invariant (q := p.loop) (t := p.tIni) (I := fun (W : Cell → Fields d n ℝ) => (∀ C, (W C).cons.Adm p.hydro.eos) ∧ ∀ C s, lo s ≤ (W C).fx s ∧ (W C).fx s ≤ up' s)
    ⟨hinit, hinitF⟩
  have key := runN_invariant_dt (q := p.loop) (hy := globHydro p nx ng X Gr order) (clock := clock)
    (I := fun (W : Cell → Fields d n ℝ) => (∀ C, (W C).cons.Adm p.hydro.eos) ∧ ∀ C s, lo s ≤ (W C).fx s ∧ (W C).fx s ≤ up' s) h1.1 h1.2 (by rw [htt]; exact ht)
    (fun W hW => mul_nonneg hc0 (glob_dt (Gr := Gr) (order := order) hd hd3 hpos hng he hgeom hκ hX hc0 hcfl hW.1).1.le)
    (fun W t dt hW q1 q2 => ⟨advance_adm hd hd3 hpos hng he hf hpe hlim hsol hgeom h0 hfix hs hκ hX hc0 hcfl hW.1 t q1 q2,
      fun C s => advance_fx hd hd3 hpos hng he hf hlim hsol hgeom h0 hfix hs hκ hX hc0 hcfl hW.1 t q1 q2 (hlo s) (hup s) (fun C => hW.2 C s) C⟩) k
  refine ⟨z, e, fun r hr c hc s => ?_, fun f hf' g hg s => ?_⟩
  · rw [h.h.val r hr c hc]
    exact key.1.2 _ s
  · obtain ⟨o, ho, hfo, -⟩ := forall₂_mem h.files hf'
    rw [FileOf.at (hfo.fx s) hg]
    exact (key.2.2 o ho).2 _ s

/-- A 8 x 6 box with reflexive and free boundaries on 2 x 3 ranks, perfect gas, Courant number 1/4, any gas of positive density and pressure with one fraction between 1/4 and 3/4: it is so
in the files of a hundred iterations. -/
example (p : ProgParams 2 1) (hb : p.hydro.bcs = ![![.nullGradient, .nullGradient], ![.reflexive, .reflexive]])
    (hpo : p.hydro.order = [some 2, some 0, some 3, some 1]) (hs : p.step = .off) (hf : p.fix = none) (ht : p.top = 10 ^ 308) {g : Gas} (hg : g.Physical)
    (he : p.hydro.eos = PerfectGas.toEoS g) (hge : p.hydro.geom = .cartesian) (hl : p.hydro.lim = .constant) (hsol : p.hydro.sol = .hllc)
    (hc : p.loop.cfl = 1 / 4) (h0 : p.tIni = 0) (h1 : p.loop.tEnd = 1)
    (S : Cell → Prim 2 ℝ) (hS : ∀ g, inBox 0 ![8, 6, 1] g → 0 < (S g).rho ∧ 0 < (S g).P) (Fx : Cell → Fin 1 → ℝ) (hFx : ∀ g s, 1 / 4 ≤ Fx g s ∧ Fx g s ≤ 3 / 4) (clock : ℕ → Bool) :
    ∃ (A : Machine 2 1) (IA : (Cell → View Cell (Fields 2 1 ℝ)) × (Cell → View Cell (VelPres 2 ℝ))) (z : ProgState 2 1), A.dims = ![2, 3, 1] ∧
      progRun p ![8, 6, 1] (nghostOf 2 2) (borderOf A.dims) A clock
        (progFresh p ![8, 6, 1] (nghostOf 2 2) (borderOf A.dims) A (fun _ i => (i : ℝ) / 10) IA.1 IA.2) 100 = some z ∧
      ∀ f ∈ z.files, ∀ g, inBox 0 ![8, 6, 1] g → 1 / 4 ≤ (f.h.fx 0).at g ∧ (f.h.fx 0).at g ≤ 3 / 4 := by
  have hpos : ∀ a, 0 < (![8, 6, 1] : Cell) a := by decide
  have hN : ∀ a, 0 ≤ (![8, 6, 1] : Cell) a := by decide
  have hp : ParamsOk p [2, 0, 3, 1] := ⟨by rw [hb]; decide, by decide, hpo, fun _ => one_pos, by rw [ht]; norm_num⟩
  have hA := mkMachine_ok (d := 2) (n := 1) hN (dims := ![2, 3, 1]) (by decide) 0 (by norm_num) (demo_size _ (.inl rfl))
  have hi := initArrays_ok (nx := ![8, 6, 1]) (ng := 2) (A := mkMachine 2 1 ![8, 6, 1] 2 hN ![2, 3, 1] (by decide) 0) S Fx
  have hX : SmoothMesh 2 ![8, 6, 1] 2 1 fun _ i => (i : ℝ) / 10 :=
    ⟨fun a i _ _ => by push_cast; linarith, fun a i j _ _ _ _ _ _ => by push_cast; linarith⟩
  obtain ⟨z, e, -, h2⟩ := C100_run_partial (by norm_num) (by norm_num) hpos (by norm_num) hp hA hi clock (by rw [he]; exact PerfectGas.lawful hg)
    (by rw [he]; exact PerfectGas.fast hg) (by rw [he]; exact PerfectGas.positive hg) hl (.inr hsol) hge (fun _ _ _ => rfl) hf (by rw [hs]; simp)
    (by norm_num : (0 : ℝ) ≤ 1) hX (by rw [hc]; norm_num) (by rw [hc]; norm_num) (by rw [h0, h1]; norm_num) hS (lo := fun _ => 1 / 4) (up' := fun _ => 3 / 4)
    (fun _ => by norm_num) (fun _ => by norm_num) (fun g _ s => hFx g s) 100
  exact ⟨_, _, z, rfl, e, fun f hf g hg => h2 f hf g hg 0⟩

end Heracles

import Verif.Lemmas.Slide
import Verif.Props.SymmetryRuns
import Verif.Props.Translate

/-!
# C112: along a periodic axis no place is special, whatever the walls of the other axes
-/

namespace Heracles

variable {d n : ℕ} {p : ProgParams d n} {nx : Cell} {ng : ℤ} {X : Fin 3 → ℤ → ℝ}
  {Gr : (Cell → Fields d n ℝ) → Cell → Fin d → ℝ} {A B : Machine d n} {order : List ℕ} {S S' : Cell → Prim d ℝ} {Fx Fx' : Cell → Fin n → ℝ} {b : Fin d} {s : ℤ}

section Lemmas

theorem Slid.add {b : Fin 3} {N : ℤ} {g g' : Cell} (h : Slid b N s g g') (c : Cell) : Slid b N s (g + c) (g' + c) :=
  ⟨by
    simp only [Pi.add_apply]
    rw [add_right_comm, Int.add_emod, h.1, ← Int.add_emod], fun a ha => by simp only [Pi.add_apply, h.2 a ha]⟩

theorem FileOf.slid {f f' : LoopState (FluidFile d n) ℝ} {o o' : LoopState (Cell → Fields d n ℝ) ℝ} (hng : 0 ≤ ng)
    (ho : o.Related 1 (SlidData nx ng b s) o') (hf : FileOf p nx ng X o.h f.h)
    (hf' : FileOf p nx ng X o'.h f'.h) (e : f.withFluid () = o.withFluid ()) (e' : f'.withFluid () = o'.withFluid ()) : SlidFile nx (ax b) s f f' := by
  obtain ⟨w1, w2, w3, w4, w5⟩ := withFluid_eq e
  obtain ⟨v1, v2, v3, v4, v5⟩ := withFluid_eq e'
  have hW : ∀ g g', inBox 0 nx g → inBox 0 nx g' → Slid (ax b) (nx (ax b)) s g g' → o'.h (g' + nghostOf d ng) = o.h (g + nghostOf d ng) := fun g g' hg hg' eg =>
    ho.h _ _ (inExt_of_box ng hng hg) (inExt_of_box ng hng hg') (eg.add _)
  have hup : ∀ g g', inBox 0 nx g → inBox 0 nx g' → Slid (ax b) (nx (ax b)) s g g' →
      primGlob p.hydro.eos o'.h (g' + nghostOf d ng) = primGlob p.hydro.eos o.h (g + nghostOf d ng) := fun g g' hg hg' eg => by
    unfold primGlob
    rw [hW g g' hg hg' eg]
  exact
    { rho := fun g g' hg hg' eg => (hf'.rho.2 g' hg').trans (Eq.trans (by beta_reduce; rw [hW g g' hg hg' eg]) (hf.rho.2 g hg).symm)
      u := fun g g' hg hg' eg l => ((hf'.u l).2 g' hg').trans (Eq.trans (by beta_reduce; rw [hup g g' hg hg' eg]) ((hf.u l).2 g hg).symm)
      P := fun g g' hg hg' eg => (hf'.P.2 g' hg').trans (Eq.trans (by beta_reduce; rw [hup g g' hg hg' eg]) (hf.P.2 g hg).symm)
      E := fun g g' hg hg' eg => (hf'.E.2 g' hg').trans (Eq.trans (by beta_reduce; rw [hW g g' hg hg' eg]) (hf.E.2 g hg).symm)
      T := fun g g' hg hg' eg => (hf'.T.2 g' hg').trans (Eq.trans (by beta_reduce; rw [hW g g' hg hg' eg, hup g g' hg hg' eg]) (hf.T.2 g hg).symm)
      fx := fun g g' hg hg' eg l => ((hf'.fx l).2 g' hg').trans (Eq.trans (by beta_reduce; rw [hW g g' hg hg' eg]) ((hf.fx l).2 g hg).symm)
      t := by rw [v1, w1, ho.t, one_mul]
      iter := by rw [v2, w2, ho.iter]
      outputId := by rw [v3, w3, ho.outputId]
      iterId := by rw [v4, w4, ho.iterId]
      timeId := by rw [v5, w5, ho.timeId] }

theorem slidState {z z' : ProgState d n} {r r' : RunState (Cell → Fields d n ℝ) ℝ} (hN : ∀ a, 0 ≤ nx a) (hng : 0 ≤ ng) (hA : MachineOk nx ng Gr A) (hB : MachineOk nx ng Gr B)
    (hz : Follows p nx ng X A z r) (hz' : Follows p nx ng X B z' r') (hr : r.Related 1 (SlidData nx ng b s) r') : SlidState nx (ax b) s ng A.dims B.dims z z' := by
  obtain ⟨w1, w2, w3, w4, w5⟩ := withFluid_eq hz.s
  obtain ⟨v1, v2, v3, v4, v5⟩ := withFluid_eq hz'.s
  refine ⟨?_, ?_, ?_, ?_, ?_, ?_, ?_, ?_⟩
  · rw [hz'.status, hz.status, hr.status]
  · rw [v1, w1, hr.s.t, one_mul]
  · rw [v2, w2, hr.s.iter]
  · rw [v3, w3, hr.s.outputId]
  · rw [v4, w4, hr.s.iterId]
  · rw [v5, w5, hr.s.timeId]
  · intro k k' c c' hk hk' hc hc' eg
    have e1 := hz.h.val k hk c hc
    have e2 := hz'.h.val k' hk' c' hc'
    rw [e2, e1]
    refine hr.s.h _ _ (inExt_shift hN hA.pos hk hc) (inExt_shift hN hB.pos hk' hc') ?_
    rw [← global_add nx A.dims (nghostOf d ng), ← global_add nx B.dims (nghostOf d ng)]
    exact eg.add _
  · have key : ∀ {o o' : List (LoopState (Cell → Fields d n ℝ) ℝ)} {l l' : List (LoopState (FluidFile d n) ℝ)},
        List.Forall₂ (LoopState.Related 1 (SlidData nx ng b s)) o o' →
        List.Forall₂ (fun f o => FileOf p nx ng X o.h f.h ∧ f.withFluid () = o.withFluid ()) l o →
        List.Forall₂ (fun f o => FileOf p nx ng X o.h f.h ∧ f.withFluid () = o.withFluid ()) l' o' → List.Forall₂ (SlidFile nx (ax b) s) l l' := by
      intro o o' l l' h1 h2 h3
      induction h1 generalizing l l' with
      | nil =>
        cases h2
        cases h3
        exact .nil
      | cons a _ ih =>
        cases h2 with
        | cons b t =>
          cases h3 with
          | cons b' t' => exact .cons (FileOf.slid hng a b.1 b'.1 b.2 b'.2) (ih t t')
    exact key hr.outs hz.files hz'.files

end Lemmas

/-- **C112.** Axis `b` is periodic and has cells of one size `h`; the other axes have any mesh and at each face any of the built-in conditions; Cartesian, any limiter, any solver, with or without pressure fix and heating; a gravity that
depends on the cell only by its position across axis `b` (`hG`; a uniform one in any direction, or one that grows with height). Two runs on any process grids, with any orders of the loops; the second starts with the first one's data
displaced by `s` cells around axis `b`. Then after any number of turns of the main loop both have the same status, time and counters, the second holds the data of the first displaced by `s`, ghosts at the walls included, and every file
of the second is the file of the first displaced by `s`. -/
theorem C112_slide (hd3 : d ≤ 3) (hpos : ∀ a, 0 < nx a) (hng : 2 ≤ ng) (hp : ParamsOk p order) (hA : MachineOk nx ng Gr A) (hB : MachineOk nx ng Gr B)
    (hcart : p.hydro.geom = .cartesian) (hb : ∀ f, p.hydro.bcs b f = .periodic) {h : ℝ} (hX : ∀ i, X (ax b) (i + 1) - X (ax b) i = h)
    (hG : ∀ W W' C C', (∀ a, a ≠ ax b → C a = C' a) → Gr W C = Gr W' C') (s : ℤ)
    (hS : ∀ g g', inBox 0 nx g → inBox 0 nx g' → Slid (ax b) (nx (ax b)) s g g' → S' g' = S g ∧ Fx' g' = Fx g)
    {U U' : Cell → View Cell (Fields d n ℝ)} {up up' : Cell → View Cell (VelPres d ℝ)} (hi : InitOf nx ng A S Fx U up)
    (hi' : InitOf nx ng B S' Fx' U' up') (clock : ℕ → Bool) (m : ℕ) :
    ∃ z z', progRun p nx (nghostOf d ng) (borderOf A.dims) A clock (progFresh p nx (nghostOf d ng) (borderOf A.dims) A X U up) m = some z ∧
      progRun p nx (nghostOf d ng) (borderOf B.dims) B clock (progFresh p nx (nghostOf d ng) (borderOf B.dims) B X U' up') m = some z' ∧
      SlidState nx (ax b) s ng A.dims B.dims z z' := by
  have hN : ∀ a, 0 ≤ nx a := fun a => (hpos a).le
  obtain ⟨z0, e0, h0⟩ := progFresh_follows (X := X) hd3 hN hng hp hA hi
  obtain ⟨z0', e0', h0'⟩ := progFresh_follows (X := X) hd3 hN hng hp hB hi'
  obtain ⟨z, e, hz⟩ := progRun_follows hd3 hN hng hp hA clock e0 h0 m
  obtain ⟨z', e', hz'⟩ := progRun_follows hd3 hN hng hp hB clock e0' h0' m
  have hst : SlidData nx ng b s (bcGlob p.hydro.bcs nx (nghostOf d ng) order fun g => consFields p.hydro.eos (S g) (Fx g))
      (bcGlob p.hydro.bcs nx (nghostOf d ng) order fun g => consFields p.hydro.eos (S' g) (Fx' g)) :=
    bcGlob_slid hd3 (by omega) hpos (hA.ghosts_le hd3 hN) hp.ids hb fun g g' hg hg' eg => by
      obtain ⟨a1, a2⟩ := hS g g' hg hg' eg
      beta_reduce
      rw [a1, a2]
  have hrel := runN_related (p := p.loop) one_pos (globHydro_slid hd3 hpos hng (hA.ghosts_le hd3 hN) hcart hb hp.ids hX hG s)
    (freshRun_related (p := p.loop) (Rel := SlidData nx ng b s) one_pos hst p.tIni) clock m
  rw [scaleTime_one, one_mul] at hrel
  exact ⟨z, z', e, e', slidState hN (by omega) hA hB hz hz' hrel⟩

/-- **C112**, short periods. Data that repeat every `s` cells along the periodic axis at the start repeat every `s` cells along it in all later states and in all files. -/
theorem C112_period (hd3 : d ≤ 3) (hpos : ∀ a, 0 < nx a) (hng : 2 ≤ ng) (hp : ParamsOk p order) (hA : MachineOk nx ng Gr A)
    (hcart : p.hydro.geom = .cartesian) (hb : ∀ f, p.hydro.bcs b f = .periodic) {h : ℝ} (hX : ∀ i, X (ax b) (i + 1) - X (ax b) i = h)
    (hG : ∀ W W' C C', (∀ a, a ≠ ax b → C a = C' a) → Gr W C = Gr W' C') (s : ℤ)
    (hS : ∀ g g', inBox 0 nx g → inBox 0 nx g' → Slid (ax b) (nx (ax b)) s g g' → S g' = S g ∧ Fx g' = Fx g)
    {U : Cell → View Cell (Fields d n ℝ)} {up : Cell → View Cell (VelPres d ℝ)} (hi : InitOf nx ng A S Fx U up) (clock : ℕ → Bool) (m : ℕ) :
    ∃ z, progRun p nx (nghostOf d ng) (borderOf A.dims) A clock (progFresh p nx (nghostOf d ng) (borderOf A.dims) A X U up) m = some z ∧
      SlidState nx (ax b) s ng A.dims A.dims z z ∧ ∀ f ∈ z.files, SlidFile nx (ax b) s f f := by
  obtain ⟨z, z', e, e', hz⟩ := C112_slide hd3 hpos hng hp hA hA hcart hb hX hG s hS hi hi clock m
  obtain rfl : z = z' := Option.some.inj (e.symm.trans e')
  exact ⟨z, e, hz, forall₂_diag hz.files⟩

/-- A box of 8 x 6 cells, periodic along the first axis, between a wall and an open face along the second, whose cells grow, under gravity, with pressure fix and heating, on 2 x 3 and on 4 ranks; the second run starts displaced by 3 cells. -/
example (p : ProgParams 2 1) (hb0 : ∀ f, p.hydro.bcs 0 f = .periodic) (hb1 : p.hydro.bcs 1 0 = .reflexive) (hb2 : p.hydro.bcs 1 1 = .nullGradient) (hpo : p.hydro.order = [some 2, some 0, some 3, some 1]) (hge : p.hydro.geom = .cartesian)
    (hso : p.hydro.sol = .hllc) (hli : p.hydro.lim = .vanLeer) (hs : p.step = .heatNickel) (hf : p.fix = some (1 / 1000)) (ht : p.top = 10 ^ 308)
    {g : Gas} (he : p.hydro.eos = PerfectGas.toEoS g) (S : Cell → Prim 2 ℝ) (Fx : Cell → Fin 1 → ℝ) (clock : ℕ → Bool) (m : ℕ) :
    ∃ (A B : Machine 2 1) (IA IB : (Cell → View Cell (Fields 2 1 ℝ)) × (Cell → View Cell (VelPres 2 ℝ))) (z z' : ProgState 2 1),
      A.dims = ![2, 3, 1] ∧ B.dims = ![4, 1, 1] ∧
      progRun p ![8, 6, 1] (nghostOf 2 2) (borderOf A.dims) A clock
        (progFresh p ![8, 6, 1] (nghostOf 2 2) (borderOf A.dims) A (fun x i => if x = 0 then i / 10 else 2 ^ i) IA.1 IA.2) m = some z ∧
      progRun p ![8, 6, 1] (nghostOf 2 2) (borderOf B.dims) B clock
        (progFresh p ![8, 6, 1] (nghostOf 2 2) (borderOf B.dims) B (fun x i => if x = 0 then i / 10 else 2 ^ i) IB.1 IB.2) m = some z' ∧
      SlidState ![8, 6, 1] 0 3 2 A.dims B.dims z z' := by
  have hpos : ∀ a, 0 < (![8, 6, 1] : Cell) a := by decide
  have hN : ∀ a, 0 ≤ (![8, 6, 1] : Cell) a := by decide
  have hp : ParamsOk p [2, 0, 3, 1] := ⟨fun a f => by
    fin_cases a
    · show p.hydro.bcs 0 f ≠ _
      rw [hb0]; decide
    · fin_cases f
      · show p.hydro.bcs 1 0 ≠ _
        rw [hb1]; decide
      · show p.hydro.bcs 1 1 ≠ _
        rw [hb2]; decide, by decide, hpo, fun _ => one_pos, by rw [ht]; norm_num⟩
  have hA := mkMachine_ok (d := 2) (n := 1) hN (dims := ![2, 3, 1]) (by decide) (-10) (by norm_num) (demo_size _ (.inl rfl))
  have hB := mkMachine_ok (d := 2) (n := 1) hN (dims := ![4, 1, 1]) (by decide) (-10) (by norm_num) (demo_size _ (.inr rfl))
  obtain ⟨z, z', e, e', h⟩ := C112_slide (p := p) (b := 0) (X := fun x i => if x = 0 then i / 10 else 2 ^ i) (h := 1 / 10)
    (S := S) (Fx := Fx) (by norm_num) hpos (by norm_num) hp hA hB hge hb0 (fun i => by
      show (if (0 : Fin 3) = 0 then (((i + 1 : ℤ) : ℝ) / 10) else _) - (if (0 : Fin 3) = 0 then ((i : ℝ) / 10) else _) = 1 / 10
      rw [if_pos rfl, if_pos rfl]
      push_cast
      ring) (fun _ _ _ _ _ => rfl) 3
    (fun g g' hg hg' eg => by
      have e : g = wrap ![8, 6, 1] (g' + ![3, 0, 0]) := by
        refine (wrap_of_mem hg).symm.trans (funext fun a => ?_)
        fin_cases a
        · exact eg.1
        · show g 1 % 6 = (g' 1 + 0) % 6
          rw [eg.2 1 (by decide), add_zero]
        · show g 2 % 1 = (g' 2 + 0) % 1
          rw [eg.2 2 (by decide), add_zero]
      rw [e]
      exact ⟨rfl, rfl⟩)
    (initArrays_ok S Fx) (initArrays_ok (fun g => S (wrap ![8, 6, 1] (g + ![3, 0, 0]))) fun g => Fx (wrap ![8, 6, 1] (g + ![3, 0, 0]))) clock m
  exact ⟨_, _, _, _, z, z', rfl, rfl, e, e', h⟩

end Heracles

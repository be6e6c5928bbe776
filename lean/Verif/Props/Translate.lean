import Verif.Lemmas.Translate
import Verif.Spec.Translate
import Verif.Props.SymmetryRuns

/-!
# C108: no place of a periodic box is special
-/

namespace Heracles

variable {d n : ℕ} {p : ProgParams d n} {nx : Cell} {ng : ℤ} {X : Fin 3 → ℤ → ℝ}
  {Gr : (Cell → Fields d n ℝ) → Cell → Fin d → ℝ} {A B : Machine d n} {order : List ℕ} {S S' : Cell → Prim d ℝ} {Fx Fx' : Cell → Fin n → ℝ}

section Lemmas
variable {s : Cell}

/-- What was displaced, cell by cell. -/
theorem displaced {α : Type} {W : Cell → α} (hW : Repeats nx W) {g g' ngh : Cell} (e : ∀ a, g a % nx a = (g' a + s a) % nx a) : W (g' + ngh + s) = W (g + ngh) :=
  hW.eq (by
    have e' : wrap nx g = wrap nx (g' + s) := funext e
    rw [add_right_comm, ← wrap_wrap_add, ← e', wrap_wrap_add])

theorem FileOf.displaced {f f' : LoopState (FluidFile d n) ℝ} {o o' : LoopState (Cell → Fields d n ℝ) ℝ}
    (ho : o.Related 1 (fun W W' => Repeats nx W ∧ W' = fun C => W (C + s)) o') (hf : FileOf p nx ng X o.h f.h)
    (hf' : FileOf p nx ng X o'.h f'.h) (e : f.withFluid () = o.withFluid ()) (e' : f'.withFluid () = o'.withFluid ()) : ShiftedFile nx s f f' := by
  obtain ⟨w1, w2, w3, w4, w5⟩ := withFluid_eq e
  obtain ⟨v1, v2, v3, v4, v5⟩ := withFluid_eq e'
  obtain ⟨hr, hs⟩ := ho.h
  have hW : ∀ g g', (∀ a, g a % nx a = (g' a + s a) % nx a) → o'.h (g' + nghostOf d ng) = o.h (g + nghostOf d ng) := fun g g' eg => by
    rw [hs]
    exact Heracles.displaced hr eg
  have hup : ∀ g g', (∀ a, g a % nx a = (g' a + s a) % nx a) →
      primGlob p.hydro.eos o'.h (g' + nghostOf d ng) = primGlob p.hydro.eos o.h (g + nghostOf d ng) := fun g g' eg => by
    unfold primGlob
    rw [hW g g' eg]
  exact
    { rho := fun g g' hg hg' eg => (hf'.rho.2 g' hg').trans (Eq.trans (by beta_reduce; rw [hW g g' eg]) (hf.rho.2 g hg).symm)
      u := fun g g' hg hg' eg l => ((hf'.u l).2 g' hg').trans (Eq.trans (by beta_reduce; rw [hup g g' eg]) ((hf.u l).2 g hg).symm)
      P := fun g g' hg hg' eg => (hf'.P.2 g' hg').trans (Eq.trans (by beta_reduce; rw [hup g g' eg]) (hf.P.2 g hg).symm)
      E := fun g g' hg hg' eg => (hf'.E.2 g' hg').trans (Eq.trans (by beta_reduce; rw [hW g g' eg]) (hf.E.2 g hg).symm)
      T := fun g g' hg hg' eg => (hf'.T.2 g' hg').trans (Eq.trans (by beta_reduce; rw [hW g g' eg, hup g g' eg]) (hf.T.2 g hg).symm)
      fx := fun g g' hg hg' eg l => ((hf'.fx l).2 g' hg').trans (Eq.trans (by beta_reduce; rw [hW g g' eg]) ((hf.fx l).2 g hg).symm)
      t := by rw [v1, w1, ho.t, one_mul]
      iter := by rw [v2, w2, ho.iter]
      outputId := by rw [v3, w3, ho.outputId]
      iterId := by rw [v4, w4, ho.iterId]
      timeId := by rw [v5, w5, ho.timeId] }

theorem shiftedState {z z' : ProgState d n} {r r' : RunState (Cell → Fields d n ℝ) ℝ} (hz : Follows p nx ng X A z r) (hz' : Follows p nx ng X B z' r')
    (hr : r.Related 1 (fun W W' => Repeats nx W ∧ W' = fun C => W (C + s)) r') : ShiftedState nx s ng A.dims B.dims z z' := by
  obtain ⟨w1, w2, w3, w4, w5⟩ := withFluid_eq hz.s
  obtain ⟨v1, v2, v3, v4, v5⟩ := withFluid_eq hz'.s
  refine ⟨?_, ?_, ?_, ?_, ?_, ?_, ?_, ?_⟩
  · rw [hz'.status, hz.status, hr.status]
  · rw [v1, w1, hr.s.t, one_mul]
  · rw [v2, w2, hr.s.iter]
  · rw [v3, w3, hr.s.outputId]
  · rw [v4, w4, hr.s.iterId]
  · rw [v5, w5, hr.s.timeId]
  · intro k k' c c' hk hk' hc hc' eg
    have e1 := hz.h.val k hk c hc
    have e2 := hz'.h.val k' hk' c' hc'
    rw [← global_add nx A.dims (nghostOf d ng)] at e1
    rw [← global_add nx B.dims (nghostOf d ng), hr.s.h.2] at e2
    rw [e2, e1]
    exact Heracles.displaced hr.s.h.1 eg
  · have key : ∀ {o o' : List (LoopState (Cell → Fields d n ℝ) ℝ)} {l l' : List (LoopState (FluidFile d n) ℝ)},
        List.Forall₂ (LoopState.Related 1 fun W W' => Repeats nx W ∧ W' = fun C => W (C + s)) o o' →
        List.Forall₂ (fun f o => FileOf p nx ng X o.h f.h ∧ f.withFluid () = o.withFluid ()) l o →
        List.Forall₂ (fun f o => FileOf p nx ng X o.h f.h ∧ f.withFluid () = o.withFluid ()) l' o' → List.Forall₂ (ShiftedFile nx s) l l' := by
      intro o o' l l' h1 h2 h3
      induction h1 generalizing l l' with
      | nil =>
        cases h2
        cases h3
        exact .nil
      | cons a _ ih =>
        cases h2 with
        | cons b t =>
          cases h3 with
          | cons b' t' => exact .cons (FileOf.displaced a b.1 b'.1 b.2 b'.2) (ih t t')
    exact key hr.outs hz.files hz'.files

end Lemmas

/-- **C108.** A box that is periodic in all directions, with a uniform Cartesian mesh (cells of size `h a` along axis `a`) and a gravity that does not know places (`hG`; no gravity or a uniform one), any limiter, any solver, with or without
pressure fix and heating. Two runs on any process grids, with any orders of the loops; the second starts with the first one's data displaced by `s` cells around the box. Then after any number of turns of the main loop both have the same
status, time and counters, the second holds the data of the first displaced by `s`, ghosts included, and every file of the second is the file of the first displaced by `s`. -/
theorem C108_translation (hd3 : d ≤ 3) (hpos : ∀ a, 0 < nx a) (hng : 2 ≤ ng) (hp : ParamsOk p order) (hA : MachineOk nx ng Gr A) (hB : MachineOk nx ng Gr B)
    (hcart : p.hydro.geom = .cartesian) (hb : ∀ a f, p.hydro.bcs a f = .periodic) {h : Fin 3 → ℝ} (hX : ∀ a i, X a (i + 1) - X a i = h a)
    (hG : ∀ W s C, Gr (fun C => W (C + s)) C = Gr W (C + s)) (s : Cell)
    (hS : ∀ g g', inBox 0 nx g → inBox 0 nx g' → (∀ a, g a % nx a = (g' a + s a) % nx a) → S' g' = S g ∧ Fx' g' = Fx g)
    {U U' : Cell → View Cell (Fields d n ℝ)} {up up' : Cell → View Cell (VelPres d ℝ)} (hi : InitOf nx ng A S Fx U up)
    (hi' : InitOf nx ng B S' Fx' U' up') (clock : ℕ → Bool) (m : ℕ) :
    ∃ z z', progRun p nx (nghostOf d ng) (borderOf A.dims) A clock (progFresh p nx (nghostOf d ng) (borderOf A.dims) A X U up) m = some z ∧
      progRun p nx (nghostOf d ng) (borderOf B.dims) B clock (progFresh p nx (nghostOf d ng) (borderOf B.dims) B X U' up') m = some z' ∧
      ShiftedState nx s ng A.dims B.dims z z' := by
  have hN : ∀ a, 0 ≤ nx a := fun a => (hpos a).le
  obtain ⟨z0, e0, h0⟩ := progFresh_follows (X := X) hd3 hN hng hp hA hi
  obtain ⟨z0', e0', h0'⟩ := progFresh_follows (X := X) hd3 hN hng hp hB hi'
  obtain ⟨z, e, hz⟩ := progRun_follows hd3 hN hng hp hA clock e0 h0 m
  obtain ⟨z', e', hz'⟩ := progRun_follows hd3 hN hng hp hB clock e0' h0' m
  have e1 := bcGlob_periodic (n := n) hb hp.ids nx (nghostOf d ng) fun g => consFields p.hydro.eos (S g) (Fx g)
  have e2 := bcGlob_periodic (n := n) hb hp.ids nx (nghostOf d ng) fun g => consFields p.hydro.eos (S' g) (Fx' g)
  have hst : Repeats nx (bcGlob p.hydro.bcs nx (nghostOf d ng) order fun g => consFields p.hydro.eos (S g) (Fx g)) ∧
      bcGlob p.hydro.bcs nx (nghostOf d ng) order (fun g => consFields p.hydro.eos (S' g) (Fx' g)) =
        fun C => bcGlob p.hydro.bcs nx (nghostOf d ng) order (fun g => consFields p.hydro.eos (S g) (Fx g)) (C + s) := by
    rw [e1, e2]
    refine ⟨fun C k => ?_, funext fun C => ?_⟩
    · beta_reduce
      rw [add_sub_right_comm, wrap_add_mul]
    · obtain ⟨a1, a2⟩ := hS (wrap nx (C + s - nghostOf d ng)) (wrap nx (C - nghostOf d ng)) (wrap_mem hpos _) (wrap_mem hpos _) (fun a =>
        congrFun (show wrap nx (wrap nx (C + s - nghostOf d ng)) = wrap nx (wrap nx (C - nghostOf d ng) + s) by
          rw [wrap_wrap_add, wrap_of_mem (wrap_mem hpos _), add_sub_right_comm]) a)
      beta_reduce
      rw [a1, a2]
  have hrel := runN_related (p := p.loop) one_pos (globHydro_translate hd3 hpos hng hcart hb hp.ids hp.ids hX hG s)
    (freshRun_related (p := p.loop) (Rel := fun W W' : Cell → Fields d n ℝ => Repeats nx W ∧ W' = fun C => W (C + s)) one_pos hst p.tIni) clock m
  rw [scaleTime_one, one_mul] at hrel
  exact ⟨z, z', e, e', shiftedState hz hz' hrel⟩

/-- **C108**, short periods. In such a box, data that repeat every `s` cells at the start repeat every `s` cells in all later states and in all files, on every process grid, though the ranks need not be cut along the periods. -/
theorem C108_period (hd3 : d ≤ 3) (hpos : ∀ a, 0 < nx a) (hng : 2 ≤ ng) (hp : ParamsOk p order) (hA : MachineOk nx ng Gr A)
    (hcart : p.hydro.geom = .cartesian) (hb : ∀ a f, p.hydro.bcs a f = .periodic) {h : Fin 3 → ℝ} (hX : ∀ a i, X a (i + 1) - X a i = h a)
    (hG : ∀ W s C, Gr (fun C => W (C + s)) C = Gr W (C + s)) (s : Cell)
    (hS : ∀ g g', inBox 0 nx g → inBox 0 nx g' → (∀ a, g a % nx a = (g' a + s a) % nx a) → S g' = S g ∧ Fx g' = Fx g)
    {U : Cell → View Cell (Fields d n ℝ)} {up : Cell → View Cell (VelPres d ℝ)} (hi : InitOf nx ng A S Fx U up) (clock : ℕ → Bool) (m : ℕ) :
    ∃ z, progRun p nx (nghostOf d ng) (borderOf A.dims) A clock (progFresh p nx (nghostOf d ng) (borderOf A.dims) A X U up) m = some z ∧
      ShiftedState nx s ng A.dims A.dims z z ∧ ∀ f ∈ z.files, ShiftedFile nx s f f := by
  obtain ⟨z, z', e, e', hz⟩ := C108_translation hd3 hpos hng hp hA hA hcart hb hX hG s hS hi hi clock m
  obtain rfl : z = z' := Option.some.inj (e.symm.trans e')
  exact ⟨z, e, hz, forall₂_diag hz.files⟩

/-- A box of 8 x 6 cells under gravity, with pressure fix and heating, on 2 x 3 and on 4 ranks; the second run starts displaced by 3 and 5 cells. -/
example (p : ProgParams 2 1) (hb : ∀ a f, p.hydro.bcs a f = .periodic) (hpo : p.hydro.order = [some 2, some 0, some 3, some 1]) (hge : p.hydro.geom = .cartesian)
    (hso : p.hydro.sol = .splitting) (hli : p.hydro.lim = .vanAlbada) (hs : p.step = .heatNickel) (hf : p.fix = some (1 / 1000)) (ht : p.top = 10 ^ 308)
    {g : Gas} (he : p.hydro.eos = PerfectGas.toEoS g) (S : Cell → Prim 2 ℝ) (Fx : Cell → Fin 1 → ℝ) (clock : ℕ → Bool) (m : ℕ) :
    ∃ (A B : Machine 2 1) (IA IB : (Cell → View Cell (Fields 2 1 ℝ)) × (Cell → View Cell (VelPres 2 ℝ))) (z z' : ProgState 2 1),
      A.dims = ![2, 3, 1] ∧ B.dims = ![4, 1, 1] ∧
      progRun p ![8, 6, 1] (nghostOf 2 2) (borderOf A.dims) A clock
        (progFresh p ![8, 6, 1] (nghostOf 2 2) (borderOf A.dims) A (fun x i => if x = 0 then i / 10 else i / 5) IA.1 IA.2) m = some z ∧
      progRun p ![8, 6, 1] (nghostOf 2 2) (borderOf B.dims) B clock
        (progFresh p ![8, 6, 1] (nghostOf 2 2) (borderOf B.dims) B (fun x i => if x = 0 then i / 10 else i / 5) IB.1 IB.2) m = some z' ∧
      ShiftedState ![8, 6, 1] ![3, 5, 0] 2 A.dims B.dims z z' := by
  have hpos : ∀ a, 0 < (![8, 6, 1] : Cell) a := by decide
  have hN : ∀ a, 0 ≤ (![8, 6, 1] : Cell) a := by decide
  have hp : ParamsOk p [2, 0, 3, 1] := ⟨fun a f => by rw [hb]; decide, by decide, hpo, fun _ => one_pos, by rw [ht]; norm_num⟩
  have hA := mkMachine_ok (d := 2) (n := 1) hN (dims := ![2, 3, 1]) (by decide) (-10) (by norm_num) (demo_size _ (.inl rfl))
  have hB := mkMachine_ok (d := 2) (n := 1) hN (dims := ![4, 1, 1]) (by decide) (-10) (by norm_num) (demo_size _ (.inr rfl))
  obtain ⟨z, z', e, e', h⟩ := C108_translation (p := p) (X := fun x i => if x = 0 then i / 10 else i / 5) (h := fun x => if x = 0 then 1 / 10 else 1 / 5)
    (S := S) (Fx := Fx) (by norm_num) hpos (by norm_num) hp hA hB hge hb (fun a i => by split <;> push_cast <;> ring) (fun _ _ _ => rfl) ![3, 5, 0]
    (fun g g' hg hg' eg => by
      rw [show g = wrap ![8, 6, 1] (g' + ![3, 5, 0]) from (wrap_of_mem hg).symm.trans (funext eg)]
      exact ⟨rfl, rfl⟩)
    (initArrays_ok S Fx) (initArrays_ok (fun g => S (wrap ![8, 6, 1] (g + ![3, 5, 0]))) fun g => Fx (wrap ![8, 6, 1] (g + ![3, 5, 0]))) clock m
  exact ⟨_, _, _, _, z, z', rfl, rfl, e, e', h⟩

/-- A gas whose pressure repeats every four cells stays so, on 3 ranks along an axis of 8 cells. -/
example (p : ProgParams 1 1) (hb : ∀ a f, p.hydro.bcs a f = .periodic) (hpo : p.hydro.order = [some 0, some 1]) (hge : p.hydro.geom = .cartesian)
    (hso : p.hydro.sol = .hllc) (hli : p.hydro.lim = .minmod) (ht : p.top = 10 ^ 308) {g : Gas} (he : p.hydro.eos = PerfectGas.toEoS g) (clock : ℕ → Bool) (m : ℕ) :
    ∃ (A : Machine 1 1) (IA : (Cell → View Cell (Fields 1 1 ℝ)) × (Cell → View Cell (VelPres 1 ℝ))) (z : ProgState 1 1), A.dims = ![3, 1, 1] ∧
      progRun p ![8, 1, 1] (nghostOf 1 2) (borderOf A.dims) A clock
        (progFresh p ![8, 1, 1] (nghostOf 1 2) (borderOf A.dims) A (fun _ i => i / 10) IA.1 IA.2) m = some z ∧
      ∀ f ∈ z.files, f.h.rho.at ![5, 0, 0] = f.h.rho.at ![1, 0, 0] ∧ f.h.P.at ![2, 0, 0] = f.h.P.at ![6, 0, 0] := by
  have hpos : ∀ a, 0 < (![8, 1, 1] : Cell) a := by decide
  have hN : ∀ a, 0 ≤ (![8, 1, 1] : Cell) a := by decide
  have hp : ParamsOk p [0, 1] := ⟨fun a f => by rw [hb]; decide, by decide, hpo, fun _ => one_pos, by rw [ht]; norm_num⟩
  have hA := mkMachine_ok (d := 1) (n := 1) hN (dims := ![3, 1, 1]) (by decide) 0 (ng := 2) (by norm_num) (by
    intro a ha r h0 h1
    obtain rfl : a = 0 := by ext; simp only [Fin.val_zero]; omega
    have h1 : r < 3 := h1
    interval_cases r <;> decide)
  obtain ⟨z, e, -, h⟩ := C108_period (p := p) (X := fun _ i => i / 10) (h := fun _ => 1 / 10)
    (S := fun g => ⟨1, 0, if g 0 % 4 < 2 then 10 else 1⟩) (Fx := fun _ _ => 0) (by norm_num) hpos (by norm_num) hp hA hge hb (fun a i => by push_cast; ring) (fun _ _ _ => rfl) ![4, 0, 0]
    (fun g g' hg hg' eg => by
      have : g 0 % 8 = (g' 0 + 4) % 8 := eg 0
      rw [show g' 0 % 4 = g 0 % 4 by omega]
      exact ⟨rfl, rfl⟩)
    (initArrays_ok _ _) clock m
  exact ⟨_, _, z, rfl, e, fun f hf => ⟨(h f hf).rho ![1, 0, 0] ![5, 0, 0] (by decide) (by decide) (by decide), (h f hf).P ![6, 0, 0] ![2, 0, 0] (by decide) (by decide) (by decide)⟩⟩

end Heracles

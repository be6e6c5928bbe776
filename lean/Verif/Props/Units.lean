import Verif.Lemmas.UnitsRun
import Verif.Props.MovingProgram

/-!
# The choice of units

C80: a problem given in other units of length, time and density is the same problem. All turns, outputs and decisions of the run are the
same, and every number in its files is multiplied by the factor of its unit.
-/

namespace Heracles

variable {d n : ℕ}

/-- A dataset whose values are multiplied by `q`. -/
def RescaledDataset (q : ℝ) (v v' : View (List ℤ) ℝ) : Prop := v.dom = v'.dom ∧ ∀ i, v.dom i = true → v'.val i = q * v.val i

/-- The same file in the new units. -/
structure RescaledFile (k : Units ℝ) (θ : ℝ) (geom : Geom) (f f' : LoopState (FluidFile d n) ℝ) : Prop where
  rho : RescaledDataset k.dens f.h.rho f'.h.rho
  u : ∀ l, RescaledDataset (k.len / k.time) (f.h.u l) (f'.h.u l)
  P : RescaledDataset (k.dens * (k.len / k.time) ^ 2) f.h.P f'.h.P
  E : RescaledDataset (k.dens * (k.len / k.time) ^ 2) f.h.E f'.h.E
  T : RescaledDataset θ f.h.T f'.h.T
  fx : ∀ l, SameDataset (f.h.fx l) (f'.h.fx l)
  nAxis : f.h.nAxis = f'.h.nAxis
  x : ∀ a i, f'.h.x a i = (if geom = .spherical ∧ a ≠ 0 then 1 else k.len) * f.h.x a i
  t : f'.t = k.time * f.t
  iter : f'.iter = f.iter
  outputId : f'.outputId = f.outputId
  iterId : f'.iterId = f.iterId
  timeId : f'.timeId = f.timeId

/-- The same state of a run in the new units: any two cells, ghosts included, that represent the same cell of the domain hold the same
fields. -/
structure RescaledState (k : Units ℝ) (nx : Cell) (ng : ℤ) (dims dims' : Cell) (z z' : ProgState d n) : Prop where
  status : z'.status = z.status
  t : z'.s.t = k.time * z.s.t
  iter : z'.s.iter = z.s.iter
  outputId : z'.s.outputId = z.s.outputId
  iterId : z'.s.iterId = z.s.iterId
  timeId : z'.s.timeId = z.s.timeId
  fluid : ∀ rank rank' c c', inBox 0 dims rank → inBox 0 dims' rank' →
    inExt (localExt nx dims (nghostOf d ng) rank) c = true → inExt (localExt nx dims' (nghostOf d ng) rank') c' = true →
    globalOf nx dims (nghostOf d ng) rank c = globalOf nx dims' (nghostOf d ng) rank' c' →
    (z'.s.h.val rank' c').rho = k.dens * (z.s.h.val rank c).rho ∧
    (∀ i, (z'.s.h.val rank' c').rhou i = k.dens * (k.len / k.time) * (z.s.h.val rank c).rhou i) ∧
    (z'.s.h.val rank' c').E = k.dens * (k.len / k.time) ^ 2 * (z.s.h.val rank c).E ∧
    (z'.s.h.val rank' c').fx = (z.s.h.val rank c).fx

section Lemmas
variable {k : Units ℝ} {θ : ℝ} {p p' : ProgParams d n} {nx : Cell} {ng : ℤ} {X : Fin 3 → ℤ → ℝ}

theorem Dataset.rescaled {v v' : View (List ℤ) ℝ} {G G' : Cell → ℝ} {q : ℝ} (h : Dataset nx v G) (h' : Dataset nx v' G') (e : ∀ g, G' g = q * G g) :
    RescaledDataset q v v' := by
  refine ⟨h.1.trans h'.1.symm, fun i hi => ?_⟩
  rw [h.1] at hi
  obtain ⟨g, hg, rfl⟩ := dataIndex_of_dom hi
  rw [h.2 g hg, h'.2 g hg, e]

theorem FileOf.rescaled (h : k.Pos) (hp : p.Rescaled k θ p') {f f' : LoopState (FluidFile d n) ℝ}
    {o o' : LoopState (Cell → Fields d n ℝ) ℝ} (ho : o.Related k.time (fun W W' => W' = fun C => (W C).scale k) o')
    (hf : FileOf p nx ng X o.h f.h) (hf' : FileOf p' nx ng (scaleNodes k p.hydro.geom X) o'.h f'.h)
    (e : f.withFluid () = o.withFluid ()) (e' : f'.withFluid () = o'.withFluid ()) : RescaledFile k θ p.hydro.geom f f' := by
  obtain ⟨w1, w2, w3, w4, w5⟩ := withFluid_eq e
  obtain ⟨v1, v2, v3, v4, v5⟩ := withFluid_eq e'
  have hW := ho.h
  have hup : ∀ C, primGlob p'.hydro.eos o'.h C = (primGlob p.hydro.eos o.h C).scale k := fun C => by
    rw [hW]
    exact congrFun (primGlob_scale h hp.eos o.h) C
  have hfx : ∀ l g, (o'.h (g + nghostOf d ng)).fx l = (o.h (g + nghostOf d ng)).fx l := fun l g => by
    rw [hW]
    rfl
  exact
    { rho := hf.rho.rescaled hf'.rho fun g => by rw [hW]; rfl
      u := fun l => (hf.u l).rescaled (hf'.u l) fun g => by rw [hup]; rfl
      P := hf.P.rescaled hf'.P fun g => by rw [hup]; rfl
      E := hf.E.rescaled hf'.E fun g => by rw [hW]; rfl
      T := hf.T.rescaled hf'.T fun g => by
        rw [hup, hW]
        exact hp.temp _ _
      fx := fun l => (hf.fx l).same ⟨(hf'.fx l).1, fun g hg => ((hf'.fx l).2 g hg).trans (hfx l g)⟩
      nAxis := hf.nAxis.trans hf'.nAxis.symm
      x := fun a i => by
        rw [hf.x, hf'.x]
        rfl
      t := by rw [v1, w1, ho.t]
      iter := by rw [v2, w2, ho.iter]
      outputId := by rw [v3, w3, ho.outputId]
      iterId := by rw [v4, w4, ho.iterId]
      timeId := by rw [v5, w5, ho.timeId] }

theorem files_rescaled (h : k.Pos) (hp : p.Rescaled k θ p') {l l' : List (LoopState (FluidFile d n) ℝ)}
    {o o' : List (LoopState (Cell → Fields d n ℝ) ℝ)} (ho : List.Forall₂ (LoopState.Related k.time fun W W' => W' = fun C => (W C).scale k) o o')
    (hf : List.Forall₂ (fun f o => FileOf p nx ng X o.h f.h ∧ f.withFluid () = o.withFluid ()) l o)
    (hf' : List.Forall₂ (fun f o => FileOf p' nx ng (scaleNodes k p.hydro.geom X) o.h f.h ∧ f.withFluid () = o.withFluid ()) l' o') :
    List.Forall₂ (RescaledFile k θ p.hydro.geom) l l' := by
  induction ho generalizing l l' with
  | nil =>
    cases hf
    cases hf'
    exact .nil
  | cons a _ ih =>
    cases hf with
    | cons b t =>
      cases hf' with
      | cons b' t' => exact .cons (FileOf.rescaled h hp a b.1 b'.1 b.2 b'.2) (ih t t')

end Lemmas

variable {k : Units ℝ} {θ : ℝ} {p p' : ProgParams d n} {nx : Cell} {ng : ℤ} {X : Fin 3 → ℤ → ℝ}
  {Gr Gr' : (Cell → Fields d n ℝ) → Cell → Fin d → ℝ} {A B : Machine d n} {order : List ℕ} {S : Cell → Prim d ℝ} {Fx : Cell → Fin n → ℝ}

/-- **C80**. Two runs of the whole program, on any process grids: the second is given the initial densities, velocities and pressures, the
nodes, the force and the times of the first in other units (factors `k`), and a gas that is the same gas in these units. Without the
heating by nickel, whose constants have units, and if some cell has non-negative lengths (so that the largest rate is that of a cell),
both runs make the same turns: after any number of turns they have the same status and the same counters, the time and every field is
multiplied by the factor of its unit in all cells (ghosts included), and they have written the same files, every dataset multiplied
by the factor of its unit. This holds for all solvers, limiters, boundary conditions (in any order), both geometries and with or without
the pressure fix. -/
theorem C80_units (h : k.Pos) (hd3 : d ≤ 3) (hN : ∀ a, 0 ≤ nx a) (hng : 2 ≤ ng) (ho : ParamsOk p order) (ho' : ParamsOk p' order)
    (hp : p.Rescaled k θ p') (hr : RateOk p p' nx ng X) (hA : MachineOk nx ng Gr A) (hB : MachineOk nx ng Gr' B)
    (hg : ∀ W C a, Gr' (fun C => (W C).scale k) C a = k.len / k.time ^ 2 * Gr W C a)
    {U U' : Cell → View Cell (Fields d n ℝ)} {up up' : Cell → View Cell (VelPres d ℝ)} (hi : InitOf nx ng A S Fx U up)
    (hi' : InitOf nx ng B (fun c => (S c).scale k) Fx U' up') (clock : ℕ → Bool) (m : ℕ) :
    ∃ z z', progRun p nx (nghostOf d ng) (borderOf A.dims) A clock (progFresh p nx (nghostOf d ng) (borderOf A.dims) A X U up) m = some z ∧
      progRun p' nx (nghostOf d ng) (borderOf B.dims) B clock
        (progFresh p' nx (nghostOf d ng) (borderOf B.dims) B (fun a i => k.axis p.hydro.geom a * X a i) U' up') m = some z' ∧
      RescaledState k nx ng A.dims B.dims z z' ∧ List.Forall₂ (RescaledFile k θ p.hydro.geom) z.files z'.files := by
  obtain ⟨z0, e0, h0⟩ := progFresh_follows (X := X) hd3 hN hng ho hA hi
  obtain ⟨z0', e0', h0'⟩ := progFresh_follows (X := scaleNodes k p.hydro.geom X) hd3 hN hng ho' hB hi'
  obtain ⟨z, e, hz⟩ := progRun_follows hd3 hN hng ho hA clock e0 h0 m
  obtain ⟨z', e', hz'⟩ := progRun_follows hd3 hN hng ho' hB clock e0' h0' m
  have hst : bcGlob p'.hydro.bcs nx (nghostOf d ng) order (fun g => consFields p'.hydro.eos ((S g).scale k) (Fx g)) =
      fun C => (bcGlob p.hydro.bcs nx (nghostOf d ng) order (fun g => consFields p.hydro.eos (S g) (Fx g)) C).scale k := by
    rw [hp.bcs, ← bcGlob_scale]
    congr 1
    funext g
    exact consFields_scale hp.eos _ _
  have hrel := runN_related (p := p.loop) h.time (globHydro_related h hd3 hp hr hg order fun W => isRate_exists _ _ _ _ _ _ _ _)
    (freshRun_related (p := p.loop) (Rel := fun W W' : Cell → Fields d n ℝ => W' = fun C => (W C).scale k) h.time hst p.tIni) clock m
  rw [← hp.loop, ← hp.tIni] at hrel
  refine ⟨z, z', e, e', ?_, files_rescaled h hp hrel.outs hz.files hz'.files⟩
  obtain ⟨w1, w2, w3, w4, w5⟩ := withFluid_eq hz.s
  obtain ⟨v1, v2, v3, v4, v5⟩ := withFluid_eq hz'.s
  refine ⟨?_, ?_, ?_, ?_, ?_, ?_, ?_⟩
  · rw [hz'.status, hz.status, hrel.status]
  · rw [v1, w1, hrel.s.t]
  · rw [v2, w2, hrel.s.iter]
  · rw [v3, w3, hrel.s.outputId]
  · rw [v4, w4, hrel.s.iterId]
  · rw [v5, w5, hrel.s.timeId]
  · intro r r' c c' hr1 hr2 hc hc' eg
    have e1 := hz.h.val r hr1 c hc
    have e2 := hz'.h.val r' hr2 c' hc'
    rw [← global_add nx A.dims (nghostOf d ng)] at e1
    rw [← global_add nx B.dims (nghostOf d ng), ← eg, hrel.s.h] at e2
    rw [e2, e1]
    exact ⟨rfl, fun _ => rfl, rfl, rfl⟩

/-- A perfect gas is the same gas in all units. -/
theorem perfectGas_rescaled (h : k.Pos) (g : Gas) : (PerfectGas.toEoS g).Rescaled k (PerfectGas.toEoS g) where
  evol := fun rho P => by
    show k.dens * rho * kB * (k.pres * P * g.mmw * mP / (k.dens * rho * kB)) / (g.mmw * mP * g.gammaM1) =
      k.pres * (rho * kB * (P * g.mmw * mP / (rho * kB)) / (g.mmw * mP * g.gammaM1))
    rw [mul_assoc k.dens rho, mul_assoc k.dens (rho * kB), mul_div_assoc', mul_div_assoc', mul_div_mul_left _ _ h.dens.ne']
    ring
  pres := fun rho e => by
    show k.dens * rho * kB * (k.pres * e * g.mmw * mP * g.gammaM1 / (k.dens * rho * kB)) / (g.mmw * mP) =
      k.pres * (rho * kB * (e * g.mmw * mP * g.gammaM1 / (rho * kB)) / (g.mmw * mP))
    rw [mul_assoc k.dens rho, mul_assoc k.dens (rho * kB), mul_div_assoc', mul_div_assoc', mul_div_mul_left _ _ h.dens.ne']
    ring
  sound := fun rho P => by
    show Real.sqrt (g.gamma * (k.pres * P) / (k.dens * rho)) = k.vel * Real.sqrt (g.gamma * P / rho)
    rw [show g.gamma * (k.pres * P) / (k.dens * rho) = k.vel ^ 2 * (g.gamma * P / rho) by
      unfold Units.pres
      rw [show g.gamma * (k.dens * k.vel ^ 2 * P) = k.dens * (k.vel ^ 2 * (g.gamma * P)) by ring, mul_div_mul_left _ _ h.dens.ne', mul_div_assoc],
      Real.sqrt_mul (sq_nonneg _), Real.sqrt_sq h.vel.le]

/-- The temperature of a perfect gas is multiplied by the square of the factor of velocities: `k_B` and `m_p` keep their values. -/
theorem perfectGas_temp (h : k.Pos) (g : Gas) (rho P : ℝ) :
    PerfectGas.tempFromPres g (k.dens * rho) (k.pres * P) = (k.len / k.time) ^ 2 * PerfectGas.tempFromPres g rho P := by
  unfold PerfectGas.tempFromPres Units.pres
  rw [show k.dens * k.vel ^ 2 * P * g.mmw * mP = k.dens * (k.vel ^ 2 * (P * g.mmw * mP)) by ring, mul_assoc k.dens, mul_div_mul_left _ _ h.dens.ne',
    mul_div_assoc]
  rfl

/-- A perfect gas in a box of 8 x 6 cells in uniform gravity, HLLC, van Leer slopes, a wall and an outlet below and above, pressure fix: in
metres, seconds and kg/m3 on 2 x 3 ranks, and in centimetres, milliseconds and g/cm3 on 4 x 1 ranks. -/
example (p : ProgParams 2 1) (hb : p.hydro.bcs = ![![.periodic, .periodic], ![.reflexive, .nullGradient]])
    (hpo : p.hydro.order = [some 2, some 0, some 3, some 1]) (hge : p.hydro.geom = .cartesian) (hso : p.hydro.sol = .hllc)
    (hli : p.hydro.lim = .vanLeer) (hs : p.step = .off) (hf : p.fix = some (1 / 1000)) (ht : p.top = 10 ^ 308) (hlo : p.hydro.lo = -10 ^ 308)
    {g : Gas} (he : p.hydro.eos = PerfectGas.toEoS g) (hte : p.temp = PerfectGas.tempFromPres g)
    (S : Cell → Prim 2 ℝ) (Fx : Cell → Fin 1 → ℝ) (clock : ℕ → Bool) (m : ℕ) :
    let k : Units ℝ := ⟨100, 1000, 1 / 1000⟩
    let p' : ProgParams 2 1 := { p with loop := p.loop.scaleTime 1000, tIni := 1000 * p.tIni }
    let X : Fin 3 → ℤ → ℝ := fun _ i => i / 10
    ∃ (A B : Machine 2 1) (IA IB : (Cell → View Cell (Fields 2 1 ℝ)) × (Cell → View Cell (VelPres 2 ℝ))) (z z' : ProgState 2 1),
      A.dims = ![2, 3, 1] ∧ B.dims = ![4, 1, 1] ∧
      progRun p ![8, 6, 1] (nghostOf 2 2) (borderOf A.dims) A clock (progFresh p ![8, 6, 1] (nghostOf 2 2) (borderOf A.dims) A X IA.1 IA.2) m = some z ∧
      progRun p' ![8, 6, 1] (nghostOf 2 2) (borderOf B.dims) B clock
        (progFresh p' ![8, 6, 1] (nghostOf 2 2) (borderOf B.dims) B (fun a i => k.axis p.hydro.geom a * X a i) IB.1 IB.2) m = some z' ∧
      RescaledState k ![8, 6, 1] 2 A.dims B.dims z z' ∧ List.Forall₂ (RescaledFile k ((100 / 1000) ^ 2) .cartesian) z.files z'.files := by
  intro k p' X
  have hk : k.Pos := ⟨by norm_num [k], by norm_num [k], by norm_num [k]⟩
  have hN : ∀ a, 0 ≤ (![8, 6, 1] : Cell) a := by decide
  have hp : ParamsOk p [2, 0, 3, 1] := ⟨by rw [hb]; decide, by decide, hpo, fun _ => one_pos, by rw [ht]; norm_num⟩
  have hp' : ParamsOk p' [2, 0, 3, 1] := ⟨hp.bcs, hp.ids, hp.order, hp.heat, hp.top⟩
  have hres : p.Rescaled k ((100 / 1000) ^ 2) p' :=
    { lim := rfl, sol := rfl, tr := rfl, geom := rfl, bcs := rfl, loop := rfl, tIni := rfl, fix := rfl
      eos := by
        show p.hydro.eos.Rescaled k p.hydro.eos
        rw [he]
        exact perfectGas_rescaled hk g
      temp := by
        show ∀ rho P, p.temp (k.dens * rho) (k.pres * P) = _
        rw [hte]
        exact perfectGas_temp hk g
      step := by rw [hs]; decide
      step' := by show p.step ≠ _; rw [hs]; decide }
  have hrate : RateOk p p' ![8, 6, 1] 2 X :=
    { lo := by rw [hlo]; norm_num
      lo' := by show p.hydro.lo ≤ 0; rw [hlo]; norm_num
      sound := fun rho P => by rw [he]; exact Real.sqrt_nonneg _
      cell := ⟨0, by decide, fun a => by
        rw [hge]
        simp only [cellLength, reduceCtorEq, if_false, X]
        push_cast
        linarith⟩ }
  obtain ⟨z, z', e, e', h1, h2⟩ := C80_units (X := X) (S := S) (Fx := Fx) hk (by norm_num) hN (by norm_num) hp hp' hres hrate
    (mkMachine_ok (d := 2) (n := 1) hN (dims := ![2, 3, 1]) (by decide) (-10) (by norm_num) (demo_size _ (.inl rfl)))
    (mkMachine_ok (d := 2) (n := 1) hN (dims := ![4, 1, 1]) (by decide) (k.len / k.time ^ 2 * -10) (by norm_num) (demo_size _ (.inr rfl)))
    (fun _ _ _ => rfl) (initArrays_ok S Fx) (initArrays_ok _ Fx) clock m
  rw [hge] at h2
  exact ⟨_, _, _, _, z, z', rfl, rfl, e, e', h1, h2⟩

end Heracles

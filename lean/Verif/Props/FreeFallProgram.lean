import Verif.Props.FreeFallRun
import Verif.Props.WindRun

/-!
# C73 over whole runs of the program
-/

namespace Heracles

variable {d n : ℕ} {p : ProgParams d n} {nx : Cell} {ng : ℤ} {X : Fin 3 → ℤ → ℝ} {Gr : (Cell → Fields d n ℝ) → Cell → Fin d → ℝ} {A : Machine d n}
  {order : List ℕ} {S : Cell → Prim d ℝ} {Fx : Cell → Fin n → ℝ} {U : Cell → View Cell (Fields d n ℝ)} {up : Cell → View Cell (VelPres d ℝ)} {force : Fin d → ℝ}

/-- The internal energy of a state given by density, velocity and pressure. -/
theorem toCons_eint {eos : EoS ℝ} {w : Prim d ℝ} (hr : w.rho ≠ 0) : (toCons eos w).eint = eos.evolFromPres w.rho w.P := by
  show eos.evolFromPres w.rho w.P + w.rho * (∑ i, w.u i * w.u i) / 2 - (∑ i, (w.rho * w.u i) ^ 2) / (2 * w.rho) = _
  have e1 : ∑ i, (w.rho * w.u i) ^ 2 = w.rho ^ 2 * ∑ i, w.u i * w.u i := by
    rw [Finset.mul_sum]
    exact Finset.sum_congr rfl fun i _ => by ring
  rw [e1]
  field_simp
  ring

/-- An invariant of the loop variables holds along the run and in its files. -/
theorem runN_inv {H : Type} {q : LoopParams ℝ} {hy : Hydro H ℝ} {clock : ℕ → Bool} {r : RunState H ℝ} {I : H → ℝ → Prop}
    (h0 : I r.s.h r.s.t) (ho : ∀ o ∈ r.outs, I o.h o.t) (hstep : ∀ h t dt, I h t → I (hy.advance h t dt) (t + dt)) (k : ℕ) :
    I (runN q hy clock r k).s.h (runN q hy clock r k).s.t ∧ ∀ o ∈ (runN q hy clock r k).outs, I o.h o.t := by
  induction k with
  | zero => exact ⟨h0, ho⟩
  | succ k ih =>
    unfold runN runStep
    split
    · unfold iteration
      rcases hD : decideStep q (hy.timeStep (runN q hy clock r k).s.h) (clock k) (runN q hy clock r k).s with m | D
      · exact ih
      · dsimp only
        by_cases hbad : hy.bad (runN q hy clock r k).s.h = true
        · rw [if_pos hbad]
          refine ⟨ih.1, fun o ho => ?_⟩
          rcases List.mem_append.1 ho with ho | ho
          · exact ih.2 o ho
          · rw [List.mem_singleton.1 ho]
            exact ih.1
        · rw [if_neg hbad]
          refine ⟨hstep _ _ _ ih.1, fun o ho => ?_⟩
          dsimp only at ho
          split at ho
          · rcases List.mem_append.1 ho with ho | ho
            · exact ih.2 o ho
            · rw [List.mem_singleton.1 ho]
              exact hstep _ _ _ ih.1
          · exact ih.2 o ho
    · exact ih

/-- A uniform gas `e`, `rho`, `fx` that fell from velocity `u` for a time `t`. -/
def Fell (rho : ℝ) (u force : Fin d → ℝ) (fx : Fin n → ℝ) (e t : ℝ) (W : Cell → Fields d n ℝ) : Prop :=
  ∃ q : Fields d n ℝ, (∀ C, W C = q) ∧ q.rho = rho ∧ q.fx = fx ∧ (∀ a, q.rhou a = rho * (u a + t * force a)) ∧ q.cons.eint ≤ e

theorem fell_advance (hd3 : d ≤ 3) (hpos : ∀ a, 0 < nx a) (hng : 2 ≤ ng) (hgeom : p.hydro.geom = .cartesian) (hb : ∀ a f, p.hydro.bcs a f = .periodic ∨ p.hydro.bcs a f = .nullGradient)
    (hGr : ∀ W c a, Gr W c a = force a) (hfix : p.fix = none) (hs : p.step ≠ .heatNickel) {q : Fields d n ℝ} (hr : q.rho ≠ 0) (hfx : ∀ i, 0 ≤ q.fx i ∧ q.fx i ≤ 1)
    {W : Cell → Fields d n ℝ} (hW : ∀ C, W C = q) (t dt : ℝ) (C : Cell) : (globHydro p nx ng X Gr order).advance W t dt C = q.pushed dt force := by
  rw [advance_plain hd3 hgeom hfix hs]
  exact fall_iter (p := plainKernels p) hd3 rfl rfl hpos hng hb hGr hr hfx hW dt C

/-- **C73, whole runs of the program.** Exact arithmetic, the whole program with its own time steps and outputs, Cartesian grid (any mesh), uniform gravity, no pressure fix, no heating, every boundary periodic or
open, any limiter, solver, gas law, process grid, any time step policy of the input file. If density, velocity, pressure and mass fractions are uniform at the start then at every turn and in every file the density and the mass fractions are those of the start
and the velocity is `u + (t - tIni) * gravity` with `t` the time of the loop (the time written in the file): free fall, exactly. Partial: the internal energy, constant in the full property, is only known not to
grow (`C73_run_partial` gives what is lost, `C73_program_violated` what becomes of it). -/
theorem C73_program_partial (hd3 : d ≤ 3) (hpos : ∀ a, 0 < nx a) (hng : 2 ≤ ng) (hp : ParamsOk p order) (hA : MachineOk nx ng Gr A)
    (hI : InitOf nx ng A S Fx U up) (clock : ℕ → Bool) (hgeom : p.hydro.geom = .cartesian) (hb : ∀ a f, p.hydro.bcs a f = .periodic ∨ p.hydro.bcs a f = .nullGradient)
    (hGr : ∀ W c a, Gr W c a = force a) (hfix : p.fix = none) (hs : p.step ≠ .heatNickel) {w : Prim d ℝ} (hr : 0 < w.rho) {fx : Fin n → ℝ} (hfx : ∀ i, 0 ≤ fx i ∧ fx i ≤ 1)
    (hS : ∀ g, inBox 0 nx g → S g = w ∧ Fx g = fx) (k : ℕ) :
    ∃ z, progRun p nx (nghostOf d ng) (borderOf A.dims) A clock (progFresh p nx (nghostOf d ng) (borderOf A.dims) A X U up) k = some z ∧
      (∀ r, inBox 0 A.dims r → ∀ c, inExt (localExt nx A.dims (nghostOf d ng) r) c = true →
        (z.s.h.val r c).rho = w.rho ∧ (z.s.h.val r c).fx = fx ∧ (∀ a, (z.s.h.val r c).rhou a = w.rho * (w.u a + (z.s.t - p.tIni) * force a)) ∧
        (z.s.h.val r c).cons.eint ≤ p.hydro.eos.evolFromPres w.rho w.P) ∧
      ∀ f ∈ z.files, ∀ g, inBox 0 nx g → f.h.rho.at g = w.rho ∧ (∀ i, (f.h.fx i).at g = fx i) ∧ ∀ a, (f.h.u a).at g = w.u a + (f.t - p.tIni) * force a := by
  obtain ⟨z0, e0, f0⟩ := progFresh_follows (X := X) hd3 (fun a => (hpos a).le) hng hp hA hI
  obtain ⟨z, e, hz⟩ := progRun_follows hd3 (fun a => (hpos a).le) hng hp hA clock e0 f0 k
  have hb2 : ∀ a f, p.hydro.bcs a f ≠ .reflexive := fun a f => by rcases hb a f with h | h <;> rw [h] <;> decide
  have hinit : Fell w.rho w.u force fx (consFields p.hydro.eos w fx).cons.eint (p.tIni - p.tIni)
      (bcGlob p.hydro.bcs nx (nghostOf d ng) order (fun g => consFields p.hydro.eos (S g) (Fx g))) := by
    refine ⟨consFields p.hydro.eos w fx, fun C => ?_, rfl, rfl, fun a => ?_, le_rfl⟩
    · refine bcGlob_copies (P := fun q => q = consFields p.hydro.eos w fx) hb2 hpos (fun g hg => ?_) C
      rw [(hS g hg).1, (hS g hg).2]
    · rw [sub_self, zero_mul, add_zero]
      rfl
  have key := runN_inv (q := p.loop) (hy := globHydro p nx ng X Gr order) (clock := clock)
    (r := freshRun p.loop p.tIni (bcGlob p.hydro.bcs nx (nghostOf d ng) order fun g => consFields p.hydro.eos (S g) (Fx g)))
    (I := fun W t => Fell w.rho w.u force fx (consFields p.hydro.eos w fx).cons.eint (t - p.tIni) W)
    (by unfold freshRun; split <;> exact hinit)
    (fun o ho => by
      unfold freshRun at ho
      split at ho
      · rw [List.mem_singleton.1 ho]
        exact hinit
      · exact absurd ho List.not_mem_nil)
    (fun W t dt ⟨q, q1, q2, q3, q4, q5⟩ => by
      have hqr : q.rho ≠ 0 := by rw [q2]; exact hr.ne'
      refine ⟨q.pushed dt force, fell_advance hd3 hpos hng hgeom hb hGr hfix hs hqr (by rw [q3]; exact hfx) q1 t dt, q2, q3, fun a => ?_, ?_⟩
      · show q.rhou a + dt * force a * q.rho = _
        rw [q2, q4]
        ring
      · rw [pushed_eint q hqr, q2]
        have : 0 ≤ w.rho * (∑ i, force i ^ 2) * dt ^ 2 / 2 := by
          have := Finset.sum_nonneg fun i (_ : i ∈ Finset.univ) => sq_nonneg (force i)
          positivity
        linarith) k
  have he : (consFields p.hydro.eos w fx).cons.eint = p.hydro.eos.evolFromPres w.rho w.P := toCons_eint hr.ne'
  refine ⟨z, e, fun r hrk c hc => ?_, fun f hf g hg => ?_⟩
  · obtain ⟨q, q1, q2, q3, q4, q5⟩ := key.1
    have ht : z.s.t = (runN p.loop (globHydro p nx ng X Gr order) clock (freshRun p.loop p.tIni (bcGlob p.hydro.bcs nx (nghostOf d ng) order fun g => consFields p.hydro.eos (S g) (Fx g))) k).s.t :=
      congrArg LoopState.t hz.s
    rw [hz.h.val r hrk c hc, q1, ht]
    exact ⟨q2, q3, q4, he ▸ q5⟩
  · obtain ⟨o, ho, hfo, hfo'⟩ := forall₂_mem hz.files hf
    obtain ⟨q, q1, q2, q3, q4, -⟩ := key.2 o ho
    have ht : f.t = o.t := congrArg LoopState.t hfo'
    rw [FileOf.at hfo.rho hg, q1, ht]
    refine ⟨q2, fun i => ?_, fun a => ?_⟩
    · rw [FileOf.at (hfo.fx i) hg, q1, q3]
    · rw [FileOf.at (hfo.u a) hg, primGlob_toPrim, q1]
      show q.rhou a / q.rho = _
      rw [q4, q2, mul_div_cancel_left₀ _ hr.ne']

end Heracles

import Verif.Lemmas.RankProgram
import Verif.Props.Program

/-!
# Processes that run on their own

C88: the processes of a run never wait for each other forever, and whatever their speed and the buffering of the MPI library, they
end with the results of the program in step (Model/Program), which the other properties are about.
-/

namespace Heracles

variable {d n : ℕ}

/-- The network with less buffering is one of the networks with more. -/
theorem NetStep.more {R M X S : Type} [DecidableEq R] {P : R → S → Act R M X S} {N N' : Net R M X S} (h : NetStep P false N N')
    (eager : Bool) : NetStep P eager N N' := by
  cases h with
  | post hp ha => exact .post hp ha
  | recv hp ha hg hc => exact .recv hp ha hg hc
  | done hp ha hg he => exact .done hp ha hg (he.imp (fun h => absurd h (by simp)) id)
  | enter hp ha => exact .enter hp ha
  | leave hp ha hf hn he => exact .leave hp ha hf hn (he.imp (fun h => absurd h (by simp)) id)

section Ends
variable {H K : Type} [Field K] [LinearOrder K] {p : LoopParams K} {hy : Hydro H K} {clock : ℕ → Bool} {r : RunState H K}

theorem runN_iter (k : ℕ) (h : (runN p hy clock r k).status = .running) :
    (runN p hy clock r k).s.iter = r.s.iter + k ∧ (k = 0 ∨ r.s.iter + k < p.maxIter) := by
  induction k with
  | zero => exact ⟨by simp [runN], Or.inl rfl⟩
  | succ k ih =>
    rw [runN] at h ⊢
    by_cases hr : (runN p hy clock r k).status = .running
    · obtain ⟨h1, -⟩ := ih hr
      rcases runStep_running (p := p) (hy := hy) (clock := clock k) hr with ⟨D, hD, -, e⟩ | ⟨e1, -⟩
      · rw [e] at h ⊢
        simp only at h
        have hx : D.exit = false := by
          cases hx : D.exit
          · rfl
          · rw [hx] at h; cases h
        rw [decideStep_eq] at hD
        split at hD
        · cases hD
        · cases hD
          simp only [Bool.or_eq_false_iff, decide_eq_false_iff_not, not_le] at hx
          have h2 := hx.1.2
          simp only [nextState]
          push_cast
          omega
      · rw [e1] at h; cases h
    · rw [runStep_stopped hr] at h
      exact absurd h hr

/-- `max_iter` ends every run. -/
theorem runN_ends : (runN p hy clock r ((p.maxIter - r.s.iter).toNat + 1)).status ≠ .running := by
  intro h
  rcases (runN_iter _ h).2 with h | h
  · omega
  · have := Int.self_le_toNat (p.maxIter - r.s.iter)
    omega

end Ends

section Main
variable {e e' : RankEnv d n} {nx : Cell} {ng : ℤ} {X : Fin 3 → ℤ → ℝ} {Gr : (Cell → Fields d n ℝ) → Cell → Fin d → ℝ} {order : List ℕ}
  {S : Cell → Prim d ℝ} {Fx : Cell → Fin n → ℝ}

/-- **C88.** A run for which the program in step is defined and comes to an end in the state `z` (finished, or failed with an exception).
Let the processes run on their own, with any interleaving of what they do, any buffering of messages, any previous contents of their memory,
and each with its own clock: every execution is bounded, some process can always go on until all have ended, and then each process has the loop
variables and the fields of `z`, what they have written are the files of `z`, and no message is left. -/
theorem C88_fresh {U : Cell → View Cell (Fields d n ℝ)} {up : Cell → View Cell (VelPres d ℝ)} (hg : GravLink e) (hr : e.restart = false) {k : ℕ}
    {z : ProgState d n}
    (hz : progRun e.p nx e.nghost e.isBorder e.A (fun k => e.clock k e.root) (progFresh e.p nx e.nghost e.isBorder e.A X U up) k = some z)
    (hend : z.status ≠ .running) : EveryExecution e nx (e.startFresh nx X U up) z := by
  have h0 : ∃ z0, progFresh e.p nx e.nghost e.isBorder e.A X U up = some z0 := by
    clear hend
    induction k generalizing z with
    | zero => exact ⟨z, hz⟩
    | succ k ih =>
      obtain ⟨z', h, -⟩ := Option.bind_eq_some_iff.1 hz
      exact ih h
  obtain ⟨z0, h0⟩ := h0
  obtain ⟨v, h1, h2, h3⟩ := fresh_leads (nx := nx) hg hr h0
  exact executions hg h0 h1 h2 h3 k hz hend

/-- **C88**, restart from the file `f`. -/
theorem C88_restart {f : LoopState (FluidFile d n) ℝ} (hg : GravLink e) (hr : e.restart = true) {k : ℕ} {z : ProgState d n}
    (hz : progRun e.p nx e.nghost e.isBorder e.A (fun k => e.clock k e.root) (progRestart e.p nx e.nghost e.isBorder e.A f) k = some z)
    (hend : z.status ≠ .running) : EveryExecution e nx (e.startRestart nx f) z := by
  have h0 : ∃ z0, progRestart e.p nx e.nghost e.isBorder e.A f = some z0 := by
    clear hend
    induction k generalizing z with
    | zero => exact ⟨z, hz⟩
    | succ k ih =>
      obtain ⟨z', h, -⟩ := Option.bind_eq_some_iff.1 hz
      exact ih h
  obtain ⟨z0, h0⟩ := h0
  obtain ⟨v, h1, h2, h3⟩ := restart_leads (nx := nx) hg hr h0
  exact executions hg h0 h1 h2 h3 k hz hend

/-- **C88**, with C68. On every process grid on which each rank owns at least `ng ≥ 2` cells in each active direction, from initial arrays that
represent the primitive variables `S`, `Fx` of the domain, the executions do come to an end, without undefined behaviour. The executions on two
process grids, with the same answers of the clock of their first ranks, end with the same status, time, counters, fields and files. -/
theorem C88_every_execution (hd3 : d ≤ 3) (hN : ∀ a, 0 ≤ nx a) (hng : 2 ≤ ng) (hp : ParamsOk e.p order) (hp' : e'.p = e.p)
    (hn : e.nghost = nghostOf d ng) (hn' : e'.nghost = nghostOf d ng) (hb : e.isBorder = borderOf e.A.dims) (hb' : e'.isBorder = borderOf e'.A.dims)
    (hg : GravLink e) (hg' : GravLink e') (hr : e.restart = false) (hr' : e'.restart = false) (hA : MachineOk nx ng Gr e.A)
    (hA' : MachineOk nx ng Gr e'.A) {U U' : Cell → View Cell (Fields d n ℝ)} {up up' : Cell → View Cell (VelPres d ℝ)}
    (hi : InitOf nx ng e.A S Fx U up) (hi' : InitOf nx ng e'.A S Fx U' up') (hc : ∀ k, e'.clock k e'.root = e.clock k e.root) :
    ∃ z z', z.status ≠ .running ∧ EveryExecution e nx (e.startFresh nx X U up) z ∧ EveryExecution e' nx (e'.startFresh nx X U' up') z' ∧
      SameState nx ng e.A.dims e'.A.dims z z' ∧ List.Forall₂ SameFile z.files z'.files := by
  obtain ⟨z0, f0, f1⟩ := progFresh_follows (X := X) hd3 hN hng hp hA hi
  set g0 := freshRun e.p.loop e.p.tIni (bcGlob e.p.hydro.bcs nx (nghostOf d ng) order fun g => consFields e.p.hydro.eos (S g) (Fx g))
  set k := (e.p.loop.maxIter - g0.s.iter).toNat + 1 with hk
  obtain ⟨z1, r1, r2⟩ := progRun_follows hd3 hN hng hp hA (fun k => e.clock k e.root) f0 f1 k
  obtain ⟨z, z', e1, e2, e3, e4⟩ := C68_decomposition (X := X) (p := e.p) hd3 hN hng hp hA hA' hi hi' (fun k => e.clock k e.root) k
  obtain rfl : z1 = z := Option.some.inj (r1.symm.trans e1)
  have hst : z1.status ≠ .running := by
    rw [r2.status, hk]
    exact runN_ends
  refine ⟨z1, z', hst, C88_fresh (k := k) hg hr ?_ hst, C88_fresh (k := k) hg' hr' ?_ ?_, e3, e4⟩
  · rw [hn, hb]; exact e1
  · rw [hn', hb', hp', funext hc]; exact e2
  · rw [← e3.status]; exact hst

end Main

section Examples

/-- The processes on a machine of the examples of C68; the clock of a process is any function. -/
noncomputable def demoEnv (p : ProgParams 2 1) (dims : Cell) (hd : ∀ a, 0 < dims a) (clock : ℕ → Cell → Bool) : RankEnv 2 1 where
  p := p
  nghost := nghostOf 2 2
  isBorder := borderOf dims
  A := mkMachine 2 1 ![8, 6, 1] 2 (by decide) dims hd (-1)
  massGrav := false
  gravOf := fun _ _ _ _ => some (-1)
  clock := fun k r => clock k r.1
  root := ⟨0, ((boxList_isSchedule 0 dims).2 0).2 fun a => ⟨le_refl _, hd a⟩⟩
  restart := false

/-- A 8 x 6 domain on 2 x 3 and on 4 x 1 processes, each with its own clock. -/
example (p : ProgParams 2 1) (hb : p.hydro.bcs = ![![.periodic, .periodic], ![.reflexive, .nullGradient]])
    (hpo : p.hydro.order = [some 2, some 0, some 3, some 1]) (ht : p.top = 10 ^ 308)
    (S : Cell → Prim 2 ℝ) (Fx : Cell → Fin 1 → ℝ) (X : Fin 3 → ℤ → ℝ) (clock clock' : ℕ → Cell → Bool) (hc : ∀ k, clock' k 0 = clock k 0) :
    ∃ (e e' : RankEnv 2 1) (I I' : (Cell → View Cell (Fields 2 1 ℝ)) × (Cell → View Cell (VelPres 2 ℝ))) (z z' : ProgState 2 1),
      e.A.dims = ![2, 3, 1] ∧ e'.A.dims = ![4, 1, 1] ∧ EveryExecution e ![8, 6, 1] (e.startFresh ![8, 6, 1] X I.1 I.2) z ∧
      EveryExecution e' ![8, 6, 1] (e'.startFresh ![8, 6, 1] X I'.1 I'.2) z' ∧ List.Forall₂ SameFile z.files z'.files := by
  have hN : ∀ a, 0 ≤ (![8, 6, 1] : Cell) a := by decide
  obtain ⟨z, z', -, h1, h2, -, h3⟩ := C88_every_execution (e := demoEnv p ![2, 3, 1] (by decide) clock)
    (e' := demoEnv p ![4, 1, 1] (by decide) clock') (nx := ![8, 6, 1]) (ng := 2) (order := [2, 0, 3, 1]) (X := X) (S := S) (Fx := Fx)
    (by norm_num) hN (by norm_num) ⟨by show ∀ a f, p.hydro.bcs a f ≠ _; rw [hb]; decide, by decide, hpo, fun _ => one_pos, by show 0 ≤ p.top; rw [ht]; norm_num⟩ rfl rfl rfl rfl rfl
    (fun _ _ => rfl) (fun _ _ => rfl) rfl rfl (mkMachine_ok hN (by decide) (-1) (by norm_num) (demo_size _ (.inl rfl)))
    (mkMachine_ok hN (by decide) (-1) (by norm_num) (demo_size _ (.inr rfl))) (initArrays_ok S Fx) (initArrays_ok S Fx) hc
  exact ⟨_, _, _, _, z, z', rfl, rfl, h1, h2, h3⟩

/-- A loop of two processes that meet once per turn and leave the loop by their own clocks, without line 390 of src/main.cpp. -/
def ownClock (c : Fin 2 → ℕ → Bool) (r : Fin 2) : Option ℕ → Act (Fin 2) Unit Unit (Option ℕ)
  | none => .stop
  | some k => .coll 4 () (fun _ => true) fun _ => if c r k then none else some (k + 1)

/-- Why the answer of the clock is broadcast: with the clock of one process ahead by a turn, the other process waits forever. -/
theorem C88_own_clock : ∃ c m N, NetSteps (ownClock c) true (Net.start fun _ => some 0) m N ∧ N.st 1 ≠ none ∧
    ∀ eager N', ¬ NetStep (ownClock c) eager N N' := by
  let c : Fin 2 → ℕ → Bool := fun r _ => r = 0
  have key : ∀ r, r = 0 ∨ r = (1 : Fin 2) := by decide
  let N0 : Net (Fin 2) Unit Unit (Option ℕ) := Net.start fun _ => some 0
  let N1 : Net (Fin 2) Unit Unit (Option ℕ) := { N0 with posted := Function.update N0.posted 0 true
                                                         log := Function.update N0.log 0 (N0.log 0 ++ [(4, ())]) }
  let N2 : Net (Fin 2) Unit Unit (Option ℕ) := { N1 with posted := Function.update N1.posted 1 true
                                                         log := Function.update N1.log 1 (N1.log 1 ++ [(4, ())]) }
  let N3 : Net (Fin 2) Unit Unit (Option ℕ) := { N2 with st := Function.update N2.st 0 none, posted := Function.update N2.posted 0 false }
  let N4 : Net (Fin 2) Unit Unit (Option ℕ) := { N3 with st := Function.update N3.st 1 (some 1), posted := Function.update N3.posted 1 false }
  let N5 : Net (Fin 2) Unit Unit (Option ℕ) := { N4 with posted := Function.update N4.posted 1 true
                                                         log := Function.update N4.log 1 (N4.log 1 ++ [(4, ())]) }
  have h1 : NetStep (ownClock c) true N0 N1 := .enter rfl rfl
  have h2 : NetStep (ownClock c) true N1 N2 := .enter rfl rfl
  have h3 : NetStep (ownClock c) true N2 N3 := .leave (r := 0) (kind := 4) (x := ()) (needs := fun _ => true)
    (k := fun _ => if c 0 0 then none else some 1) (f := fun _ => ()) rfl rfl (fun q _ => by rcases key q with rfl | rfl <;> rfl) (fun _ _ => rfl) (.inl rfl)
  have h4 : NetStep (ownClock c) true N3 N4 := .leave (r := 1) (kind := 4) (x := ()) (needs := fun _ => true)
    (k := fun _ => if c 1 0 then none else some 1) (f := fun _ => ()) rfl rfl (fun q _ => by rcases key q with rfl | rfl <;> rfl) (fun _ _ => rfl) (.inl rfl)
  have h5 : NetStep (ownClock c) true N4 N5 := .enter rfl rfl
  refine ⟨c, 5, N5, .succ (.succ (.succ (.succ (.succ .zero h1) h2) h3) h4) h5, by decide, fun eager N' h => ?_⟩
  cases h with
  | @post r dst src tag msg k hp ha => rcases key r with rfl | rfl <;> cases ha
  | @recv r dst src tag msg m q k hp ha hg hc => rcases key r with rfl | rfl <;> cases ha
  | @done r dst src tag msg m k hp ha hg he => rcases key r with rfl | rfl <;> cases ha
  | @enter r kind x needs k hp ha =>
    rcases key r with rfl | rfl
    · cases ha
    · exact absurd hp (by decide)
  | @leave r kind x needs k f hp ha hf hn he =>
    rcases key r with rfl | rfl
    · cases ha
    · cases ha
      have h0 : (none : Option (ℕ × Unit)) = some (4, f 0) := hf 0 rfl
      cases h0

end Examples

end Heracles

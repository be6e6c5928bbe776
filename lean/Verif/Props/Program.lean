import Verif.Lemmas.Program
import Verif.Props.Loop

/-!
# The whole program

C68: from the initial arrays or a file to the files written, the results of a run do not depend on the process grid, and a run
interrupted and restarted on another process grid gives the results of the uninterrupted run.
-/

namespace Heracles

variable {d n : ℕ}

/-- The same dataset of a file: same extents, same contents. -/
def SameDataset (v v' : View (List ℤ) ℝ) : Prop := v.dom = v'.dom ∧ ∀ i, v.dom i = true → v.val i = v'.val i

/-- The same file: all datasets, the axes, and the counters. -/
structure SameFile (f f' : LoopState (FluidFile d n) ℝ) : Prop where
  rho : SameDataset f.h.rho f'.h.rho
  u : ∀ l, SameDataset (f.h.u l) (f'.h.u l)
  P : SameDataset f.h.P f'.h.P
  E : SameDataset f.h.E f'.h.E
  T : SameDataset f.h.T f'.h.T
  fx : ∀ l, SameDataset (f.h.fx l) (f'.h.fx l)
  nAxis : f.h.nAxis = f'.h.nAxis
  x : f.h.x = f'.h.x
  t : f.t = f'.t
  iter : f.iter = f'.iter
  outputId : f.outputId = f'.outputId
  iterId : f.iterId = f'.iterId
  timeId : f.timeId = f'.timeId

/-- The fields of two process grids agree: any two cells, ghosts included, that represent the same cell of the domain hold the same
values. -/
def SameFluid (nx : Cell) (ng : ℤ) (dims dims' : Cell) (D D' : DistView (Fields d n ℝ)) : Prop :=
  ∀ rank rank' c c', inBox 0 dims rank → inBox 0 dims' rank' →
    inExt (localExt nx dims (nghostOf d ng) rank) c = true → inExt (localExt nx dims' (nghostOf d ng) rank') c' = true →
    globalOf nx dims (nghostOf d ng) rank c = globalOf nx dims' (nghostOf d ng) rank' c' → D.val rank c = D'.val rank' c'

/-- Two runs agree: status, time, counters and fields. -/
structure SameState (nx : Cell) (ng : ℤ) (dims dims' : Cell) (z z' : ProgState d n) : Prop where
  status : z.status = z'.status
  t : z.s.t = z'.s.t
  iter : z.s.iter = z'.s.iter
  outputId : z.s.outputId = z'.s.outputId
  iterId : z.s.iterId = z'.s.iterId
  timeId : z.s.timeId = z'.s.timeId
  fluid : SameFluid nx ng dims dims' z.s.h z'.s.h

section Lemmas

theorem dataIndex_of_dom {nx : Cell} {i : List ℤ} (h : datasetDom [nx 2, nx 1, nx 0] i = true) : ∃ g, inBox 0 nx g ∧ i = dataIndex g := by
  match i, h with
  | [a, b, c], h =>
    simp only [datasetDom, Bool.and_eq_true, decide_eq_true_eq, Bool.and_true] at h
    refine ⟨![c, b, a], fun k => ?_, rfl⟩
    fin_cases k
    · simpa using h.2.2
    · simpa using h.2.1
    · simpa using h.1
  | [], h => simp [datasetDom] at h
  | [a], h => simp [datasetDom] at h
  | [a, b], h => simp [datasetDom] at h
  | a :: b :: c :: e :: l, h => simp [datasetDom] at h

theorem Dataset.same {nx : Cell} {v v' : View (List ℤ) ℝ} {G : Cell → ℝ} (h : Dataset nx v G) (h' : Dataset nx v' G) : SameDataset v v' := by
  refine ⟨h.1.trans h'.1.symm, fun i hi => ?_⟩
  rw [h.1] at hi
  obtain ⟨g, hg, rfl⟩ := dataIndex_of_dom hi
  rw [h.2 g hg, h'.2 g hg]

theorem Dataset.of_same {nx : Cell} {v v' : View (List ℤ) ℝ} {G : Cell → ℝ} (h : Dataset nx v G) (h' : SameDataset v v') : Dataset nx v' G := by
  refine ⟨h'.1.symm.trans h.1, fun g hg => ?_⟩
  rw [← h'.2 _ (by rw [h.1]; exact dataset_dom hg), h.2 g hg]

variable {p : ProgParams d n} {nx : Cell} {ng : ℤ} {X : Fin 3 → ℤ → ℝ} {Gr : (Cell → Fields d n ℝ) → Cell → Fin d → ℝ} {A B : Machine d n}
  {order : List ℕ}

theorem FileOf.same {W : Cell → Fields d n ℝ} {f f' : LoopState (FluidFile d n) ℝ} (h : FileOf p nx ng X W f.h) (h' : FileOf p nx ng X W f'.h)
    (e : f.withFluid () = f'.withFluid ()) : SameFile f f' := by
  obtain ⟨w1, w2, w3, w4, w5⟩ := withFluid_eq e
  exact ⟨h.rho.same h'.rho, fun l => (h.u l).same (h'.u l), h.P.same h'.P, h.E.same h'.E, h.T.same h'.T, fun l => (h.fx l).same (h'.fx l),
    h.nAxis.trans h'.nAxis.symm, h.x.trans h'.x.symm, w1, w2, w3, w4, w5⟩

theorem FileOf.of_same {W : Cell → Fields d n ℝ} {f f' : LoopState (FluidFile d n) ℝ} (h : FileOf p nx ng X W f.h) (h' : SameFile f f') :
    FileOf p nx ng X W f'.h :=
  ⟨h.rho.of_same h'.rho, fun l => (h.u l).of_same (h'.u l), h.P.of_same h'.P, h.E.of_same h'.E, h.T.of_same h'.T,
    fun l => (h.fx l).of_same (h'.fx l), h'.nAxis ▸ h.nAxis, h'.x ▸ h.x⟩

theorem HoldsAll.same {W : Cell → Fields d n ℝ} {dims dims' : Cell} {D D' : DistView (Fields d n ℝ)} (h : HoldsAll nx dims (nghostOf d ng) W D)
    (h' : HoldsAll nx dims' (nghostOf d ng) W D') : SameFluid nx ng dims dims' D D' := by
  intro r r' c c' hr hr' hc hc' e
  rw [h.val r hr c hc, h'.val r' hr' c' hc', ← global_add nx dims (nghostOf d ng), ← global_add nx dims' (nghostOf d ng), e]

theorem Follows.sameState {z z' : ProgState d n} {g g' : RunState (Cell → Fields d n ℝ) ℝ} (h : Follows p nx ng X A z g)
    (h' : Follows p nx ng X B z' g') (hs : g.s = g'.s) (he : g.status = g'.status) : SameState nx ng A.dims B.dims z z' := by
  obtain ⟨w1, w2, w3, w4, w5⟩ := withFluid_eq (h.s.trans ((congrArg (LoopState.withFluid · ()) hs).trans h'.s.symm))
  exact ⟨h.status.trans (he.trans h'.status.symm), w1, w2, w3, w4, w5, h.h.same (hs ▸ h'.h)⟩

theorem files_same {l l' : List (LoopState (FluidFile d n) ℝ)} {o : List (LoopState (Cell → Fields d n ℝ) ℝ)}
    (h : List.Forall₂ (fun f o => FileOf p nx ng X o.h f.h ∧ f.withFluid () = o.withFluid ()) l o)
    (h' : List.Forall₂ (fun f o => FileOf p nx ng X o.h f.h ∧ f.withFluid () = o.withFluid ()) l' o) : List.Forall₂ SameFile l l' := by
  induction h generalizing l' with
  | nil => cases h'; exact .nil
  | cons a _ ih =>
    cases h' with
    | cons b t => exact .cons (a.1.same b.1 (a.2.trans b.2.symm)) (ih t)

/-- The outputs of a run that has not failed are of earlier iterations, or are the present state. -/
theorem outs_recent {H : Type} {q : LoopParams ℝ} {hy : Hydro H ℝ} {clock : ℕ → Bool} {r : RunState H ℝ}
    (h0 : ∀ o ∈ r.outs, o.iter < r.s.iter ∨ o = r.s) (k : ℕ) (hk : (runN q hy clock r k).status ≠ .failed) :
    ∀ o ∈ (runN q hy clock r k).outs, o.iter < (runN q hy clock r k).s.iter ∨ o = (runN q hy clock r k).s := by
  induction k with
  | zero => exact h0
  | succ k ih =>
    rw [runN] at hk ⊢
    by_cases hr : (runN q hy clock r k).status = .running
    · have ih' := ih (by rw [hr]; simp)
      rcases runStep_running (p := q) (hy := hy) (clock := clock k) hr with ⟨D, -, -, e⟩ | ⟨e, -⟩
      · rw [e]
        intro o ho
        have old : ∀ o ∈ (runN q hy clock r k).outs, o.iter < (nextState hy (runN q hy clock r k).s D).iter := by
          intro o ho
          show o.iter < (runN q hy clock r k).s.iter + 1
          rcases ih' o ho with h | h
          · omega
          · rw [h]; omega
        by_cases hD : D.makeOutput = true
        · simp only [hD, if_true, List.mem_append, List.mem_singleton] at ho
          rcases ho with ho | ho
          · exact Or.inl (old o ho)
          · exact Or.inr ho
        · simp only [hD, if_false, Bool.false_eq_true] at ho
          exact Or.inl (old o ho)
      · exact absurd e hk
    · rw [runStep_stopped hr] at hk ⊢
      exact ih hk

/-- The fluid of the global array has passed through the boundary conditions. -/
theorem fluid_bc {q : LoopParams ℝ} {clock : ℕ → Bool} {r : RunState (Cell → Fields d n ℝ) ℝ}
    (h0 : ∃ G, r.s.h = bcGlob p.hydro.bcs nx (nghostOf d ng) order G) (k : ℕ) :
    ∃ G, (runN q (globHydro p nx ng X Gr order) clock r k).s.h = bcGlob p.hydro.bcs nx (nghostOf d ng) order G := by
  induction k with
  | zero => exact h0
  | succ k ih =>
    rw [runN]
    by_cases hr : (runN q (globHydro p nx ng X Gr order) clock r k).status = .running
    · rcases runStep_running (p := q) (hy := globHydro p nx ng X Gr order) (clock := clock k) hr with ⟨D, -, -, e⟩ | ⟨-, e, -⟩
      · rw [e]
        simp only [nextState, globHydro]
        exact ⟨_, rfl⟩
      · rw [e]; exact ih
    · rw [runStep_stopped hr]; exact ih

theorem freshRun_outs {H : Type} (q : LoopParams ℝ) (t : ℝ) (h : H) : ∀ o ∈ (freshRun q t h).outs, o.iter < (freshRun q t h).s.iter ∨ o = (freshRun q t h).s := by
  unfold freshRun
  split
  · intro o ho
    exact Or.inr (by simpa using ho)
  · intro o ho
    simp at ho

theorem freshRun_h {H : Type} (q : LoopParams ℝ) (t : ℝ) (h : H) : (freshRun q t h).s.h = h := by
  unfold freshRun
  split <;> rfl

/-- A file of the present iteration holds the present fluid, if the run has not failed. -/
theorem Follows.file {z : ProgState d n} {g : RunState (Cell → Fields d n ℝ) ℝ} (h : Follows p nx ng X A z g)
    (ho : ∀ o ∈ g.outs, o.iter < g.s.iter ∨ o = g.s) {f : LoopState (FluidFile d n) ℝ} (hf : f ∈ z.files) (hi : f.iter = z.s.iter) :
    FileOf p nx ng X g.s.h f.h ∧ f.withFluid g.s.h = g.s := by
  obtain ⟨l, l', o, h1, h2⟩ : ∃ l l' : List Unit, ∃ o ∈ g.outs, FileOf p nx ng X o.h f.h ∧ f.withFluid () = o.withFluid () := by
    have := h.files
    clear ho
    revert hf
    generalize z.files = L at this
    generalize g.outs = M at this
    induction this with
    | nil => intro hf; simp at hf
    | @cons a b l l' hab _ ih =>
      intro hf
      rcases List.mem_cons.1 hf with rfl | hf
      · exact ⟨[], [], b, by simp, hab⟩
      · obtain ⟨_, _, o, h1, h2⟩ := ih hf
        exact ⟨[], [], o, by simp [h1], h2⟩
  obtain ⟨w1, w2, w3, w4, w5⟩ := withFluid_eq h2.2
  obtain ⟨-, v2, -⟩ := withFluid_eq h.s
  rcases ho o h1 with e | rfl
  · omega
  · refine ⟨h2.1, ?_⟩
    have : f.withFluid g.s.h = g.s.withFluid g.s.h := by simp only [LoopState.withFluid, w1, w2, w3, w4, w5]
    exact this

end Lemmas

section Main
variable {p : ProgParams d n} {nx : Cell} {ng : ℤ} {X : Fin 3 → ℤ → ℝ} {Gr : (Cell → Fields d n ℝ) → Cell → Fin d → ℝ} {A B : Machine d n}
  {order : List ℕ} {S : Cell → Prim d ℝ} {Fx : Cell → Fin n → ℝ}

/-- **C68.** Two process grids `A`, `B` for the same domain (nodes `X`, gravity field `Gr W` of the global array; periodic, zero gradient or
reflexive boundaries; the pressure fix on or off; any user step), each rank owning at least `ng ≥ 2` cells in each active direction,
whatever the loop orders, the order in which the ranks write and the previous contents of the work arrays, and initial arrays that represent
the same primitive variables `S`, `Fx` of the domain. After any number `k` of turns of the main loop, with the same answers of the clock,
neither run has accessed an array out of bounds; both have the same status (running, finished, failed), time and counters, hold the
same values in corresponding cells, and have written the same files: every dataset has the same extents and contents, the axes and counters
are the same. -/
theorem C68_decomposition (hd3 : d ≤ 3) (hN : ∀ a, 0 ≤ nx a) (hng : 2 ≤ ng) (hp : ParamsOk p order) (hA : MachineOk nx ng Gr A)
    (hB : MachineOk nx ng Gr B) {U U' : Cell → View Cell (Fields d n ℝ)} {up up' : Cell → View Cell (VelPres d ℝ)}
    (hi : InitOf nx ng A S Fx U up) (hi' : InitOf nx ng B S Fx U' up') (clock : ℕ → Bool) (k : ℕ) :
    ∃ z z', progRun p nx (nghostOf d ng) (borderOf A.dims) A clock (progFresh p nx (nghostOf d ng) (borderOf A.dims) A X U up) k = some z ∧
      progRun p nx (nghostOf d ng) (borderOf B.dims) B clock (progFresh p nx (nghostOf d ng) (borderOf B.dims) B X U' up') k = some z' ∧
      SameState nx ng A.dims B.dims z z' ∧ List.Forall₂ SameFile z.files z'.files := by
  obtain ⟨z0, e0, h0⟩ := progFresh_follows (X := X) hd3 hN hng hp hA hi
  obtain ⟨z0', e0', h0'⟩ := progFresh_follows (X := X) hd3 hN hng hp hB hi'
  obtain ⟨z, e, h⟩ := progRun_follows hd3 hN hng hp hA clock e0 h0 k
  obtain ⟨z', e', h'⟩ := progRun_follows hd3 hN hng hp hB clock e0' h0' k
  exact ⟨z, z', e, e', h.sameState h' rfl rfl, files_same h.files h'.files⟩

/-- **C68**, restart. A run on the process grid `A` has gone through `N` turns and is still running; its last file `f` is of the present
iteration, the densities are positive and the equation of state is lawful. The same file (`f'`, written by any process grid) read by the
process grid `B`: after any number `m` of turns the restarted run is in the state that the run on `A` reaches after `N + m` turns, and has
written the files which that run writes after `f`. -/
theorem C68_restart (hd3 : d ≤ 3) (hpos : ∀ a, 0 < nx a) (hng : 2 ≤ ng) (hp : ParamsOk p order) (he : p.hydro.eos.Lawful)
    (hA : MachineOk nx ng Gr A) (hB : MachineOk nx ng Gr B) {U : Cell → View Cell (Fields d n ℝ)} {up : Cell → View Cell (VelPres d ℝ)}
    (hi : InitOf nx ng A S Fx U up) {clock : ℕ → Bool} {N : ℕ} {z : ProgState d n}
    (hz : progRun p nx (nghostOf d ng) (borderOf A.dims) A clock (progFresh p nx (nghostOf d ng) (borderOf A.dims) A X U up) N = some z)
    (hrun : z.status = .running)
    (hrho : ∀ r, inBox 0 A.dims r → ∀ c, layer d (localExt nx A.dims (nghostOf d ng) r) ng c → 0 < (z.s.h.val r c).rho)
    {pre : List (LoopState (FluidFile d n) ℝ)} {f f' : LoopState (FluidFile d n) ℝ} (hf : z.files = pre ++ [f]) (hiter : f.iter = z.s.iter)
    (hff : SameFile f f') (m : ℕ) :
    ∃ zA zB, progRun p nx (nghostOf d ng) (borderOf A.dims) A clock (progFresh p nx (nghostOf d ng) (borderOf A.dims) A X U up) (N + m) = some zA ∧
      progRun p nx (nghostOf d ng) (borderOf B.dims) B (fun i => clock (N + i)) (progRestart p nx (nghostOf d ng) (borderOf B.dims) B f') m = some zB ∧
      SameState nx ng A.dims B.dims zA zB ∧ List.Forall₂ SameFile zA.files (z.files ++ zB.files) := by
  have hN : ∀ a, 0 ≤ nx a := fun a => (hpos a).le
  obtain ⟨z0, e0, h0⟩ := progFresh_follows (X := X) hd3 hN hng hp hA hi
  obtain ⟨z1, e1, h1⟩ := progRun_follows hd3 hN hng hp hA clock e0 h0 N
  obtain rfl : z1 = z := Option.some.inj (e1.symm.trans hz)
  obtain ⟨zA, eA, hzA⟩ := progRun_follows hd3 hN hng hp hA clock e0 h0 (N + m)
  set g0 := freshRun p.loop p.tIni (bcGlob p.hydro.bcs nx (nghostOf d ng) order fun g => consFields p.hydro.eos (S g) (Fx g)) with hg0
  have hst : (runN p.loop (globHydro p nx ng X Gr order) clock g0 N).status = .running := by rw [← h1.status]; exact hrun
  have hrec := outs_recent (q := p.loop) (hy := globHydro p nx ng X Gr order) (clock := clock) (r := g0) (freshRun_outs _ _ _) N (by rw [hst]; simp)
  obtain ⟨hf1, hf2⟩ := h1.file hrec (f := f) (by rw [hf]; simp) hiter
  obtain ⟨G, hG⟩ := fluid_bc (p := p) (nx := nx) (ng := ng) (X := X) (Gr := Gr) (order := order) (q := p.loop) (clock := clock) (r := g0)
    ⟨_, freshRun_h _ _ _⟩ N
  -- the last output of the global run is its state
  obtain ⟨pre', hpre⟩ : ∃ pre', (runN p.loop (globHydro p nx ng X Gr order) clock g0 N).outs =
      pre' ++ [(runN p.loop (globHydro p nx ng X Gr order) clock g0 N).s] := by
    have hfiles := h1.files
    rw [hf] at hfiles
    have q2 := List.forall₂_drop_append _ _ _ hfiles.flip
    have q3 := (List.take_append_drop pre.length (runN p.loop (globHydro p nx ng X Gr order) clock g0 N).outs).symm
    generalize List.drop pre.length (runN p.loop (globHydro p nx ng X Gr order) clock g0 N).outs = l2 at q2 q3
    cases q2 with
    | @cons o _ t _ hab ht =>
      cases ht
      have ho : o ∈ (runN p.loop (globHydro p nx ng X Gr order) clock g0 N).outs := by rw [q3]; simp
      rcases hrec o ho with hlt | rfl
      · obtain ⟨-, w2, -⟩ := withFluid_eq hab.2
        obtain ⟨-, v2, -⟩ := withFluid_eq h1.s
        omega
      · exact ⟨_, q3⟩
  have key := C42_restart_from_file (p := p.loop) (hy := globHydro p nx ng X Gr order) id (clock := clock) (r := g0) N hst hpre rfl m
  obtain ⟨k1, k2, k3⟩ := key
  set W := (runN p.loop (globHydro p nx ng X Gr order) clock g0 N).s.h with hW
  have hrho' : ∀ g, inBox 0 nx g → 0 < (W (g + nghostOf d ng)).rho := by
    intro g hg
    choose r r1 r2 r3 r4 using fun a => exists_owner (hN a) (hA.pos a) (hg a).1 (hg a).2
    have hr : inBox 0 A.dims r := fun a => ⟨r1 a, r2 a⟩
    have hl : layer d (localExt nx A.dims (nghostOf d ng) r) ng (g + nghostOf d ng - startCell nx A.dims r) := by
      intro a
      have := r3 a
      have := r4 a
      simp only [Pi.sub_apply, Pi.add_apply, startCell, localExt]
      omega
    have := hrho r hr _ hl
    rwa [h1.h.val r hr _ (layer_inExt hl (by omega)), sub_add_cancel] at this
  obtain ⟨zB0, eB0, hB0⟩ := progRestart_follows (f := f') hd3 hpos hng hp he hB hG hrho' (hf1.of_same hff)
  have hstart : f'.withFluid W = (runN p.loop (globHydro p nx ng X Gr order) clock g0 N).s := by
    rw [← hf2]
    simp only [LoopState.withFluid, hff.t, hff.iter, hff.outputId, hff.iterId, hff.timeId]
  rw [hstart] at hB0
  obtain ⟨zB, eB, hzB⟩ := progRun_follows hd3 hN hng hp hB (fun i => clock (N + i)) eB0 hB0 m
  refine ⟨zA, zB, eA, eB, hzA.sameState hzB k1.symm k2.symm, files_same hzA.files ?_⟩
  rw [k3, ← hpre]
  exact List.rel_append h1.files hzB.files

/-- The same choices with another limit on the number of iterations. -/
def ProgParams.withMaxIter (p : ProgParams d n) (M : ℤ) : ProgParams d n := { p with loop := { p.loop with maxIter := M } }

/-- **C68**, stop and restart. A run on the process grid `A` was stopped, by the clock or by the limit on the number of iterations, in its
`N + 1`st turn, before the end time; `f` is the file it left, `f'` the same file. The process grid `B` restarts from `f'` with a larger limit
`M`. After `m` turns it is where the run on `A` with that limit, never stopped by the clock, is after `N + 1 + m` turns: same status, time,
iteration, output counters and fields. Only the number of the last file may be larger, by one, namely when the file left at the stop would
not have been written otherwise. -/
theorem C68_stopped_and_restarted (hd3 : d ≤ 3) (hpos : ∀ a, 0 < nx a) (hng : 2 ≤ ng) (hp : ParamsOk p order) (he : p.hydro.eos.Lawful)
    (hA : MachineOk nx ng Gr A) (hB : MachineOk nx ng Gr B) {U : Cell → View Cell (Fields d n ℝ)} {up : Cell → View Cell (VelPres d ℝ)}
    (hi : InitOf nx ng A S Fx U up) {clock : ℕ → Bool} {N : ℕ} {z z1 : ProgState d n} {M : ℤ} (hM : p.loop.maxIter ≤ M)
    (hz : progRun p nx (nghostOf d ng) (borderOf A.dims) A clock (progFresh p nx (nghostOf d ng) (borderOf A.dims) A X U up) N = some z)
    (hrun : z.status = .running)
    (hz1 : progRun p nx (nghostOf d ng) (borderOf A.dims) A clock (progFresh p nx (nghostOf d ng) (borderOf A.dims) A X U up) (N + 1) = some z1)
    (hstop : z1.status = .finished) (ht : z1.s.t ≠ p.loop.tEnd) (hlim : z1.s.iter < M)
    (hrho : ∀ r, inBox 0 A.dims r → ∀ c, layer d (localExt nx A.dims (nghostOf d ng) r) ng c → 0 < (z1.s.h.val r c).rho)
    {f f' : LoopState (FluidFile d n) ℝ} (hf : f ∈ z1.files) (hiter : f.iter = z1.s.iter) (hff : SameFile f f') (m : ℕ) :
    let ref := progRun (p.withMaxIter M) nx (nghostOf d ng) (borderOf A.dims) A (fun _ => false)
      (progFresh (p.withMaxIter M) nx (nghostOf d ng) (borderOf A.dims) A X U up)
    ∃ zN zN1 zA zB, ref N = some zN ∧ ref (N + 1) = some zN1 ∧ ref (N + 1 + m) = some zA ∧
      progRun (p.withMaxIter M) nx (nghostOf d ng) (borderOf B.dims) B (fun _ => false)
        (progRestart (p.withMaxIter M) nx (nghostOf d ng) (borderOf B.dims) B f') m = some zB ∧
      zB.status = zA.status ∧ zB.s.t = zA.s.t ∧ zB.s.iter = zA.s.iter ∧ zB.s.iterId = zA.s.iterId ∧ zB.s.timeId = zA.s.timeId ∧
      SameFluid nx ng A.dims B.dims zA.s.h zB.s.h ∧
      zB.s.outputId = zA.s.outputId + if zN1.files.length = zN.files.length then 1 else 0 := by
  intro ref
  have hN : ∀ a, 0 ≤ nx a := fun a => (hpos a).le
  have hp' : ParamsOk (p.withMaxIter M) order := ⟨hp.bcs, hp.ids, hp.order, hp.heat, hp.top⟩
  obtain ⟨z0, e0, h0⟩ := progFresh_follows (X := X) hd3 hN hng hp hA hi
  obtain ⟨z0', e0', h0'⟩ := progFresh_follows (X := X) hd3 hN hng hp' hA hi
  obtain ⟨y, ey, hy⟩ := progRun_follows hd3 hN hng hp hA clock e0 h0 N
  obtain rfl : y = z := Option.some.inj (ey.symm.trans hz)
  obtain ⟨y1, ey1, hy1⟩ := progRun_follows hd3 hN hng hp hA clock e0 h0 (N + 1)
  obtain rfl : y1 = z1 := Option.some.inj (ey1.symm.trans hz1)
  obtain ⟨zA, eA, hzA⟩ := progRun_follows hd3 hN hng hp' hA (fun _ => false) e0' h0' (N + 1 + m)
  obtain ⟨zN, eN, hzN⟩ := progRun_follows hd3 hN hng hp' hA (fun _ => false) e0' h0' N
  obtain ⟨zN1, eN1, hzN1⟩ := progRun_follows hd3 hN hng hp' hA (fun _ => false) e0' h0' (N + 1)
  set g0 := freshRun p.loop p.tIni (bcGlob p.hydro.bcs nx (nghostOf d ng) order fun g => consFields p.hydro.eos (S g) (Fx g)) with hg0
  have hst : (runN p.loop (globHydro p nx ng X Gr order) clock g0 N).status = .running := by rw [← hy.status]; exact hrun
  have hst1 : (runN p.loop (globHydro p nx ng X Gr order) clock g0 (N + 1)).status = .finished := by rw [← hy1.status]; exact hstop
  obtain ⟨w1, w2, w3, w4, w5⟩ := withFluid_eq hy1.s
  have hrec := outs_recent (q := p.loop) (hy := globHydro p nx ng X Gr order) (clock := clock) (r := g0) (freshRun_outs _ _ _) (N + 1)
    (by rw [hst1]; simp)
  obtain ⟨hf1, hf2⟩ := hy1.file hrec hf hiter
  obtain ⟨G, hG⟩ := fluid_bc (p := p) (nx := nx) (ng := ng) (X := X) (Gr := Gr) (order := order) (q := p.loop) (clock := clock) (r := g0)
    ⟨_, freshRun_h _ _ _⟩ (N + 1)
  obtain ⟨k1, k2, k3⟩ := C42_stopped_and_restarted (p := p.loop) (hy := globHydro p nx ng X Gr order) id (clock := clock) hM (r := g0) N hst hst1
    (by rw [← w1]; exact ht) (by rw [← w2]; exact hlim) rfl m
  set W := (runN p.loop (globHydro p nx ng X Gr order) clock g0 (N + 1)).s.h with hW
  have hrho' : ∀ g, inBox 0 nx g → 0 < (W (g + nghostOf d ng)).rho := by
    intro g hg
    choose r r1 r2 r3 r4 using fun a => exists_owner (hN a) (hA.pos a) (hg a).1 (hg a).2
    have hr : inBox 0 A.dims r := fun a => ⟨r1 a, r2 a⟩
    have hl : layer d (localExt nx A.dims (nghostOf d ng) r) ng (g + nghostOf d ng - startCell nx A.dims r) := by
      intro a
      have := r3 a
      have := r4 a
      simp only [Pi.sub_apply, Pi.add_apply, startCell, localExt]
      omega
    have := hrho r hr _ hl
    rwa [hy1.h.val r hr _ (layer_inExt hl (by omega)), sub_add_cancel] at this
  have hf3 : FileOf (p.withMaxIter M) nx ng X W f'.h := by
    have h := hf1.of_same hff
    exact ⟨h.rho, h.u, h.P, h.E, h.T, h.fx, h.nAxis, h.x⟩
  obtain ⟨zB0, eB0, hB0⟩ := progRestart_follows (p := p.withMaxIter M) (f := f') hd3 hpos hng hp' he hB hG hrho' hf3
  have hstart : f'.withFluid W = (runN p.loop (globHydro p nx ng X Gr order) clock g0 (N + 1)).s := by
    rw [← hf2]
    simp only [LoopState.withFluid, hff.t, hff.iter, hff.outputId, hff.iterId, hff.timeId]
  rw [hstart] at hB0
  obtain ⟨zB, eB, hzB⟩ := progRun_follows hd3 hN hng hp' hB (fun _ => false) eB0 hB0 m
  obtain ⟨a1, a2, a3, a4, a5⟩ := withFluid_eq hzA.s
  obtain ⟨b1, b2, b3, b4, b5⟩ := withFluid_eq hzB.s
  refine ⟨zN, zN1, zA, zB, eN, eN1, eA, eB, hzB.status.trans (k2.trans hzA.status.symm), b1.trans (k1.t.trans a1.symm),
    b2.trans (k1.iter.trans a2.symm), b4.trans (k1.iterId.trans a4.symm), b5.trans (k1.timeId.trans a5.symm), hzA.h.same ?_, ?_⟩
  · have e := k1.h
    exact e ▸ hzB.h
  · rw [b3, a3, hzN.files.length_eq, hzN1.files.length_eq]
    exact k3

end Main

/-! ### The hypotheses can be met -/

section Examples

/-- Row by row loops. -/
noncomputable def mkMem (d n : ℕ) (ng : ℤ) (E : Cell) : ProgMem d n where
  grid := GridData.alloc E
  conv := boxList 0 E
  parts := [boxList 0 E]
  sc := RecScheds.box (nghostOf d (ng - 1)) (fun a => E a - nghostOf d (ng - 1) a)
  l := boxList (nghostOf d ng) (fun a => E a - nghostOf d ng a)
  l' := boxList (nghostOf d ng) (fun a => E a - nghostOf d ng a)
  up := ⟨inExt E, fun _ => ⟨fun _ => 0, 0⟩⟩
  upRec := ⟨inExt E, fun _ _ _ => ⟨fun _ => 0, 0⟩⟩
  faces := ⟨inExt E, fun _ _ _ => ⟨0, fun _ => 0, 0, fun _ => 0⟩⟩
  new := ⟨inExt E, fun _ => ⟨0, fun _ => 0, 0, fun _ => 0⟩⟩
  fixL := boxList (nghostOf d ng) (fun a => E a - nghostOf d ng a)
  stepL := boxList (nghostOf d ng) (fun a => E a - nghostOf d ng a)
  eparts := [boxList (nghostOf d ng) (fun a => E a - nghostOf d ng a)]
  tempL := boxList 0 E
  T := ⟨inExt E, fun _ => 0⟩

theorem mkMem_ok (nx dims : Cell) (ng : ℤ) (r : Cell) : MemFits (d := d) (n := n) nx dims ng r (mkMem d n ng (localExt nx dims (nghostOf d ng) r)) := by
  generalize hE : localExt nx dims (nghostOf d ng) r = E
  have one : ∀ (b e : Cell), IsSchedule (List.flatten [boxList b e]) b e := fun b e => by
    rw [List.flatten_singleton]
    exact boxList_isSchedule b e
  constructor <;> rw [hE]
  · exact boxList_isSchedule 0 E
  · exact one 0 E
  · exact RecScheds.box_ok _ _
  · exact boxList_isSchedule (nghostOf d ng) (fun a => E a - nghostOf d ng a)
  · exact boxList_isSchedule (nghostOf d ng) (fun a => E a - nghostOf d ng a)
  · exact boxList_isSchedule (nghostOf d ng) (fun a => E a - nghostOf d ng a)
  · exact boxList_isSchedule (nghostOf d ng) (fun a => E a - nghostOf d ng a)
  · exact one (nghostOf d ng) (fun a => E a - nghostOf d ng a)
  · exact boxList_isSchedule 0 E
  all_goals rfl

/-- Row by row loops and a uniform force. -/
noncomputable def mkMachine (d n : ℕ) (nx : Cell) (ng : ℤ) (hN : ∀ a, 0 ≤ nx a) (dims : Cell) (hd : ∀ a, 0 < dims a) (force : ℝ) : Machine d n where
  dims := dims
  topo := (mkLayout d nx ng hN dims hd).topo
  sched := boxList
  gridL1 := fun r a => intRange 0 (((mkLayout d nx ng hN dims hd).topo r).nxLocalWg a)
  gridL := fun r => match ((mkLayout d nx ng hN dims hd).topo r).range.allGhosts with
    | .ok rg => boxList (rg.cellBegin d) (rg.cellEnd d)
    | .error _ => []
  gridL' := fun r => match ((mkLayout d nx ng hN dims hd).topo r).range.allGhosts with
    | .ok rg => boxList (rg.cellBegin d) (rg.cellEnd d)
    | .error _ => []
  consL := fun r => boxList (nghostOf d ng) (fun a => localExt nx dims (nghostOf d ng) r a - nghostOf d ng a)
  writers := boxList 0 dims
  grav := fun _ _ _ _ => some force
  mem := fun _ r => mkMem d n ng (localExt nx dims (nghostOf d ng) r)

theorem mkMachine_ok {nx : Cell} {ng : ℤ} (hN : ∀ a, 0 ≤ nx a) {dims : Cell} (hd : ∀ a, 0 < dims a) (force : ℝ) (hng : 0 ≤ ng)
    (hs : ∀ a : Fin 3, a.val < d → ∀ r, 0 ≤ r → r < dims a → ng ≤ localSize (nx a) (dims a) r) :
    MachineOk nx ng (fun _ _ _ => force) (mkMachine d n nx ng hN dims hd force) where
  pos := hd
  size := hs
  order := fun b e => boxList_isSchedule b e
  topo := (mkLayout d nx ng hN dims hd).ok
  gridL1 := fun r _ a => ⟨intRange_nodup _ _, fun i => mem_intRange⟩
  gridL := fun r hr => by
    obtain ⟨topo, ht, -, -, -, -, -, -, -, -, -, -, e11, -⟩ := GridTopo.mk?_ok (ndim := d) (ng := ng) hN hd (fun a => (hr a).1)
    have e : topo = (mkLayout d nx ng hN dims hd).topo r := by
      have := ((mkLayout d nx ng hN dims hd).ok r hr).symm.trans ht
      exact (Except.ok.inj this).symm
    obtain ⟨rg, hrg⟩ : ∃ rg, ((mkLayout d nx ng hN dims hd).topo r).range.allGhosts = .ok rg := by
      rw [← e]
      unfold Range.allGhosts Range.withGhosts
      rw [if_neg (by omega)]
      exact ⟨_, rfl⟩
    refine ⟨rg, hrg, ?_⟩
    simp only [mkMachine, hrg]
    exact ⟨boxList_isSchedule _ _, boxList_isSchedule _ _⟩
  consL := fun r _ => boxList_isSchedule (nghostOf d ng) (fun a => localExt nx dims (nghostOf d ng) r a - nghostOf d ng a)
  writers := fun r => (boxList_isSchedule 0 dims).2 r
  force := fun _ _ _ _ _ _ _ _ => rfl
  mem := fun _ r _ => mkMem_ok nx dims ng r

theorem freshRun_on {H : Type} {q : LoopParams ℝ} (hq : 0 < q.iterFreq) (t : ℝ) (h : H) :
    freshRun q t h = ⟨⟨h, t, 0, 0, 0, -1⟩, [⟨h, t, 0, 0, 0, -1⟩], .running⟩ := by
  unfold freshRun
  rw [if_pos (Or.inl hq)]

/-- The initial arrays of a machine. -/
noncomputable def initArrays (nx : Cell) (ng : ℤ) (dims : Cell) (S : Cell → Prim d ℝ) (Fx : Cell → Fin n → ℝ) :
    (Cell → View Cell (Fields d n ℝ)) × (Cell → View Cell (VelPres d ℝ)) :=
  (fun r => ⟨inExt (localExt nx dims (nghostOf d ng) r), fun c =>
      ⟨(S (globalOf nx dims (nghostOf d ng) r c)).rho, fun _ => 0, 0, Fx (globalOf nx dims (nghostOf d ng) r c)⟩⟩,
    fun r => ⟨inExt (localExt nx dims (nghostOf d ng) r), fun c =>
      ⟨(S (globalOf nx dims (nghostOf d ng) r c)).u, (S (globalOf nx dims (nghostOf d ng) r c)).P⟩⟩)

theorem initArrays_ok {nx : Cell} {ng : ℤ} {A : Machine d n} (S : Cell → Prim d ℝ) (Fx : Cell → Fin n → ℝ) :
    InitOf nx ng A S Fx (initArrays nx ng A.dims S Fx).1 (initArrays nx ng A.dims S Fx).2 :=
  ⟨fun _ _ => rfl, fun _ _ => rfl, fun _ _ _ _ => ⟨rfl, rfl, rfl⟩⟩

theorem demo_size (dims : Cell) (h : dims = ![2, 3, 1] ∨ dims = ![4, 1, 1]) :
    ∀ a : Fin 3, a.val < 2 → ∀ r, 0 ≤ r → r < dims a → 2 ≤ localSize ((![8, 6, 1] : Cell) a) (dims a) r := by
  intro a ha r h0 h1
  rcases h with rfl | rfl <;> fin_cases a
  · rw [localSize_eq (by simp) (by simp)]; simp [not_lt.2 h0]
  · rw [localSize_eq (by simp) (by simp)]; simp [not_lt.2 h0]
  · simp at ha
  · rw [localSize_eq (by simp) (by simp)]; simp [not_lt.2 h0]
  · rw [localSize_eq (by simp) (by simp)]; simp [not_lt.2 h0]
  · simp at ha

/-- A 8 x 6 domain on 2 x 3 and on 4 x 1 ranks, periodic and reflexive directions, uniform gravity, pressure fix, heating: both runs
write the same files. -/
example (p : ProgParams 2 1) (hb : p.hydro.bcs = ![![.periodic, .periodic], ![.reflexive, .nullGradient]])
    (hpo : p.hydro.order = [some 2, some 0, some 3, some 1]) (hs : p.step = .heatNickel) (hf : p.fix = some (1 / 1000)) (ht : p.top = 10 ^ 308)
    (S : Cell → Prim 2 ℝ) (Fx : Cell → Fin 1 → ℝ) (X : Fin 3 → ℤ → ℝ) (clock : ℕ → Bool) (k : ℕ) :
    ∃ (A B : Machine 2 1) (IA IB : (Cell → View Cell (Fields 2 1 ℝ)) × (Cell → View Cell (VelPres 2 ℝ))) (z z' : ProgState 2 1),
      A.dims = ![2, 3, 1] ∧ B.dims = ![4, 1, 1] ∧
      progRun p ![8, 6, 1] (nghostOf 2 2) (borderOf A.dims) A clock (progFresh p ![8, 6, 1] (nghostOf 2 2) (borderOf A.dims) A X IA.1 IA.2) k = some z ∧
      progRun p ![8, 6, 1] (nghostOf 2 2) (borderOf B.dims) B clock (progFresh p ![8, 6, 1] (nghostOf 2 2) (borderOf B.dims) B X IB.1 IB.2) k = some z' ∧
      List.Forall₂ SameFile z.files z'.files := by
  have hN : ∀ a, 0 ≤ (![8, 6, 1] : Cell) a := by decide
  have hp : ParamsOk p [2, 0, 3, 1] := ⟨by rw [hb]; decide, by decide, hpo, fun _ => one_pos, by rw [ht]; norm_num⟩
  obtain ⟨z, z', e, e', -, h⟩ := C68_decomposition (X := X) (S := S) (Fx := Fx) (by norm_num) hN (by norm_num) hp
    (mkMachine_ok (d := 2) (n := 1) hN (dims := ![2, 3, 1]) (by decide) (-1) (by norm_num) (demo_size _ (.inl rfl)))
    (mkMachine_ok (d := 2) (n := 1) hN (dims := ![4, 1, 1]) (by decide) (-1) (by norm_num) (demo_size _ (.inr rfl)))
    (initArrays_ok S Fx) (initArrays_ok S Fx) clock k
  exact ⟨_, _, _, _, z, z', rfl, rfl, e, e', h⟩

/-- Files every 10 iterations, perfect gas: the first file, written on 2 x 3 ranks, continued on 4 x 1 ranks for any number of turns. -/
example (p : ProgParams 2 1) (hb : p.hydro.bcs = ![![.periodic, .periodic], ![.reflexive, .nullGradient]])
    (hpo : p.hydro.order = [some 2, some 0, some 3, some 1]) (hs : p.step = .heatNickel) (ht : p.top = 10 ^ 308) {g : Gas} (hg : g.Physical)
    (he : p.hydro.eos = PerfectGas.toEoS g) (hfr : p.loop.iterFreq = 10) (X : Fin 3 → ℤ → ℝ) (clock : ℕ → Bool) (m : ℕ) :
    ∃ (A B : Machine 2 1) (IA : (Cell → View Cell (Fields 2 1 ℝ)) × (Cell → View Cell (VelPres 2 ℝ))) (f : LoopState (FluidFile 2 1) ℝ)
      (zA zB : ProgState 2 1), A.dims = ![2, 3, 1] ∧ B.dims = ![4, 1, 1] ∧
      progRun p ![8, 6, 1] (nghostOf 2 2) (borderOf A.dims) A clock (progFresh p ![8, 6, 1] (nghostOf 2 2) (borderOf A.dims) A X IA.1 IA.2) (0 + m) = some zA ∧
      progRun p ![8, 6, 1] (nghostOf 2 2) (borderOf B.dims) B (fun i => clock (0 + i)) (progRestart p ![8, 6, 1] (nghostOf 2 2) (borderOf B.dims) B f) m = some zB ∧
      List.Forall₂ SameFile zA.files (f :: zB.files) := by
  have hpos : ∀ a, 0 < (![8, 6, 1] : Cell) a := by decide
  have hN : ∀ a, 0 ≤ (![8, 6, 1] : Cell) a := by decide
  have hp : ParamsOk p [2, 0, 3, 1] := ⟨by rw [hb]; decide, by decide, hpo, fun _ => one_pos, by rw [ht]; norm_num⟩
  have hA := mkMachine_ok (d := 2) (n := 1) hN (dims := ![2, 3, 1]) (by decide) (-1) (by norm_num) (demo_size _ (.inl rfl))
  have hB := mkMachine_ok (d := 2) (n := 1) hN (dims := ![4, 1, 1]) (by decide) (-1) (by norm_num) (demo_size _ (.inr rfl))
  set A := mkMachine 2 1 ![8, 6, 1] 2 hN ![2, 3, 1] (by decide) (-1)
  set B := mkMachine 2 1 ![8, 6, 1] 2 hN ![4, 1, 1] (by decide) (-1)
  -- a density that varies, the fluid at rest
  let S : Cell → Prim 2 ℝ := fun c => ⟨1 + (c 0 : ℝ) ^ 2, fun _ => 0, 1⟩
  have hi := initArrays_ok (nx := ![8, 6, 1]) (ng := 2) (A := A) S (fun _ _ => (1 / 2 : ℝ))
  obtain ⟨z, e, hz⟩ := progFresh_follows (X := X) (by norm_num) hN (by norm_num) hp hA hi
  rw [freshRun_on (by rw [hfr]; norm_num)] at hz
  obtain ⟨f, hf⟩ : ∃ f, z.files = [f] := List.length_eq_one_iff.1 hz.files.length_eq
  have hfi : f.iter = z.s.iter := by
    have h1 := hz.files
    rw [hf] at h1
    obtain ⟨-, h2, -⟩ := withFluid_eq (List.forall₂_cons.1 h1).1.2
    obtain ⟨-, h3, -⟩ := withFluid_eq hz.s
    exact h2.trans h3.symm
  have hsame : SameFile f f := ⟨⟨rfl, fun _ _ => rfl⟩, fun _ => ⟨rfl, fun _ _ => rfl⟩, ⟨rfl, fun _ _ => rfl⟩, ⟨rfl, fun _ _ => rfl⟩,
    ⟨rfl, fun _ _ => rfl⟩, fun _ => ⟨rfl, fun _ _ => rfl⟩, rfl, rfl, rfl, rfl, rfl, rfl, rfl⟩
  obtain ⟨zA, zB, q1, q2, -, q3⟩ := C68_restart (X := X) (N := 0) (z := z) (clock := clock) (pre := []) (f := f) (by norm_num) hpos (by norm_num) hp
    (by rw [he]; exact PerfectGas.lawful hg) hA hB hi e hz.status (by
      intro r hr c hc
      rw [hz.h.val r hr c (layer_inExt hc (by norm_num)), ← global_add ![8, 6, 1] A.dims (nghostOf 2 2)]
      have hin : inBox 0 ![8, 6, 1] (globalOf ![8, 6, 1] A.dims (nghostOf 2 2) r c) :=
        interior_global (Y := hA.layout) hN hr ((interior_layer hA).2 hc)
      dsimp only
      rw [bcGlob_interior (ng := 2) p.hydro.bcs (by norm_num) (by norm_num) hp.ids _ hin]
      show (0 : ℝ) < 1 + _ ^ 2
      positivity) hf hfi hsame m
  rw [hf] at q3
  exact ⟨A, B, _, f, zA, zB, rfl, rfl, q1, q2, q3⟩

end Examples

end Heracles

import Verif.Lemmas.MovingProgram
import Verif.Props.Runs
import Verif.Props.ShiftCriterion
import Verif.Props.FreeFall

/-!
# The whole program with a shifting grid

C72: the results of a run whose grid follows the flow do not depend on the process grid; what a shift does; how far the grid goes; what
a restart loses.
-/

namespace Heracles

variable {d n : ℕ}

section Lemmas
variable {p : ProgParams d n} {rmax : ℝ} {nx : Cell} {ng : ℤ} {Gr : (Fin 3 → ℤ → ℝ) → (Cell → Fields d n ℝ) → Cell → Fin d → ℝ}
  {Cr : (Fin 3 → ℤ → ℝ) → (Cell → Fields d n ℝ) → Bool} {A B : MovMachine d n} {order : List ℕ}

theorem MovFollows.sameState {z z' : MovState d n} {g g' : RunState (GlobMov d n) ℝ} (h : MovFollows p nx ng A z g)
    (h' : MovFollows p nx ng B z' g') (hs : g.s = g'.s) (he : g.status = g'.status) :
    SameState nx ng A.dims B.dims z.toProgState z'.toProgState ∧ z.x = z'.x ∧ z.bcs = z'.bcs ∧ z.active = z'.active := by
  obtain ⟨w1, w2, w3, w4, w5⟩ := withFluid_eq (h.s.trans ((congrArg (LoopState.withFluid · ()) hs).trans h'.s.symm))
  have r := h.rep
  rw [hs] at r
  exact ⟨⟨h.status.trans (he.trans h'.status.symm), w1, w2, w3, w4, w5, r.h.same h'.rep.h⟩, r.x.trans h'.rep.x.symm, r.bcs.trans h'.rep.bcs.symm,
    r.active.trans h'.rep.active.symm⟩

theorem movFiles_same {l l' : List (LoopState (FluidFile d n) ℝ)} {o : List (LoopState (GlobMov d n) ℝ)}
    (h : List.Forall₂ (fun f o => FileOf p nx ng o.h.X o.h.W f.h ∧ f.withFluid () = o.withFluid ()) l o)
    (h' : List.Forall₂ (fun f o => FileOf p nx ng o.h.X o.h.W f.h ∧ f.withFluid () = o.withFluid ()) l' o) : List.Forall₂ SameFile l l' := by
  induction h generalizing l' with
  | nil => cases h'; exact .nil
  | cons a _ ih =>
    cases h' with
    | cons b t => exact .cons (a.1.same b.1 (a.2.trans b.2.symm)) (ih t)

/-- A fresh run. -/
theorem movFresh_follows (hd3 : d ≤ 3) (hN : ∀ a, 0 ≤ nx a) (hng : 2 ≤ ng) (hp : ParamsOk p order) (h : MovOk p nx ng Gr Cr A)
    {X : Fin 3 → ℤ → ℝ} {S : Cell → Prim d ℝ} {Fx : Cell → Fin n → ℝ} {U : Cell → View Cell (Fields d n ℝ)} {up : Cell → View Cell (VelPres d ℝ)}
    (hi : InitOf nx ng A.toMachine S Fx U up) (on : Bool) :
    ∃ z, movStart p on (progFresh p nx (nghostOf d ng) (borderOf A.dims) A.toMachine X U up) = some z ∧ MovFollows p nx ng A z
      (freshRun p.loop p.tIni ⟨bcGlob p.hydro.bcs nx (nghostOf d ng) order fun g => consFields p.hydro.eos (S g) (Fx g), X, p.hydro.bcs, on⟩) := by
  obtain ⟨z, e, hz⟩ := progFresh_follows (X := X) hd3 hN hng hp h.base (U := U) (up := up) (S := S) (Fx := Fx) ⟨hi.domU, hi.domUp, hi.val⟩
  refine ⟨_, by unfold movStart; rw [show progFresh p nx (nghostOf d ng) (borderOf A.dims) A.toMachine X U up = some z from e]; rfl, ?_⟩
  refine movStart_follows (A := { A.toMachine with grav := fun _ _ _ _ => some 0 }) rfl hz hp.bcs on ?_ ?_ ?_
  all_goals unfold freshRun; split <;> rfl

/-- A restart. -/
theorem movRestart_follows (hd3 : d ≤ 3) (hpos : ∀ a, 0 < nx a) (hng : 2 ≤ ng) (hp : ParamsOk p order) (he : p.hydro.eos.Lawful)
    (h : MovOk p nx ng Gr Cr A) {X : Fin 3 → ℤ → ℝ} {W G : Cell → Fields d n ℝ} (hW : W = bcGlob p.hydro.bcs nx (nghostOf d ng) order G)
    (hrho : ∀ g, inBox 0 nx g → 0 < (W (g + nghostOf d ng)).rho) {f : LoopState (FluidFile d n) ℝ} (hf : FileOf p nx ng X W f.h) (on : Bool) :
    ∃ z, movStart p on (progRestart p nx (nghostOf d ng) (borderOf A.dims) A.toMachine f) = some z ∧ MovFollows p nx ng A z
      (restartRun id (f.withFluid ⟨W, X, p.hydro.bcs, on⟩)) := by
  obtain ⟨z, e, hz⟩ := progRestart_follows (f := f) hd3 hpos hng hp he h.base hW hrho hf
  refine ⟨_, by unfold movStart; rw [show progRestart p nx (nghostOf d ng) (borderOf A.dims) A.toMachine f = some z from e]; rfl, ?_⟩
  exact movStart_follows (A := { A.toMachine with grav := fun _ _ _ _ => some 0 }) rfl hz hp.bcs on rfl rfl rfl

/-- A turn of the global run compared with a turn without a shift. -/
theorem movTurn_glob (clock : Bool) {g : RunState (GlobMov d n) ℝ} (hg : g.status = .running) :
    let r := runStep p.loop (movHydro p rmax nx ng Gr Cr order) clock g
    let r1 := runStep p.loop (globHydro (p.withBcs g.s.h.bcs) nx ng g.s.h.X (Gr g.s.h.X) order) clock ⟨g.s.withFluid g.s.h.W, [], g.status⟩
    r.status = r1.status ∧ (r1.status ≠ .failed → r.s.withFluid () = r1.s.withFluid () ∧
      r.s.h = shiftGlob rmax nx ng Cr order { g.s.h with W := r1.s.h } ∧
      (r.outs = g.outs ∧ r1.outs = [] ∨ r.outs = g.outs ++ [r.s] ∧ r1.outs = [r1.s])) := by
  intro r r1
  have e := decideStep_fluid (H := GlobMov d n) (H' := Cell → Fields d n ℝ) p.loop
    ((globHydro (p.withBcs g.s.h.bcs) nx ng g.s.h.X (Gr g.s.h.X) order).timeStep g.s.h.W) clock (s := g.s) (s' := g.s.withFluid g.s.h.W) rfl
  have et : (movHydro p rmax nx ng Gr Cr order).timeStep g.s.h = (globHydro (p.withBcs g.s.h.bcs) nx ng g.s.h.X (Gr g.s.h.X) order).timeStep g.s.h.W := rfl
  have eb : (movHydro p rmax nx ng Gr Cr order).bad g.s.h = (globHydro (p.withBcs g.s.h.bcs) nx ng g.s.h.X (Gr g.s.h.X) order).bad g.s.h.W := rfl
  have hr : r = runStep p.loop (movHydro p rmax nx ng Gr Cr order) clock g := rfl
  have hr1 : r1 = runStep p.loop (globHydro (p.withBcs g.s.h.bcs) nx ng g.s.h.X (Gr g.s.h.X) order) clock ⟨g.s.withFluid g.s.h.W, [], g.status⟩ := rfl
  clear_value r r1
  unfold runStep iteration at hr hr1
  rw [et, eb, hg] at hr
  rw [hg] at hr1
  dsimp only [LoopState.withFluid] at hr hr1 e
  rw [e] at hr
  cases hdec : decideStep p.loop ((globHydro (p.withBcs g.s.h.bcs) nx ng g.s.h.X (Gr g.s.h.X) order).timeStep g.s.h.W) clock
      (⟨g.s.h.W, g.s.t, g.s.iter, g.s.outputId, g.s.iterId, g.s.timeId⟩ : LoopState (Cell → Fields d n ℝ) ℝ) with
  | error m =>
    rw [hdec] at hr hr1
    subst hr hr1
    exact ⟨rfl, fun h => absurd rfl h⟩
  | ok c =>
    rw [hdec] at hr hr1
    dsimp only at hr hr1
    cases hb : (globHydro (p.withBcs g.s.h.bcs) nx ng g.s.h.X (Gr g.s.h.X) order).bad g.s.h.W with
    | true =>
      simp only [hb, if_true] at hr hr1
      subst hr hr1
      exact ⟨rfl, fun h => absurd rfl h⟩
    | false =>
      simp only [hb, Bool.false_eq_true, if_false] at hr hr1
      subst hr hr1
      refine ⟨rfl, fun _ => ⟨rfl, rfl, ?_⟩⟩
      cases c.makeOutput with
      | false => exact Or.inl ⟨rfl, rfl⟩
      | true => exact Or.inr ⟨rfl, rfl⟩

/-- What holds of the global state in every turn. -/
theorem movRun_inv {I : GlobMov d n → Prop} (hI : ∀ h t dt, I h → I ((movHydro p rmax nx ng Gr Cr order).advance h t dt)) {q : LoopParams ℝ} {clock : ℕ → Bool}
    {r : RunState (GlobMov d n) ℝ} (h0 : I r.s.h) (k : ℕ) : I (runN q (movHydro p rmax nx ng Gr Cr order) clock r k).s.h := by
  induction k with
  | zero => exact h0
  | succ k ih =>
    rw [runN]
    by_cases hr : (runN q (movHydro p rmax nx ng Gr Cr order) clock r k).status = .running
    · rcases runStep_running (p := q) (hy := movHydro p rmax nx ng Gr Cr order) (clock := clock k) hr with ⟨D, -, -, e⟩ | ⟨-, e, -⟩
      · rw [e]
        exact hI _ _ _ ih
      · rw [e]; exact ih
    · rw [runStep_stopped hr]; exact ih

theorem shiftGlob_bc {h : GlobMov d n} (h0 : ∃ G, h.W = bcGlob h.bcs nx (nghostOf d ng) order G) :
    ∃ G, (shiftGlob rmax nx ng Cr order h).W = bcGlob (shiftGlob rmax nx ng Cr order h).bcs nx (nghostOf d ng) order G := by
  unfold shiftGlob
  split
  · split
    · exact ⟨fun g => h.W (g + nghostOf d ng), rfl⟩
    · exact ⟨fun g => h.W (nextCell (g + nghostOf d ng)), rfl⟩
  · exact h0

/-- Without a criterion of the setup there is none later; the boundary conditions are the initial ones as long as the criterion has not been
switched off. -/
def Intact (p : ProgParams d n) (on : Bool) (h : GlobMov d n) : Prop := (h.active = true → on = true) ∧ (h.active = on → h.bcs = p.hydro.bcs)

theorem shiftGlob_intact {h : GlobMov d n} {on : Bool} (h0 : Intact p on h) : Intact p on (shiftGlob rmax nx ng Cr order h) := by
  unfold shiftGlob
  split
  · rename_i hc
    split
    · refine ⟨fun h => absurd h Bool.false_ne_true, fun h => ?_⟩
      rw [h0.1 hc.1] at h
      exact absurd h Bool.false_ne_true
    · exact h0
  · exact h0

end Lemmas

section Main
variable {p : ProgParams d n} {rmax : ℝ} {nx : Cell} {ng : ℤ} {Gr : (Fin 3 → ℤ → ℝ) → (Cell → Fields d n ℝ) → Cell → Fin d → ℝ}
  {Cr : (Fin 3 → ℤ → ℝ) → (Cell → Fields d n ℝ) → Bool} {A B : MovMachine d n} {order : List ℕ} {X : Fin 3 → ℤ → ℝ} {S : Cell → Prim d ℝ}
  {Fx : Cell → Fin n → ℝ} {U U' : Cell → View Cell (Fields d n ℝ)} {up up' : Cell → View Cell (VelPres d ℝ)} {on : Bool} {clock : ℕ → Bool}

/-- **C72.** Two process grids as in `C68_decomposition`, for a run whose grid shifts; the gravity and the criterion are properties of the nodes
and the fields of the domain. After any number of turns neither run has accessed an array out of bounds; status, time, counters, fields,
nodes, boundary conditions and the state of the criterion are the same, and so are the files. The grid of every rank (centres, widths,
areas, volumes) is that of its present nodes. -/
theorem C72_decomposition (hd : 0 < d) (hd3 : d ≤ 3) (hN : ∀ a, 0 ≤ nx a) (hng : 2 ≤ ng) (hp : ParamsOk p order) (hA : MovOk p nx ng Gr Cr A)
    (hB : MovOk p nx ng Gr Cr B) (hi : InitOf nx ng A.toMachine S Fx U up) (hi' : InitOf nx ng B.toMachine S Fx U' up') (on : Bool)
    (clock : ℕ → Bool) (k : ℕ) :
    ∃ z z', movRun p rmax nx (nghostOf d ng) (borderOf A.dims) A clock
        (movStart p on (progFresh p nx (nghostOf d ng) (borderOf A.dims) A.toMachine X U up)) k = some z ∧
      movRun p rmax nx (nghostOf d ng) (borderOf B.dims) B clock
        (movStart p on (progFresh p nx (nghostOf d ng) (borderOf B.dims) B.toMachine X U' up')) k = some z' ∧
      SameState nx ng A.dims B.dims z.toProgState z'.toProgState ∧ z.x = z'.x ∧ z.bcs = z'.bcs ∧ z.active = z'.active ∧
      List.Forall₂ SameFile z.files z'.files ∧
      ∀ r, inBox 0 A.dims r → setGrid p.hydro.tr p.hydro.geom d (A.topo r) (A.gridL1 r) (A.gridL r) (A.gridL' r)
        (fun a => View.line (z.nAxis a) (z.x a)) (GridData.alloc (A.topo r).nxLocalWg) = some (z.grid r) := by
  obtain ⟨z0, e0, h0⟩ := movFresh_follows (X := X) hd3 hN hng hp hA hi on
  obtain ⟨z0', e0', h0'⟩ := movFresh_follows (X := X) hd3 hN hng hp hB hi' on
  obtain ⟨z, e, h⟩ := movRun_follows (rmax := rmax) hd hd3 hN hng hp hA clock e0 h0 k
  obtain ⟨z', e', h'⟩ := movRun_follows (rmax := rmax) hd hd3 hN hng hp hB clock e0' h0' k
  obtain ⟨q1, q2, q3, q4⟩ := h.sameState h' rfl rfl
  refine ⟨z, z', e, e', q1, q2, q3, q4, movFiles_same h.files h'.files, fun r hr => ?_⟩
  rw [h.rep.nAxis, h.rep.x]
  exact h.rep.grid r hr

/-- **C72**, what a turn does. A run is in the state `z` after `k` turns; `y` is the state after a turn of the program without a shift
(C68) from there, and this turn does not fail; `z'` is the state after the next turn of the run. Then status, time and counters are those of `y`; the
criterion, applied to the fields of `y`, gives an answer `b`, and:
- if the criterion is not in force or says no, everything is as without the shift, also the file written if any;
- if it says yes and the node beyond the outer boundary is at `rmax` or more, the cells of the domain and the nodes are as without the shift, the outer
boundary becomes free, the criterion is no longer in force;
- if it says yes and that node is below `rmax`, every cell of the domain takes the values of the next one, every node the position of the
next one, the boundaries and the criterion stay as they are. -/
theorem C72_turn (hd : 0 < d) (hd3 : d ≤ 3) (hN : ∀ a, 0 ≤ nx a) (hng : 2 ≤ ng) (hp : ParamsOk p order) (hA : MovOk p nx ng Gr Cr A)
    (hi : InitOf nx ng A.toMachine S Fx U up) {k : ℕ} {z z' : MovState d n} {y : ProgState d n}
    (hz : movRun p rmax nx (nghostOf d ng) (borderOf A.dims) A clock
      (movStart p on (progFresh p nx (nghostOf d ng) (borderOf A.dims) A.toMachine X U up)) k = some z) (hrun : z.status = .running)
    (hy : progStep (p.withBcs z.bcs) nx (nghostOf d ng) (borderOf A.dims) (A.at z.grid) (A.mem k) (clock k) { z.toProgState with files := [] } = some y)
    (hok : y.status ≠ .failed)
    (hz' : movRun p rmax nx (nghostOf d ng) (borderOf A.dims) A clock
      (movStart p on (progFresh p nx (nghostOf d ng) (borderOf A.dims) A.toMachine X U up)) (k + 1) = some z') :
    ∃ b, A.crit z.grid y.s.h = some b ∧ z'.status = y.status ∧ z'.s.withFluid () = y.s.withFluid () ∧
      (¬ (z.active = true ∧ b = true) → z'.x = z.x ∧ z'.bcs = z.bcs ∧ z'.active = z.active ∧ SameFluid nx ng A.dims A.dims z'.s.h y.s.h ∧
        List.Forall₂ SameFile z'.files (z.files ++ y.files)) ∧
      (z.active = true → b = true → rmax ≤ z.x 0 (nx 0 + nghostOf d ng 0 + 1) → z'.x = z.x ∧ z'.active = false ∧
        (∀ a f, z'.bcs a f = if a.val = 0 ∧ f = 1 then .nullGradient else z.bcs a f) ∧
        ∀ r, inBox 0 A.dims r → ∀ c, layer d (localExt nx A.dims (nghostOf d ng) r) ng c → z'.s.h.val r c = y.s.h.val r c) ∧
      (z.active = true → b = true → z.x 0 (nx 0 + nghostOf d ng 0 + 1) < rmax → z'.bcs = z.bcs ∧ z'.active = true ∧
        (∀ i, 0 ≤ i → i < nx 0 + 2 * nghostOf d ng 0 → z'.x 0 i = z.x 0 (i + 1)) ∧ (∀ a, a ≠ 0 → z'.x a = z.x a) ∧
        ∀ r, inBox 0 A.dims r → ∀ c, layer d (localExt nx A.dims (nghostOf d ng) r) ng c → z'.s.h.val r c = y.s.h.val r (nextCell c)) := by
  have hn0 : nghostOf d ng 0 = ng := by simp [nghostOf, hd]
  obtain ⟨z0, e0, h0⟩ := movFresh_follows (X := X) hd3 hN hng hp hA hi on
  obtain ⟨z1, e1, h1⟩ := movRun_follows (rmax := rmax) hd hd3 hN hng hp hA clock e0 h0 k
  obtain rfl : z1 = z := Option.some.inj (e1.symm.trans hz)
  obtain ⟨z2, e2, h2⟩ := movRun_follows (rmax := rmax) hd hd3 hN hng hp hA clock e0 h0 (k + 1)
  obtain rfl : z2 = z' := Option.some.inj (e2.symm.trans hz')
  rw [runN] at h2
  generalize runN p.loop (movHydro p rmax nx ng Gr Cr order) clock _ k = g at h1 h2
  have hr := h1.rep
  have hg : g.status = .running := h1.status.symm.trans hrun
  have hp' : ParamsOk (p.withBcs g.s.h.bcs) order := ⟨hr.noUser, hp.ids, hp.order, hp.heat, hp.top⟩
  obtain ⟨y1, ey, fy⟩ := progStep_follows (p := p.withBcs g.s.h.bcs) (X := g.s.h.X) hd3 hN hng hp' (hA.machine hr.grid) k (clock k)
    (z := { z1.toProgState with files := [] }) (g := ⟨g.s.withFluid g.s.h.W, [], g.status⟩)
    ⟨hr.grid, hr.nAxis, hr.x, hr.h, h1.s, .nil, h1.status⟩
  rw [hr.bcs] at hy
  obtain rfl : y1 = y := Option.some.inj (ey.symm.trans hy)
  obtain ⟨t1, t2⟩ := movTurn_glob (p := p) (rmax := rmax) (nx := nx) (ng := ng) (Gr := Gr) (Cr := Cr) (order := order) (clock k) hg
  generalize runStep p.loop (movHydro p rmax nx ng Gr Cr order) (clock k) g = r at h2 t1 t2
  have fy' : Follows (p.withBcs g.s.h.bcs) nx ng g.s.h.X (A.at z1.grid) y1
    (runStep p.loop (globHydro (p.withBcs g.s.h.bcs) nx ng g.s.h.X (Gr g.s.h.X) order) (clock k) ⟨g.s.withFluid g.s.h.W, [], g.status⟩) := fy
  generalize runStep p.loop (globHydro (p.withBcs g.s.h.bcs) nx ng g.s.h.X (Gr g.s.h.X) order) (clock k) ⟨g.s.withFluid g.s.h.W, [], g.status⟩ = r1 at fy' t1 t2
  obtain ⟨t3, t4, t5⟩ := t2 (by rw [← fy'.status]; exact hok)
  have hc : A.crit z1.grid y1.s.h = some (Cr g.s.h.X r1.s.h) := hA.crit g.s.h.X z1.grid hr.grid r1.s.h y1.s.h fy'.h
  have hr2 := h2.rep
  have inner : ∀ r, inBox 0 A.dims r → ∀ c, layer d (localExt nx A.dims (nghostOf d ng) r) ng c →
      inBox 0 nx (globalOf nx A.dims (nghostOf d ng) r c) ∧ inExt (localExt nx A.dims (nghostOf d ng) r) c = true ∧
      inExt (localExt nx A.dims (nghostOf d ng) r) (nextCell c) = true := by
    intro r hr c hc
    refine ⟨interior_global (Y := hA.base.layout) hN hr ((interior_layer hA.base).2 hc), layer_inExt hc (by omega), inExt_iff.2 fun a => ?_⟩
    have hin := inExt_iff.1 (layer_inExt hc (by omega))
    have h0 : nghostOf d ng 0 ≤ c 0 ∧ c 0 < localExt nx A.dims (nghostOf d ng) r 0 - nghostOf d ng 0 := hc 0
    have := hin 0
    fin_cases a
    · exact ⟨show 0 ≤ c 0 + 1 by omega, show c 0 + 1 < localExt nx A.dims (nghostOf d ng) r 0 by omega⟩
    · exact hin 1
    · exact hin 2
  refine ⟨_, hc, h2.status.trans (t1.trans fy'.status.symm), h2.s.trans (t3.trans fy'.s.symm), fun hno => ?_, fun ha hb hx => ?_, fun ha hb hx => ?_⟩
  · have hno' : ¬ (g.s.h.active = true ∧ Cr g.s.h.X r1.s.h = true) := by rw [← hr.active]; exact hno
    have e : r.s.h = { g.s.h with W := r1.s.h } := by rw [t4, shiftGlob, if_neg hno']
    rw [e] at hr2
    refine ⟨hr2.x.trans hr.x.symm, hr2.bcs.trans hr.bcs.symm, hr2.active.trans hr.active.symm, hr2.h.same fy'.h, ?_⟩
    have hf := h2.files
    rcases t5 with ⟨u1, u2⟩ | ⟨u1, u2⟩
    · rw [u1] at hf
      have hfy := fy'.files
      rw [u2, List.forall₂_nil_right_iff] at hfy
      rw [hfy, List.append_nil]
      exact movFiles_same hf h1.files
    · rw [u1] at hf
      have hfy := fy'.files
      rw [u2] at hfy
      refine movFiles_same hf (List.rel_append h1.files ?_)
      match hl : y1.files, hfy with
      | [f], .cons ⟨f1, f2⟩ .nil =>
        refine .cons ⟨?_, f2.trans t3.symm⟩ .nil
        rw [e]
        exact f1.withBcs
  · have hyes : g.s.h.active = true ∧ Cr g.s.h.X r1.s.h = true := ⟨hr.active ▸ ha, hb⟩
    rw [hr.x] at hx
    have e : r.s.h = ⟨bcGlob (openOuter g.s.h.bcs) nx (nghostOf d ng) order fun g => r1.s.h (g + nghostOf d ng), g.s.h.X, openOuter g.s.h.bcs, false⟩ := by
      rw [t4, shiftGlob, if_pos hyes, if_pos hx]
    rw [e] at hr2
    refine ⟨hr2.x.trans hr.x.symm, hr2.active, fun a f => ?_, fun r hr' c hc => ?_⟩
    · rw [hr2.bcs, hr.bcs]
      rfl
    · obtain ⟨i1, i2, -⟩ := inner r hr' c hc
      rw [hr2.h.val r hr' c i2, fy'.h.val r hr' c i2]
      show bcGlob (openOuter g.s.h.bcs) nx (nghostOf d ng) order (fun g => r1.s.h (g + nghostOf d ng)) (c + startCell nx A.dims r) = r1.s.h (c + startCell nx A.dims r)
      rw [← global_add (nghost := nghostOf d ng)]
      exact bcGlob_interior (ng := ng) (openOuter g.s.h.bcs) hd3 (by omega) hp.ids _ i1
  · have hyes : g.s.h.active = true ∧ Cr g.s.h.X r1.s.h = true := ⟨hr.active ▸ ha, hb⟩
    rw [hr.x] at hx
    have e : r.s.h = ⟨bcGlob g.s.h.bcs nx (nghostOf d ng) order fun g => r1.s.h (nextCell (g + nghostOf d ng)), shiftX nx (nghostOf d ng) g.s.h.X,
        g.s.h.bcs, g.s.h.active⟩ := by
      rw [t4, shiftGlob, if_pos hyes, if_neg (not_le.2 hx)]
    rw [e] at hr2
    refine ⟨hr2.bcs.trans hr.bcs.symm, hr2.active.trans hyes.1, fun i hi0 hi1 => ?_, fun a ha => ?_, fun r hr' c hc => ?_⟩
    · rw [hr2.x, hr.x]
      show shiftX nx (nghostOf d ng) g.s.h.X 0 i = _
      unfold shiftX shiftedNodes
      rw [if_pos rfl, if_neg (by omega), if_pos (by omega)]
    · rw [hr2.x, hr.x]
      exact if_neg ha
    · obtain ⟨i1, i2, i3⟩ := inner r hr' c hc
      rw [hr2.h.val r hr' c i2, fy'.h.val r hr' _ i3, nextCell_add]
      show bcGlob g.s.h.bcs nx (nghostOf d ng) order (fun g => r1.s.h (nextCell (g + nghostOf d ng))) (c + startCell nx A.dims r) =
        r1.s.h (nextCell (c + startCell nx A.dims r))
      rw [← global_add (nghost := nghostOf d ng)]
      exact bcGlob_interior (ng := ng) g.s.h.bcs hd3 (by omega) hp.ids _ i1

/-- **C72**, how far the grid goes. If the outer boundary is below `rmax` at the start, it is below `rmax` after any number of turns. -/
theorem C72_outer (hd : 0 < d) (hd3 : d ≤ 3) (hN : ∀ a, 0 ≤ nx a) (hng : 2 ≤ ng) (hp : ParamsOk p order) (hA : MovOk p nx ng Gr Cr A)
    (hi : InitOf nx ng A.toMachine S Fx U up) (hX : X 0 (nx 0 + nghostOf d ng 0) < rmax) {k : ℕ} {z : MovState d n}
    (hz : movRun p rmax nx (nghostOf d ng) (borderOf A.dims) A clock
      (movStart p on (progFresh p nx (nghostOf d ng) (borderOf A.dims) A.toMachine X U up)) k = some z) :
    z.x 0 (nx 0 + nghostOf d ng 0) < rmax := by
  have hn0 : nghostOf d ng 0 = ng := by simp [nghostOf, hd]
  have hN0 := hN 0
  obtain ⟨z0, e0, h0⟩ := movFresh_follows (X := X) hd3 hN hng hp hA hi on
  obtain ⟨z1, e1, h1⟩ := movRun_follows (rmax := rmax) hd hd3 hN hng hp hA clock e0 h0 k
  obtain rfl : z1 = z := Option.some.inj (e1.symm.trans hz)
  rw [h1.rep.x]
  refine movRun_inv (I := fun h => h.X 0 (nx 0 + nghostOf d ng 0) < rmax) (fun h t dt hh => ?_) (by rw [freshRun_h]; exact hX) k
  show (shiftGlob _ _ _ _ _ _).X 0 _ < rmax
  unfold shiftGlob
  split
  · split
    · exact hh
    · rename_i hx
      show shiftX nx (nghostOf d ng) h.X 0 _ < rmax
      unfold shiftX shiftedNodes
      rw [if_pos rfl, if_neg (by omega), if_pos (by omega)]
      exact not_le.1 hx
  · exact hh

theorem MovFollows.file {z : MovState d n} {g : RunState (GlobMov d n) ℝ} (h : MovFollows p nx ng A z g)
    (ho : ∀ o ∈ g.outs, o.iter < g.s.iter ∨ o = g.s) {f : LoopState (FluidFile d n) ℝ} (hf : f ∈ z.files) (hi : f.iter = z.s.iter) :
    FileOf p nx ng g.s.h.X g.s.h.W f.h ∧ f.withFluid g.s.h = g.s := by
  obtain ⟨o, h1, h2⟩ := forall₂_mem h.files hf
  obtain ⟨w1, w2, w3, w4, w5⟩ := withFluid_eq h2.2
  obtain ⟨-, v2, -⟩ := withFluid_eq h.s
  rcases ho o h1 with e | rfl
  · omega
  · refine ⟨h2.1, ?_⟩
    have : f.withFluid g.s.h = g.s.withFluid g.s.h := by simp only [LoopState.withFluid, w1, w2, w3, w4, w5]
    exact this

/-- **C72**, restart, partial: as `C68_restart`, for a run in which the criterion is still as at the start (in force, or none from the
start). The full statement, for any run, is false: `C72_restart_violated`. -/
theorem C72_restart_partial (hd : 0 < d) (hd3 : d ≤ 3) (hpos : ∀ a, 0 < nx a) (hng : 2 ≤ ng) (hp : ParamsOk p order) (he : p.hydro.eos.Lawful)
    (hA : MovOk p nx ng Gr Cr A) (hB : MovOk p nx ng Gr Cr B) (hi : InitOf nx ng A.toMachine S Fx U up) {N : ℕ} {z : MovState d n}
    (hz : movRun p rmax nx (nghostOf d ng) (borderOf A.dims) A clock
      (movStart p on (progFresh p nx (nghostOf d ng) (borderOf A.dims) A.toMachine X U up)) N = some z)
    (hrun : z.status = .running) (hact : z.active = on)
    (hrho : ∀ r, inBox 0 A.dims r → ∀ c, layer d (localExt nx A.dims (nghostOf d ng) r) ng c → 0 < (z.s.h.val r c).rho)
    {pre : List (LoopState (FluidFile d n) ℝ)} {f f' : LoopState (FluidFile d n) ℝ} (hf : z.files = pre ++ [f]) (hiter : f.iter = z.s.iter)
    (hff : SameFile f f') (m : ℕ) :
    ∃ zA zB, movRun p rmax nx (nghostOf d ng) (borderOf A.dims) A clock
        (movStart p on (progFresh p nx (nghostOf d ng) (borderOf A.dims) A.toMachine X U up)) (N + m) = some zA ∧
      movRun p rmax nx (nghostOf d ng) (borderOf B.dims) B (fun i => clock (N + i))
        (movStart p on (progRestart p nx (nghostOf d ng) (borderOf B.dims) B.toMachine f')) m = some zB ∧
      SameState nx ng A.dims B.dims zA.toProgState zB.toProgState ∧ zA.x = zB.x ∧ zA.bcs = zB.bcs ∧ zA.active = zB.active ∧
      List.Forall₂ SameFile zA.files (z.files ++ zB.files) := by
  have hN : ∀ a, 0 ≤ nx a := fun a => (hpos a).le
  obtain ⟨z0, e0, h0⟩ := movFresh_follows (X := X) hd3 hN hng hp hA hi on
  obtain ⟨z1, e1, h1⟩ := movRun_follows (rmax := rmax) hd hd3 hN hng hp hA clock e0 h0 N
  obtain rfl : z1 = z := Option.some.inj (e1.symm.trans hz)
  obtain ⟨zA, eA, hzA⟩ := movRun_follows (rmax := rmax) hd hd3 hN hng hp hA clock e0 h0 (N + m)
  set g0 : RunState (GlobMov d n) ℝ := freshRun p.loop p.tIni
    ⟨bcGlob p.hydro.bcs nx (nghostOf d ng) order fun g => consFields p.hydro.eos (S g) (Fx g), X, p.hydro.bcs, on⟩ with hg0
  have hst : (runN p.loop (movHydro p rmax nx ng Gr Cr order) clock g0 N).status = .running := by rw [← h1.status]; exact hrun
  have hrec := outs_recent (q := p.loop) (hy := movHydro p rmax nx ng Gr Cr order) (clock := clock) (r := g0) (freshRun_outs _ _ _) N (by rw [hst]; simp)
  obtain ⟨hf1, hf2⟩ := h1.file hrec (f := f) (by rw [hf]; simp) hiter
  obtain ⟨⟨G, hG⟩, hint⟩ := movRun_inv (p := p) (rmax := rmax) (nx := nx) (ng := ng) (Gr := Gr) (Cr := Cr) (order := order) (q := p.loop) (clock := clock)
    (I := fun h => (∃ G, h.W = bcGlob h.bcs nx (nghostOf d ng) order G) ∧ Intact p on h)
    (fun h t dt hh => ⟨shiftGlob_bc (h := { h with W := (globHydro (p.withBcs h.bcs) nx ng h.X (Gr h.X) order).advance h.W t dt })
      ⟨_, globHydro_advance (p := p.withBcs h.bcs) h.W t dt⟩, shiftGlob_intact hh.2⟩) (r := g0)
    (by rw [hg0, freshRun_h]; exact ⟨⟨fun g => consFields p.hydro.eos (S g) (Fx g), rfl⟩, id, fun _ => rfl⟩) N
  have hbcs := hint.2 (h1.rep.active.symm.trans hact)
  have hact' := h1.rep.active.symm.trans hact
  -- the last output of the global run is its state
  obtain ⟨pre', hpre⟩ : ∃ pre', (runN p.loop (movHydro p rmax nx ng Gr Cr order) clock g0 N).outs =
      pre' ++ [(runN p.loop (movHydro p rmax nx ng Gr Cr order) clock g0 N).s] := by
    have hfiles := h1.files
    rw [hf] at hfiles
    have q2 := List.forall₂_drop_append _ _ _ hfiles.flip
    have q3 := (List.take_append_drop pre.length (runN p.loop (movHydro p rmax nx ng Gr Cr order) clock g0 N).outs).symm
    generalize List.drop pre.length (runN p.loop (movHydro p rmax nx ng Gr Cr order) clock g0 N).outs = l2 at q2 q3
    cases q2 with
    | @cons o _ t _ hab ht =>
      cases ht
      have ho : o ∈ (runN p.loop (movHydro p rmax nx ng Gr Cr order) clock g0 N).outs := by rw [q3]; simp
      rcases hrec o ho with hlt | rfl
      · obtain ⟨-, w2, -⟩ := withFluid_eq hab.2
        obtain ⟨-, v2, -⟩ := withFluid_eq h1.s
        omega
      · exact ⟨_, q3⟩
  obtain ⟨k1, k2, k3⟩ := C42_restart_from_file (p := p.loop) (hy := movHydro p rmax nx ng Gr Cr order) id (clock := clock) (r := g0) N hst hpre rfl m
  set h := (runN p.loop (movHydro p rmax nx ng Gr Cr order) clock g0 N).s.h with hh
  have hrho' : ∀ g, inBox 0 nx g → 0 < (h.W (g + nghostOf d ng)).rho := by
    intro g hg
    choose r r1 r2 r3 r4 using fun a => exists_owner (hN a) (hA.base.pos a) (hg a).1 (hg a).2
    have hr : inBox 0 A.dims r := fun a => ⟨r1 a, r2 a⟩
    have hl : layer d (localExt nx A.dims (nghostOf d ng) r) ng (g + nghostOf d ng - startCell nx A.dims r) := by
      intro a
      have h3 : localStart (nx a) (A.dims a) (r a) ≤ g a := r3 a
      have h4 : g a < localStart (nx a) (A.dims a) (r a) + localSize (nx a) (A.dims a) (r a) := r4 a
      simp only [Pi.sub_apply, Pi.add_apply, startCell, localExt]
      omega
    have := hrho r hr _ hl
    rwa [h1.rep.h.val r hr _ (layer_inExt hl (by omega)), sub_add_cancel] at this
  rw [hbcs] at hG
  obtain ⟨zB0, eB0, hB0⟩ := movRestart_follows (f := f') hd3 hpos hng hp he hB hG hrho' (hf1.of_same hff) on
  have hstart : f'.withFluid (⟨h.W, h.X, p.hydro.bcs, on⟩ : GlobMov d n) = (runN p.loop (movHydro p rmax nx ng Gr Cr order) clock g0 N).s := by
    have : (⟨h.W, h.X, p.hydro.bcs, on⟩ : GlobMov d n) = h := by rw [← hbcs, ← hact']
    rw [this, ← hf2]
    simp only [LoopState.withFluid, hff.t, hff.iter, hff.outputId, hff.iterId, hff.timeId]
  rw [hstart] at hB0
  obtain ⟨zB, eB, hzB⟩ := movRun_follows (rmax := rmax) hd hd3 hN hng hp hB (fun i => clock (N + i)) eB0 hB0 m
  obtain ⟨s1, s2, s3, s4⟩ := hzA.sameState hzB k1.symm k2.symm
  refine ⟨zA, zB, eA, eB, s1, s2, s3, s4, movFiles_same hzA.files ?_⟩
  rw [k3, ← hpre]
  exact List.rel_append h1.files hzB.files

theorem FileOf.congr {W W' : Cell → Fields d n ℝ} {f : FluidFile d n} (h : FileOf p nx ng X W f)
    (e : ∀ g, inBox 0 nx g → W (g + nghostOf d ng) = W' (g + nghostOf d ng)) : FileOf p nx ng X W' f := by
  have hu : ∀ g, inBox 0 nx g → primGlob p.hydro.eos W (g + nghostOf d ng) = primGlob p.hydro.eos W' (g + nghostOf d ng) := fun g hg => by
    rw [primGlob_toPrim, primGlob_toPrim, e g hg]
  have key : ∀ {v : View (List ℤ) ℝ} {G G' : Cell → ℝ}, Dataset nx v G → (∀ g, inBox 0 nx g → G g = G' g) → Dataset nx v G' :=
    fun hv hG => ⟨hv.1, fun g hg => (hv.2 g hg).trans (hG g hg)⟩
  exact ⟨key h.rho fun g hg => by rw [e g hg], fun l => key (h.u l) fun g hg => by rw [hu g hg], key h.P fun g hg => by rw [hu g hg],
    key h.E fun g hg => by rw [e g hg], key h.T fun g hg => by rw [e g hg, hu g hg], fun l => key (h.fx l) fun g hg => by rw [e g hg], h.nAxis, h.x⟩

end Main

section Forgets
variable {p : ProgParams 1 n} {rmax : ℝ} {nx : Cell} {ng : ℤ} {Gr : (Fin 3 → ℤ → ℝ) → (Cell → Fields 1 n ℝ) → Cell → Fin 1 → ℝ}
  {Cr : (Fin 3 → ℤ → ℝ) → (Cell → Fields 1 n ℝ) → Bool} {A : MovMachine 1 n} {X : Fin 3 → ℤ → ℝ} {S : Cell → Prim 1 ℝ}
  {Fx : Cell → Fin n → ℝ} {U : Cell → View Cell (Fields 1 n ℝ)} {up : Cell → View Cell (VelPres 1 ℝ)} {clock : ℕ → Bool}

/-- The first cell beyond the outer boundary in one dimension. -/
theorem bcGlob_outer (bcs : Fin 1 → Fin 2 → BcKind) (hng : 0 < ng) (G : Cell → Fields 1 n ℝ) {g : Cell} (hg : inBox 0 nx g)
    (hlast : g 0 = nx 0 - 1) : bcGlob bcs nx (nghostOf 1 ng) [0, 1] G (nextCell (g + nghostOf 1 ng)) =
      match bcs 0 1 with
      | .nullGradient => G g
      | .reflexive => (G g).flip 0
      | _ => bcGlob bcs nx (nghostOf 1 ng) [0, 1] G (nextCell (g + nghostOf 1 ng)) := by
  have hax : ax (0 : Fin 1) = 0 := rfl
  have hn0 : nghostOf 1 ng 0 = ng := by simp [nghostOf]
  have hn1 : nghostOf 1 ng 1 = 0 := by simp [nghostOf]
  have hn2 : nghostOf 1 ng 2 = 0 := by simp [nghostOf]
  have hg0 : 0 ≤ g 0 ∧ g 0 < nx 0 := hg 0
  have hg1 : 0 ≤ g 1 ∧ g 1 < nx 1 := hg 1
  have hg2 : 0 ≤ g 2 ∧ g 2 < nx 2 := hg 2
  have hin : inExt (globExt nx (nghostOf 1 ng)) (nextCell (g + nghostOf 1 ng)) = true := by
    refine inExt_iff.2 fun a => ?_
    fin_cases a
    · show 0 ≤ g 0 + nghostOf 1 ng 0 + 1 ∧ g 0 + nghostOf 1 ng 0 + 1 < nx 0 + 2 * nghostOf 1 ng 0
      omega
    · show 0 ≤ g 1 + nghostOf 1 ng 1 ∧ g 1 + nghostOf 1 ng 1 < nx 1 + 2 * nghostOf 1 ng 1
      omega
    · show 0 ≤ g 2 + nghostOf 1 ng 2 ∧ g 2 + nghostOf 1 ng 2 < nx 2 + 2 * nghostOf 1 ng 2
      omega
  have hlay : InGhostLayer (globExt nx (nghostOf 1 ng)) (nghostOf 1 ng 0) 0 1 (nextCell (g + nghostOf 1 ng)) := by
    right
    refine ⟨rfl, ?_⟩
    show nx 0 + 2 * nghostOf 1 ng 0 - nghostOf 1 ng 0 ≤ g 0 + nghostOf 1 ng 0 + 1
    omega
  have hinner : ∀ V : Cell → Fields 1 n ℝ, bcPure bcs (fun _ _ => true) (globExt nx (nghostOf 1 ng)) (nghostOf 1 ng) V 0 (g + nghostOf 1 ng) = V (g + nghostOf 1 ng) := by
    intro V
    rw [show (0 : ℕ) = faceId (0 : Fin 1) 0 from rfl, bcPure_faceId, if_pos rfl, condPure_eq, if_neg]
    rintro ⟨-, ⟨-, h⟩ | ⟨h, -⟩⟩
    · have h : g 0 + nghostOf 1 ng 0 < nghostOf 1 ng 0 := h
      omega
    · exact absurd h (by decide)
  have hG : (fun C => G (wrap nx (C - nghostOf 1 ng))) (g + nghostOf 1 ng) = G g := by
    dsimp only
    rw [add_sub_cancel_right]
    congr 1
    funext a
    exact Int.emod_eq_of_lt (hg a).1 (hg a).2
  have hsrc : Function.update (nextCell (g + nghostOf 1 ng)) 0 (nx 0 + nghostOf 1 ng 0 - 1) = g + nghostOf 1 ng := by
    funext a
    fin_cases a
    · show nx 0 + nghostOf 1 ng 0 - 1 = g 0 + nghostOf 1 ng 0
      omega
    · rfl
    · rfl
  have hnear : nearest (globExt nx (nghostOf 1 ng)) (nghostOf 1 ng 0) 0 1 (nextCell (g + nghostOf 1 ng)) = g + nghostOf 1 ng := by
    refine Eq.trans ?_ hsrc
    show Function.update (nextCell (g + nghostOf 1 ng)) (0 : Fin 3) (nx 0 + 2 * nghostOf 1 ng 0 - nghostOf 1 ng 0 - 1) = _
    congr 1
    omega
  have hmir : mirror (globExt nx (nghostOf 1 ng)) (nghostOf 1 ng 0) 0 1 (nextCell (g + nghostOf 1 ng)) = g + nghostOf 1 ng := by
    refine Eq.trans ?_ hsrc
    show Function.update (nextCell (g + nghostOf 1 ng)) (0 : Fin 3) (nx 0 + 2 * nghostOf 1 ng 0 - nghostOf 1 ng 0 -
      (g 0 + nghostOf 1 ng 0 + 1 - (nx 0 + 2 * nghostOf 1 ng 0 - nghostOf 1 ng 0) + 1)) = _
    congr 1
    omega
  have hexp : ∀ V : Cell → Fields 1 n ℝ, bcPure bcs (fun _ _ => true) (globExt nx (nghostOf 1 ng)) (nghostOf 1 ng) V 1 (nextCell (g + nghostOf 1 ng)) =
      condAct (bcs 0 1) 0 (V (condSrc (bcs 0 1) (globExt nx (nghostOf 1 ng)) (nghostOf 1 ng 0) 0 1 (nextCell (g + nghostOf 1 ng)))) := by
    intro V
    have h1 : (1 : ℕ) = faceId (0 : Fin 1) 1 := rfl
    refine (congrFun (congrArg (bcPure bcs (fun _ _ => true) (globExt nx (nghostOf 1 ng)) (nghostOf 1 ng) V) h1) _).trans ?_
    rw [bcPure_faceId, if_pos rfl, condPure_eq, hax, if_pos ⟨hin, hlay⟩]
  cases hb : bcs 0 1 with
  | nullGradient =>
    unfold bcGlob
    rw [List.foldl_cons, List.foldl_cons, List.foldl_nil, hexp, hb]
    simp only [condAct, condSrc]
    rw [hnear, hinner]
    exact hG
  | reflexive =>
    unfold bcGlob
    rw [List.foldl_cons, List.foldl_cons, List.foldl_nil, hexp, hb]
    simp only [condAct, condSrc]
    rw [hmir, hinner]
    exact congrArg (Fields.flip 0) hG
  | periodic => rfl
  | userDefined => rfl

/-- **C72, violated.** One dimension, a closed outer boundary, a criterion. Once the program has opened the boundary and switched the
criterion off, its files do not say so: a restart has the criterion in force and the outer boundary closed again. The cells of the domain are the
same, but next to the outer boundary the momentum of the first ghost is that of the last cell in the uninterrupted run, its opposite after the restart. -/
theorem C72_restart_forgets (hpos : ∀ a, 0 < nx a) (hng : 2 ≤ ng) (hp : ParamsOk p [0, 1]) (he : p.hydro.eos.Lawful)
    (hA : MovOk p nx ng Gr Cr A) (hi : InitOf nx ng A.toMachine S Fx U up) {N : ℕ} {z : MovState 1 n} (hb : p.hydro.bcs 0 1 = .reflexive)
    (hz : movRun p rmax nx (nghostOf 1 ng) (borderOf A.dims) A clock
      (movStart p true (progFresh p nx (nghostOf 1 ng) (borderOf A.dims) A.toMachine X U up)) N = some z)
    (hst : z.status ≠ .failed) (hact : z.active = false)
    (hrho : ∀ r, inBox 0 A.dims r → ∀ c, layer 1 (localExt nx A.dims (nghostOf 1 ng) r) ng c → 0 < (z.s.h.val r c).rho)
    {f : LoopState (FluidFile 1 n) ℝ} (hf : f ∈ z.files) (hiter : f.iter = z.s.iter) :
    ∃ zB, movStart p true (progRestart p nx (nghostOf 1 ng) (borderOf A.dims) A.toMachine f) = some zB ∧
      zB.active = true ∧ zB.bcs 0 1 = .reflexive ∧ z.bcs 0 1 = .nullGradient ∧ zB.x = z.x ∧
      ∀ r, inBox 0 A.dims r → ∀ c, layer 1 (localExt nx A.dims (nghostOf 1 ng) r) ng c →
        zB.s.h.val r c = z.s.h.val r c ∧
        (globalOf nx A.dims (nghostOf 1 ng) r c 0 = nx 0 - 1 →
          (z.s.h.val r (nextCell c)).rhou 0 = (z.s.h.val r c).rhou 0 ∧ (zB.s.h.val r (nextCell c)).rhou 0 = - (z.s.h.val r c).rhou 0) := by
  have hN : ∀ a, 0 ≤ nx a := fun a => (hpos a).le
  have hn0 : nghostOf 1 ng 0 = ng := by simp [nghostOf]
  obtain ⟨z0, e0, h0⟩ := movFresh_follows (X := X) (by norm_num) hN hng hp hA hi true
  obtain ⟨z1, e1, h1⟩ := movRun_follows (rmax := rmax) one_pos (by norm_num) hN hng hp hA clock e0 h0 N
  obtain rfl : z1 = z := Option.some.inj (e1.symm.trans hz)
  set g0 : RunState (GlobMov 1 n) ℝ := freshRun p.loop p.tIni
    ⟨bcGlob p.hydro.bcs nx (nghostOf 1 ng) [0, 1] fun g => consFields p.hydro.eos (S g) (Fx g), X, p.hydro.bcs, true⟩ with hg0
  have hrec := outs_recent (q := p.loop) (hy := movHydro p rmax nx ng Gr Cr [0, 1]) (clock := clock) (r := g0) (freshRun_outs _ _ _) N
    (by rw [← h1.status]; exact hst)
  obtain ⟨hf1, hf2⟩ := h1.file hrec hf hiter
  obtain ⟨⟨G, hG⟩, hint⟩ := movRun_inv (p := p) (rmax := rmax) (nx := nx) (ng := ng) (Gr := Gr) (Cr := Cr) (order := [0, 1]) (q := p.loop) (clock := clock)
    (I := fun h => (∃ G, h.W = bcGlob h.bcs nx (nghostOf 1 ng) [0, 1] G) ∧ (h.active = false → h.bcs 0 1 = .nullGradient))
    (fun h t dt hh => ⟨shiftGlob_bc (h := { h with W := (globHydro (p.withBcs h.bcs) nx ng h.X (Gr h.X) [0, 1]).advance h.W t dt })
      ⟨_, globHydro_advance (p := p.withBcs h.bcs) h.W t dt⟩, by
        show (shiftGlob _ _ _ _ _ _).active = false → (shiftGlob _ _ _ _ _ _).bcs 0 1 = _
        unfold shiftGlob
        split
        · split
          · exact fun _ => rfl
          · exact hh.2
        · exact hh.2⟩) (r := g0)
    (by rw [hg0, freshRun_h]; exact ⟨⟨fun g => consFields p.hydro.eos (S g) (Fx g), rfl⟩, fun h => by cases h⟩) N
  have hact' := hint (h1.rep.active.symm.trans hact)
  set h := (runN p.loop (movHydro p rmax nx ng Gr Cr [0, 1]) clock g0 N).s.h with hh
  have hrho' : ∀ g, inBox 0 nx g → 0 < (h.W (g + nghostOf 1 ng)).rho := by
    intro g hg
    choose r r1 r2 r3 r4 using fun a => exists_owner (hN a) (hA.base.pos a) (hg a).1 (hg a).2
    have hr : inBox 0 A.dims r := fun a => ⟨r1 a, r2 a⟩
    have hl : layer 1 (localExt nx A.dims (nghostOf 1 ng) r) ng (g + nghostOf 1 ng - startCell nx A.dims r) := by
      intro a
      have h3 : localStart (nx a) (A.dims a) (r a) ≤ g a := r3 a
      have h4 : g a < localStart (nx a) (A.dims a) (r a) + localSize (nx a) (A.dims a) (r a) := r4 a
      simp only [Pi.sub_apply, Pi.add_apply, startCell, localExt]
      omega
    have := hrho r hr _ hl
    rwa [h1.rep.h.val r hr _ (layer_inExt hl (by omega)), sub_add_cancel] at this
  have hbi : ∀ g, inBox 0 nx g → h.W (g + nghostOf 1 ng) = bcGlob p.hydro.bcs nx (nghostOf 1 ng) [0, 1] (fun g => h.W (g + nghostOf 1 ng)) (g + nghostOf 1 ng) :=
    fun g hg => (bcGlob_interior (ng := ng) p.hydro.bcs (by norm_num) (by omega) hp.ids (fun g => h.W (g + nghostOf 1 ng)) hg).symm
  obtain ⟨zB, eB, hB⟩ := movRestart_follows (f := f) (by norm_num) hpos hng hp he hA rfl (fun g hg => by rw [← hbi g hg]; exact hrho' g hg) (hf1.congr hbi) true
  have hBr := hB.rep
  refine ⟨zB, eB, hBr.active, by rw [hBr.bcs]; exact hb, by rw [h1.rep.bcs]; exact hact', hBr.x.trans h1.rep.x.symm, fun r hr c hc => ?_⟩
  have i1 : inBox 0 nx (globalOf nx A.dims (nghostOf 1 ng) r c) := interior_global (Y := hA.base.layout) hN hr ((interior_layer hA.base).2 hc)
  have i2 := layer_inExt hc (show (0 : ℤ) ≤ ng by omega)
  have i3 : inExt (localExt nx A.dims (nghostOf 1 ng) r) (nextCell c) = true := by
    refine inExt_iff.2 fun a => ?_
    have hin := inExt_iff.1 i2
    have h0 : nghostOf 1 ng 0 ≤ c 0 ∧ c 0 < localExt nx A.dims (nghostOf 1 ng) r 0 - nghostOf 1 ng 0 := hc 0
    have := hin 0
    fin_cases a
    · exact ⟨show 0 ≤ c 0 + 1 by omega, show c 0 + 1 < localExt nx A.dims (nghostOf 1 ng) r 0 by omega⟩
    · exact hin 1
    · exact hin 2
  have hv1 : z1.s.h.val r c = h.W (globalOf nx A.dims (nghostOf 1 ng) r c + nghostOf 1 ng) := by rw [h1.rep.h.val r hr c i2, global_add]
  have hv2 : z1.s.h.val r (nextCell c) = h.W (nextCell (globalOf nx A.dims (nghostOf 1 ng) r c + nghostOf 1 ng)) := by
    rw [h1.rep.h.val r hr _ i3, nextCell_add, global_add]
  have hw1 : zB.s.h.val r c = bcGlob p.hydro.bcs nx (nghostOf 1 ng) [0, 1] (fun g => h.W (g + nghostOf 1 ng)) (globalOf nx A.dims (nghostOf 1 ng) r c + nghostOf 1 ng) := by
    rw [hBr.h.val r hr c i2, global_add]
    rfl
  have hw2 : zB.s.h.val r (nextCell c) = bcGlob p.hydro.bcs nx (nghostOf 1 ng) [0, 1] (fun g => h.W (g + nghostOf 1 ng))
      (nextCell (globalOf nx A.dims (nghostOf 1 ng) r c + nghostOf 1 ng)) := by
    rw [hBr.h.val r hr _ i3, nextCell_add, global_add]
    rfl
  refine ⟨by rw [hw1, hv1, ← hbi _ i1], fun hlast => ⟨?_, ?_⟩⟩
  · rw [hv1, hv2, hG, bcGlob_outer _ (by omega) G i1 hlast, hact', bcGlob_interior (ng := ng) h.bcs (by norm_num) (by omega) hp.ids G i1]
  · rw [hw2, hv1, bcGlob_outer _ (by omega) _ i1 hlast, hb]
    simp [Fields.flip]

end Forgets

/-! ### Process grids that meet the hypotheses -/

section Examples

/-- The answer of a criterion that throws or not. -/
def answer (e : Except String (Option Bool)) : Option Bool := match e with
  | .ok b => b
  | .error _ => none

/-- The process grid of `mkMachine` with a uniform gravity, a criterion and shifts row by row. -/
noncomputable def mkMov (d n : ℕ) (nx : Cell) (ng : ℤ) (hN : ∀ a, 0 ≤ nx a) (dims : Cell) (hd : ∀ a, 0 < dims a) (force : ℝ)
    (crit : (Cell → GridData ℝ) → DistView (Fields d n ℝ) → Option Bool) : MovMachine d n :=
  { mkMachine d n nx ng hN dims hd 0 with
    gravOf := fun _ _ _ _ _ => some force
    crit := crit
    shiftL := fun r => boxList 0 ![localExt nx dims (nghostOf d ng) r 0 - 1, localExt nx dims (nghostOf d ng) r 1, localExt nx dims (nghostOf d ng) r 2] }

theorem mkMov_ok {p : ProgParams d n} {nx : Cell} {ng : ℤ} (hN : ∀ a, 0 ≤ nx a) {dims : Cell} (hd : ∀ a, 0 < dims a) (force : ℝ) (hng : 0 ≤ ng)
    (hs : ∀ a : Fin 3, a.val < d → ∀ r, 0 ≤ r → r < dims a → ng ≤ localSize (nx a) (dims a) r)
    {crit : (Cell → GridData ℝ) → DistView (Fields d n ℝ) → Option Bool} {Cr : (Fin 3 → ℤ → ℝ) → (Cell → Fields d n ℝ) → Bool}
    (hc : ∀ X grid W D, HoldsAll nx dims (nghostOf d ng) W D → crit grid D = some (Cr X W)) :
    MovOk p nx ng (fun _ _ _ _ => force) Cr (mkMov d n nx ng hN dims hd force crit) where
  base := mkMachine_ok (d := d) (n := n) hN hd 0 hng hs
  force := fun _ _ _ _ _ _ _ _ _ _ _ => rfl
  crit := fun X grid _ W D hD => hc X grid W D hD
  shiftL := fun r _ => boxList_isSchedule _ _

/-- The criterion of the tabulated setup (C71) on the process grid of `mkMachine`, for `cell_shift = cs`. -/
noncomputable def v1dCriterion (n : ℕ) (nx : Cell) (ng cs : ℤ) (hN : ∀ a, 0 ≤ nx a) (dims : Cell) (hd : ∀ a, 0 < dims a) (vmax : ℝ)
    (D : DistView (Fields 2 n ℝ)) : Option Bool :=
  answer (tabShift (d := 1) vmax cs (-1) dims (mkLayout 2 nx ng hN dims hd).topo
    (fun r => [boxList (shiftWindow cs ((mkLayout 2 nx ng hN dims hd).topo r)).1 (shiftWindow cs ((mkLayout 2 nx ng hN dims hd).topo r)).2]) D)

open Classical in
theorem v1dCriterion_eq {nx : Cell} {ng cs : ℤ} (hN : ∀ a, 0 ≤ nx a) {dims : Cell} (hd : ∀ a, 0 < dims a) {vmax : ℝ} (hv : 0 < vmax) (hng : 0 ≤ ng)
    (hcs : cs ≤ nx 0 / dims 0) {W : Cell → Fields 2 n ℝ} {D : DistView (Fields 2 n ℝ)} (hD : HoldsAll nx dims (nghostOf 2 ng) W D) :
    v1dCriterion n nx ng cs hN dims hd vmax D =
      some (decide (SpeedReached (d := 1) nx (nghostOf 2 ng) (nghostOf 2 ng 0 + nx 0 - (cs + nghostOf 2 ng 0)) vmax W)) := by
  obtain ⟨b, e1, e2⟩ := C71_reached_partial (d := 1) (n := n) (cs := cs) (topo := (mkLayout 2 nx ng hN dims hd).topo)
    (parts := fun r => [boxList (shiftWindow cs ((mkLayout 2 nx ng hN dims hd).topo r)).1 (shiftWindow cs ((mkLayout 2 nx ng hN dims hd).topo r)).2])
    ⟨hd, (mkLayout 2 nx ng hN dims hd).ok, fun r _ => by
      have := boxList_isSchedule (shiftWindow cs ((mkLayout 2 nx ng hN dims hd).topo r)).1 (shiftWindow cs ((mkLayout 2 nx ng hN dims hd).topo r)).2
      constructor
      · simpa using this.1
      · intro c
        simpa using this.2 c, hD⟩ hN hng hcs (lo := -1) hv (by norm_num)
  unfold v1dCriterion answer
  rw [e1]
  dsimp only
  congr 1
  rw [Bool.eq_iff_iff, e2, decide_eq_true_iff]

open Classical in
/-- The tabulated setup with its criterion, a window of two cells, a domain of 8 x 6 cells on 2 x 3 and on 4 x 1 ranks, uniform gravity, pressure
fix, heating: both runs write the same files. -/
example (p : ProgParams 2 1) (hb : p.hydro.bcs = ![![.reflexive, .reflexive], ![.periodic, .periodic]])
    (hpo : p.hydro.order = [some 2, some 0, some 3, some 1]) (ht : p.top = 10 ^ 308)
    (S : Cell → Prim 2 ℝ) (Fx : Cell → Fin 1 → ℝ) (X : Fin 3 → ℤ → ℝ) (rmax : ℝ) (clock : ℕ → Bool) (k : ℕ) :
    ∃ (A B : MovMachine 2 1) (IA IB : (Cell → View Cell (Fields 2 1 ℝ)) × (Cell → View Cell (VelPres 2 ℝ))) (z z' : MovState 2 1),
      A.dims = ![2, 3, 1] ∧ B.dims = ![4, 1, 1] ∧
      A.crit = (fun _ => v1dCriterion 1 ![8, 6, 1] 2 2 (by decide) ![2, 3, 1] (by decide) 3) ∧
      B.crit = (fun _ => v1dCriterion 1 ![8, 6, 1] 2 2 (by decide) ![4, 1, 1] (by decide) 3) ∧
      movRun p rmax ![8, 6, 1] (nghostOf 2 2) (borderOf A.dims) A clock
        (movStart p true (progFresh p ![8, 6, 1] (nghostOf 2 2) (borderOf A.dims) A.toMachine X IA.1 IA.2)) k = some z ∧
      movRun p rmax ![8, 6, 1] (nghostOf 2 2) (borderOf B.dims) B clock
        (movStart p true (progFresh p ![8, 6, 1] (nghostOf 2 2) (borderOf B.dims) B.toMachine X IB.1 IB.2)) k = some z' ∧
      z.x = z'.x ∧ List.Forall₂ SameFile z.files z'.files := by
  have hN : ∀ a, 0 ≤ (![8, 6, 1] : Cell) a := by decide
  have hp : ParamsOk p [2, 0, 3, 1] := ⟨by rw [hb]; decide, by decide, hpo, fun _ => one_pos, by rw [ht]; norm_num⟩
  have hA := mkMov_ok (p := p) (n := 1) hN (dims := ![2, 3, 1]) (by decide) (-1) (by norm_num : (0 : ℤ) ≤ 2) (demo_size _ (.inl rfl))
    (crit := fun _ => v1dCriterion 1 ![8, 6, 1] 2 2 (by decide) ![2, 3, 1] (by decide) 3)
    (Cr := fun _ W => decide (SpeedReached (d := 1) ![8, 6, 1] (nghostOf 2 2) (nghostOf 2 2 0 + 8 - (2 + nghostOf 2 2 0)) 3 W))
    (fun X grid W D hD => v1dCriterion_eq _ _ (by norm_num) (by norm_num) (by decide) hD)
  have hB := mkMov_ok (p := p) (n := 1) hN (dims := ![4, 1, 1]) (by decide) (-1) (by norm_num : (0 : ℤ) ≤ 2) (demo_size _ (.inr rfl))
    (crit := fun _ => v1dCriterion 1 ![8, 6, 1] 2 2 (by decide) ![4, 1, 1] (by decide) 3)
    (Cr := fun _ W => decide (SpeedReached (d := 1) ![8, 6, 1] (nghostOf 2 2) (nghostOf 2 2 0 + 8 - (2 + nghostOf 2 2 0)) 3 W))
    (fun X grid W D hD => v1dCriterion_eq _ _ (by norm_num) (by norm_num) (by decide) hD)
  obtain ⟨z, z', e, e', -, h1, -, -, h2, -⟩ := C72_decomposition (X := X) (S := S) (Fx := Fx) (rmax := rmax) (by norm_num) (by norm_num) hN (by norm_num) hp
    hA hB (initArrays_ok S Fx) (initArrays_ok S Fx) true clock k
  exact ⟨_, _, _, _, z, z', rfl, rfl, rfl, rfl, e, e', h1, h2⟩

/-- The largest rate exists. -/
theorem isRate_exists (lo : ℝ) (eos : EoS ℝ) (tr : Trig ℝ) (geom : Geom) (nx nghost : Cell) (X : Fin 3 → ℤ → ℝ) (W : Cell → Fields d n ℝ) :
    ∃ m, IsRate lo eos tr geom nx nghost X W m := by
  classical
  have hmem : ∀ C, C ∈ (boxList 0 (globExt nx nghost)).toFinset ↔ inExt (globExt nx nghost) C = true := fun C => by
    rw [List.mem_toFinset, (boxList_isSchedule 0 (globExt nx nghost)).2, inExt_iff]
    rfl
  by_cases hne : (boxList 0 (globExt nx nghost)).toFinset.Nonempty
  · obtain ⟨C, h1, h2⟩ := Finset.exists_max_image _ ((globRank eos nx nghost X W).rate eos tr geom) hne
    refine ⟨max lo ((globRank eos nx nghost X W).rate eos tr geom C), le_max_left _ _, fun C' h' => (h2 C' ((hmem C').2 h')).trans (le_max_right _ _), ?_⟩
    rcases max_choice lo ((globRank eos nx nghost X W).rate eos tr geom C) with h | h
    · exact Or.inl h
    · exact Or.inr ⟨C, (hmem C).1 h1, h⟩
  · refine ⟨lo, le_rfl, fun C hC => absurd ⟨C, (hmem C).2 hC⟩ hne, Or.inl rfl⟩

/-- The advance of a uniform fluid at rest in a uniform gravity field, in the cells of the domain. -/
theorem advance_fall {p : ProgParams d n} {nx : Cell} {ng : ℤ} {X : Fin 3 → ℤ → ℝ} {order : List ℕ} (hd3 : d ≤ 3) (hng : 2 ≤ ng)
    (hp : ParamsOk p order) (he : p.hydro.eos.Lawful) (hge : p.hydro.geom = .cartesian) (hf : p.fix = none) (hs : p.step = .off) {force rho P : ℝ}
    (hr : 0 < rho) {fx : Fin n → ℝ} (hfx : ∀ i, 0 ≤ fx i ∧ fx i ≤ 1) (t dt : ℝ) {g : Cell} (hg : inBox 0 nx g) :
    (globHydro p nx ng X (fun _ _ _ => force) order).advance (fun _ => uniformFields p.hydro.eos rho ⟨fun _ => 0, P⟩ fx) t dt (g + nghostOf d ng) =
      (uniformFields p.hydro.eos rho ⟨fun _ => 0, P⟩ fx).pushed dt fun _ => force := by
  have hl : layer d (globExt nx (nghostOf d ng)) ng (g + nghostOf d ng) := layer_glob.2 (by rw [add_sub_cancel_right]; exact hg)
  have hup : ∀ C, primGlob p.hydro.eos (fun _ => (uniformFields p.hydro.eos rho ⟨fun _ => 0, P⟩ fx : Fields d n ℝ)) C = ⟨fun _ => 0, P⟩ := fun C => by
    rw [primGlob_toPrim, show (uniformFields p.hydro.eos rho ⟨fun _ => 0, P⟩ fx : Fields d n ℝ).cons =
      toCons p.hydro.eos (⟨rho, fun _ => 0, P⟩ : Prim d ℝ) from rfl, toPrim_toCons he hr]
  rw [globHydro_advance, bcGlob_interior (ng := ng) p.hydro.bcs hd3 (by omega) hp.ids _ hg]
  obtain ⟨out, e, h⟩ := fall_step p.hydro.lim p.hydro.sol p.hydro.eos p.hydro.tr dt (fun _ => uniformFields p.hydro.eos rho ⟨fun _ => 0, P⟩ fx)
    (primGlob p.hydro.eos fun _ => uniformFields p.hydro.eos rho ⟨fun _ => 0, P⟩ fx) (fun _ _ _ => ⟨fun _ => 0, 0⟩)
    (fun _ _ _ => uniformFields p.hydro.eos rho ⟨fun _ => 0, P⟩ fx) (fun _ => uniformFields p.hydro.eos rho ⟨fun _ => 0, P⟩ fx)
    (globStepOk hd3 hng (globGrid p.hydro.tr .cartesian X fun _ _ => force) (globExt nx (nghostOf d ng)))
    (globGeoOf _ _ _ _ _) (force := fun _ => force) (fun _ _ => rfl) hr.ne' hfx (fun _ _ => rfl) (fun c _ => hup c)
  have hst := (glob_out hd3 hng _ _ e hl).symm.trans (h _ hl)
  unfold progVal heatVal
  rw [hf, hs, hge]
  exact hst

/-- Parameters of a perfect gas in one dimension between two walls, with a file after every iteration. -/
noncomputable def wallParams : ProgParams 1 0 where
  hydro := { lim := .minmod, sol := .hllc, eos := PerfectGas.toEoS ⟨2, 2 - 1, 1⟩, tr := ⟨Real.sin, Real.cos, Real.pi⟩, geom := .cartesian, lo := 0,
             policy := fun _ => 0, user := fun _ _ _ => none, bcs := fun _ _ => .reflexive, order := [some 0, some 1] }
  loop := { cfl := 1 / 2, tEnd := 1, timeFreq := 0, timeFirst := 0, iterFreq := 1, maxIter := 10 }
  tIni := 0
  temp := fun _ _ => 0
  top := 1
  fix := none
  step := .off

theorem wall_pos : ∀ a, 0 < (![8, 1, 1] : Cell) a := by decide

theorem wall_nonneg : ∀ a, 0 ≤ (![8, 1, 1] : Cell) a := by decide

/-- Eight cells on two ranks, a uniform gravity, a criterion that always says yes. -/
noncomputable def wallMov (force : ℝ) : MovMachine 1 0 := mkMov 1 0 ![8, 1, 1] 2 wall_nonneg ![2, 1, 1] (by decide) force fun _ _ => some true

/-- A gas at rest. -/
noncomputable def wallGas : Fields 1 0 ℝ := uniformFields wallParams.hydro.eos 3 ⟨fun _ => 0, 2⟩ finZeroElim

noncomputable def wallInit (force : ℝ) : (Cell → View Cell (Fields 1 0 ℝ)) × (Cell → View Cell (VelPres 1 ℝ)) :=
  initArrays ![8, 1, 1] 2 (wallMov force).dims (fun _ => ⟨3, fun _ => 0, 2⟩) fun _ => finZeroElim

def wallNodes : Fin 3 → ℤ → ℝ := fun _ i => i

noncomputable def wallStart (force rmax : ℝ) (k : ℕ) : Option (MovState 1 0) :=
  movRun wallParams rmax ![8, 1, 1] (nghostOf 1 2) (borderOf (wallMov force).dims) (wallMov force) (fun _ => false)
    (movStart wallParams true
      (progFresh wallParams ![8, 1, 1] (nghostOf 1 2) (borderOf (wallMov force).dims) (wallMov force).toMachine wallNodes (wallInit force).1 (wallInit force).2)) k

theorem wall_params : ParamsOk wallParams [0, 1] ∧ wallParams.hydro.eos.Lawful :=
  ⟨⟨fun _ _ h => BcKind.noConfusion h, by decide, rfl, fun h => UserStepKind.noConfusion h, zero_le_one⟩, PerfectGas.lawful sampleGas_physical⟩

theorem wall_ok (force : ℝ) : MovOk wallParams ![8, 1, 1] 2 (fun _ _ _ _ => force) (fun _ _ => true) (wallMov force) := by
  have hsz : ∀ a : Fin 3, a.val < 1 → ∀ r, 0 ≤ r → r < (![2, 1, 1] : Cell) a → 2 ≤ localSize ((![8, 1, 1] : Cell) a) ((![2, 1, 1] : Cell) a) r := by
    intro a ha r h0 h1
    obtain rfl : a = 0 := Fin.ext (by simpa using ha)
    rw [localSize_eq (by simp) (by simp)]
    simp [not_lt.2 h0]
  exact mkMov_ok (p := wallParams) (d := 1) (n := 0) wall_nonneg (dims := ![2, 1, 1]) (by decide) force (by norm_num : (0 : ℤ) ≤ 2) hsz
    (crit := fun _ _ => some true) (Cr := fun _ _ => true) (fun _ _ _ _ _ => rfl)

theorem wall_init (force : ℝ) : InitOf ![8, 1, 1] 2 (wallMov force).toMachine (fun _ => (⟨3, fun _ => 0, 2⟩ : Prim 1 ℝ)) (fun _ => finZeroElim)
    (wallInit force).1 (wallInit force).2 :=
  initArrays_ok (nx := ![8, 1, 1]) (ng := 2) (A := (wallMov force).toMachine) (fun _ => (⟨3, fun _ => 0, 2⟩ : Prim 1 ℝ)) (fun _ => finZeroElim)

theorem wall_rest : wallGas.rhou = (fun _ => 0) ∧ (∀ C, primGlob wallParams.hydro.eos (fun _ => wallGas) C = ⟨fun _ => 0, 2⟩) ∧ 0 ≤ internal wallGas ∧
    ∀ t dt, (globHydro wallParams ![8, 1, 1] 2 wallNodes (fun _ _ _ => 0) [0, 1]).advance (fun _ => wallGas) t dt = fun _ => wallGas := by
  have hev : 0 ≤ wallParams.hydro.eos.evolFromPres 3 2 := by
    show 0 ≤ (PerfectGas.toEoS ⟨2, 2 - 1, 1⟩).evolFromPres 3 2
    rw [perfectGas_evol sampleGas_physical _ (by norm_num)]
    norm_num
  exact advance_rest (p := wallParams) (nx := ![8, 1, 1]) (ng := 2) (X := wallNodes) (Gr := fun _ _ _ => 0) (order := [0, 1]) (by norm_num) wall_pos
    le_rfl wall_params.2 (fun _ _ _ => rfl) (by intro h; cases h) (by norm_num : (0 : ℝ) < 3) (by norm_num : (0 : ℝ) < 2) hev (fx := finZeroElim) (fun i => i.elim0) rfl

/-- The first state of the run on the whole domain. -/
noncomputable def wallLoop : LoopState (GlobMov 1 0) ℝ := ⟨⟨fun _ => wallGas, wallNodes, wallParams.hydro.bcs, true⟩, wallParams.tIni, 0, 0, 0, -1⟩

noncomputable def wallHydro (force rmax : ℝ) : Hydro (GlobMov 1 0) ℝ :=
  movHydro wallParams rmax ![8, 1, 1] 2 (fun _ _ _ _ => force) (fun _ _ => true) [0, 1]

/-- The first turn. -/
theorem wall_turn (force rmax : ℝ) : ∃ D z, 0 < D.dt ∧ wallStart force rmax 1 = some z ∧
    MovFollows wallParams ![8, 1, 1] 2 (wallMov force) z
      ⟨nextState (wallHydro force rmax) wallLoop D, [wallLoop, nextState (wallHydro force rmax) wallLoop D], .running⟩ := by
  obtain ⟨hp, hl⟩ := wall_params
  have hA := wall_ok force
  have hi := wall_init force
  obtain ⟨hs0, hup, hint, -⟩ := wall_rest
  obtain ⟨z0, e0, f0⟩ := movFresh_follows (X := wallNodes) (by norm_num) wall_nonneg le_rfl hp hA hi true
  obtain ⟨z, e1, f1⟩ := movRun_follows (rmax := rmax) (by norm_num) (by norm_num) wall_nonneg le_rfl hp hA (fun _ => false) e0 f0 1
  have hini : bcGlob wallParams.hydro.bcs ![8, 1, 1] (nghostOf 1 2) [0, 1] (fun _ => consFields wallParams.hydro.eos (⟨3, fun _ => 0, 2⟩ : Prim 1 ℝ) finZeroElim) =
    fun _ => wallGas := bcGlob_rest (s := wallGas) _ _ hs0
  rw [freshRun_on (by show (0 : ℤ) < 1; norm_num), hini] at f1
  -- the time step
  obtain ⟨m, hm⟩ := isRate_exists wallParams.hydro.lo wallParams.hydro.eos wallParams.hydro.tr wallParams.hydro.geom ![8, 1, 1] (nghostOf 1 2) wallNodes
    (fun _ => wallGas)
  have hm1 : 1 < m := by
    refine lt_of_lt_of_le ?_ (hm.le 0 (by decide))
    unfold RankData.rate globRank
    rw [Fin.sum_univ_one]
    dsimp only
    rw [hup]
    have hc : 1 < wallParams.hydro.eos.sound 3 2 := by
      obtain ⟨h1, h2⟩ := C17_sound_speed sampleGas_physical (by norm_num : (0 : ℝ) < 3) (by norm_num : (0 : ℝ) < 2)
      show 1 < PerfectGas.soundSpeed ⟨2, 2 - 1, 1⟩ 3 2
      by_contra h
      have h3 := mul_le_mul (not_lt.1 h) (not_lt.1 h) h2.le zero_le_one
      rw [← pow_two, h1] at h3
      norm_num at h3
    have hlen : cellLength (wallParams.hydro.geom = .spherical) wallParams.hydro.tr.sin (fun i => wallNodes i ((0 : Cell) i + 1) - wallNodes i ((0 : Cell) i))
        ((wallNodes 0 ((0 : Cell) 0) + wallNodes 0 ((0 : Cell) 0 + 1)) / 2) ((wallNodes 1 ((0 : Cell) 1) + wallNodes 1 ((0 : Cell) 1 + 1)) / 2) (ax (0 : Fin 1)) = 1 := by
      unfold cellLength
      rw [if_neg (fun h => Geom.noConfusion h)]
      simp [wallNodes]
    rw [hlen, div_one, abs_zero, zero_add]
    exact hc
  have hmpos : 0 < m := zero_lt_one.trans hm1
  have hδ : (wallHydro force rmax).timeStep wallLoop.h = 1 / m :=
    globHydro_timeStep (p := wallParams.withBcs wallParams.hydro.bcs) (Gr := fun _ _ _ => force) (order := [0, 1]) hm
  have hbad : (wallHydro force rmax).bad wallLoop.h = false := by
    rw [Bool.eq_false_iff, Ne]
    intro h
    obtain ⟨g, -, hg⟩ := (globHydro_bad (p := wallParams.withBcs wallParams.hydro.bcs) (X := wallNodes) (Gr := fun _ _ _ => force) (order := [0, 1])).1 h
    exact absurd hg (not_lt.2 hint)
  have hdec : ∃ D, decideStep wallParams.loop (1 / m) false wallLoop = .ok D ∧ 0 < D.dt ∧ D.makeOutput = true ∧ D.exit = false := by
    have htt : ∀ dt, timeTrigger wallParams.loop wallLoop dt = false := fun dt => by simp [timeTrigger, wallParams]
    have hit : iterTrigger wallParams.loop wallLoop = true := by simp [iterTrigger, wallParams, wallLoop]
    have hend : decide (wallLoop.t + wallParams.loop.cfl * (1 / m) ≥ wallParams.loop.tEnd) = false := by
      rw [decide_eq_false_iff_not, not_le]
      show (0 : ℝ) + 1 / 2 * (1 / m) < 1
      have : 1 / m < 1 := by rw [div_lt_one hmpos]; exact hm1
      linarith
    have hmax : decide (wallLoop.iter + 1 ≥ wallParams.loop.maxIter) = false := by simp [wallLoop, wallParams]
    unfold decideStep
    simp only [htt, hit, Bool.false_eq_true, if_false, false_and, hend, hmax, Bool.or_false, Bool.true_or]
    refine ⟨_, rfl, ?_, rfl, rfl⟩
    show 0 < 1 / 2 * (1 / m)
    positivity
  obtain ⟨D, hD1, hD2, hD3, hD4⟩ := hdec
  have hturn : runN wallParams.loop (wallHydro force rmax) (fun _ => false) ⟨wallLoop, [wallLoop], .running⟩ 1 =
      ⟨nextState (wallHydro force rmax) wallLoop D, [wallLoop, nextState (wallHydro force rmax) wallLoop D], .running⟩ := by
    rw [runN, runN]
    rcases runStep_running (p := wallParams.loop) (hy := wallHydro force rmax) (clock := false) (r := ⟨wallLoop, [wallLoop], .running⟩) rfl with
      ⟨D', h1, -, h3⟩ | ⟨-, -, h | ⟨msg, h⟩⟩
    · have : D' = D := by
        rw [hδ, hD1] at h1
        exact (Except.ok.inj h1).symm
      subst this
      rw [h3, hD3, hD4]
      rfl
    · exact absurd (h.symm.trans hbad) Bool.false_ne_true.symm
    · rw [hδ, hD1] at h
      cases h
  refine ⟨D, z, hD2, e1, ?_⟩
  rw [← hturn]
  exact f1

/-- **C72, violated**, the witness. A gas at rest between two walls, pulled towards the outer one, on two ranks; the grid has reached `rmax`, and the
criterion always says yes. After one iteration the run has opened the outer boundary and there is a file; the run restarted from it has
the wall again, and with it another momentum in the ghost next to the last cell. -/
theorem C72_restart_violated : ∃ (A : MovMachine 1 0) (IA : (Cell → View Cell (Fields 1 0 ℝ)) × (Cell → View Cell (VelPres 1 ℝ))) (X : Fin 3 → ℤ → ℝ)
    (rmax : ℝ) (z zB : MovState 1 0) (f : LoopState (FluidFile 1 0) ℝ) (r c : Cell), A.dims = ![2, 1, 1] ∧
    movRun wallParams rmax ![8, 1, 1] (nghostOf 1 2) (borderOf A.dims) A (fun _ => false)
      (movStart wallParams true (progFresh wallParams ![8, 1, 1] (nghostOf 1 2) (borderOf A.dims) A.toMachine X IA.1 IA.2)) 1 = some z ∧
    z.status ≠ .failed ∧ f ∈ z.files ∧ f.iter = z.s.iter ∧
    movStart wallParams true (progRestart wallParams ![8, 1, 1] (nghostOf 1 2) (borderOf A.dims) A.toMachine f) = some zB ∧
    z.active = false ∧ zB.active = true ∧ z.bcs 0 1 = .nullGradient ∧ zB.bcs 0 1 = .reflexive ∧ inBox 0 A.dims r ∧
    inExt (localExt ![8, 1, 1] A.dims (nghostOf 1 2) r) c = true ∧ (zB.s.h.val r c).rhou 0 ≠ (z.s.h.val r c).rhou 0 := by
  obtain ⟨hp, hl⟩ := wall_params
  have hA := wall_ok 1
  have hi := wall_init 1
  obtain ⟨hs0, -⟩ := wall_rest
  obtain ⟨D, z, hD2, e1, f1⟩ := wall_turn 1 0
  have hsh : (nextState (wallHydro 1 0) wallLoop D).h = ⟨bcGlob (openOuter wallParams.hydro.bcs) ![8, 1, 1] (nghostOf 1 2) [0, 1] fun g =>
      (globHydro wallParams ![8, 1, 1] 2 wallNodes (fun _ _ _ => 1) [0, 1]).advance (fun _ => wallGas) wallParams.tIni D.dt (g + nghostOf 1 2), wallNodes, openOuter wallParams.hydro.bcs, false⟩ := by
    show shiftGlob 0 ![8, 1, 1] 2 (fun _ _ => true) [0, 1]
      ⟨(globHydro wallParams ![8, 1, 1] 2 wallNodes (fun _ _ _ => 1) [0, 1]).advance (fun _ => wallGas) wallParams.tIni D.dt, wallNodes, wallParams.hydro.bcs, true⟩ = _
    unfold shiftGlob
    rw [if_pos ⟨rfl, rfl⟩, if_pos (by show (0 : ℝ) ≤ ((_ : ℤ) : ℝ); norm_num [nghostOf])]
  have hact : z.active = false := by rw [f1.rep.active]; show (nextState (wallHydro 1 0) wallLoop D).h.active = false; rw [hsh]
  have hst : z.status ≠ .failed := by rw [f1.status]; exact Status.noConfusion
  -- the state of the last cell
  have hval : ∀ r, inBox 0 (wallMov 1).dims r → ∀ c, layer 1 (localExt ![8, 1, 1] (wallMov 1).dims (nghostOf 1 2) r) 2 c → z.s.h.val r c = wallGas.pushed D.dt fun _ => 1 := by
    intro r hr c hc
    have i1 : inBox 0 ![8, 1, 1] (globalOf ![8, 1, 1] (wallMov 1).dims (nghostOf 1 2) r c) := interior_global (Y := hA.base.layout) wall_nonneg hr ((interior_layer hA.base).2 hc)
    rw [f1.rep.h.val r hr c (layer_inExt hc (by norm_num)), ← global_add ![8, 1, 1] (wallMov 1).dims (nghostOf 1 2)]
    show (nextState (wallHydro 1 0) wallLoop D).h.W _ = _
    rw [hsh]
    dsimp only
    rw [bcGlob_interior (ng := 2) _ (by norm_num) (by norm_num) hp.ids _ i1]
    exact advance_fall (by norm_num) le_rfl hp hl rfl rfl rfl (by norm_num) (fun i => i.elim0) _ _ i1
  obtain ⟨f, hf, hff⟩ : ∃ f ∈ z.files, f.iter = z.s.iter := by
    obtain ⟨f, h1, h2⟩ := forall₂_mem f1.files.flip (show nextState (wallHydro 1 0) wallLoop D ∈ [wallLoop, nextState (wallHydro 1 0) wallLoop D] by simp)
    obtain ⟨-, h3, -⟩ := withFluid_eq h2.2
    obtain ⟨-, h4, -⟩ := withFluid_eq f1.s
    exact ⟨f, h1, h3.trans h4.symm⟩
  obtain ⟨zB, q1, q2, q3, q4, -, q6⟩ := C72_restart_forgets (X := wallNodes) (rmax := 0) (N := 1) (z := z) (clock := fun _ => false) (f := f) wall_pos le_rfl hp hl hA hi rfl e1 hst hact
    (fun r hr c hc => by rw [hval r hr c hc]; show (0 : ℝ) < 3; norm_num) hf hff
  have hr : inBox 0 (wallMov 1).dims (![1, 0, 0] : Cell) := by show inBox 0 (![2, 1, 1] : Cell) ![1, 0, 0]; decide
  have hE : localExt ![8, 1, 1] (wallMov 1).dims (nghostOf 1 2) ![1, 0, 0] = ![8, 1, 1] := by show localExt ![8, 1, 1] ![2, 1, 1] (nghostOf 1 2) ![1, 0, 0] = _; decide
  have hc : layer 1 (localExt ![8, 1, 1] (wallMov 1).dims (nghostOf 1 2) ![1, 0, 0]) 2 (![5, 0, 0] : Cell) := by rw [hE]; decide
  obtain ⟨-, q7⟩ := q6 _ hr _ hc
  obtain ⟨q7, q8⟩ := q7 (by show globalOf ![8, 1, 1] ![2, 1, 1] (nghostOf 1 2) ![1, 0, 0] ![5, 0, 0] 0 = 8 - 1; decide)
  refine ⟨wallMov 1, wallInit 1, wallNodes, 0, z, zB, f, ![1, 0, 0], nextCell ![5, 0, 0], rfl, e1, hst, hf, hff, q1, hact, q2, q4, q3, hr, by rw [hE]; decide, ?_⟩
  rw [q7, q8, hval _ hr _ hc]
  have : (wallGas.pushed D.dt fun _ => 1).rhou 0 = D.dt * 3 := by
    show wallGas.rhou 0 + D.dt * 1 * 3 = _
    rw [hs0]
    ring
  rw [this]
  intro h
  linarith

/-- The same gas without gravity, `rmax = 20` further out: in the first turn the grid moves by one cell, the criterion stays in force (`C72_turn`, the third case), and
`C72_restart_partial` applies to the file written after it: a restart on a single rank continues the run, with the moved nodes. -/
example (m : ℕ) : ∃ z f, wallStart 0 20 1 = some z ∧ z.active = true ∧ (∀ i, 0 ≤ i → i < 12 → z.x 0 i = (i : ℝ) + 1) ∧ f ∈ z.files ∧ f.iter = 1 ∧
    ∀ B, MovOk wallParams ![8, 1, 1] 2 (fun _ _ _ _ => 0) (fun _ _ => true) B → ∃ zA zB, wallStart 0 20 (1 + m) = some zA ∧
      movRun wallParams 20 ![8, 1, 1] (nghostOf 1 2) (borderOf B.dims) B (fun _ => false)
        (movStart wallParams true (progRestart wallParams ![8, 1, 1] (nghostOf 1 2) (borderOf B.dims) B.toMachine f)) m = some zB ∧
      SameState ![8, 1, 1] 2 (wallMov 0).dims B.dims zA.toProgState zB.toProgState ∧ zA.x = zB.x := by
  obtain ⟨hp, hl⟩ := wall_params
  obtain ⟨hs0, -, -, hadv⟩ := wall_rest
  obtain ⟨D, z, hD, e1, f1⟩ := wall_turn 0 20
  have hsh : (nextState (wallHydro 0 20) wallLoop D).h = ⟨fun _ => wallGas, shiftX ![8, 1, 1] (nghostOf 1 2) wallNodes, wallParams.hydro.bcs, true⟩ := by
    show shiftGlob 20 ![8, 1, 1] 2 (fun _ _ => true) [0, 1]
      ⟨(globHydro wallParams ![8, 1, 1] 2 wallNodes (fun _ _ _ => 0) [0, 1]).advance (fun _ => wallGas) wallParams.tIni D.dt, wallNodes, wallParams.hydro.bcs, true⟩ = _
    unfold shiftGlob
    rw [if_pos ⟨rfl, rfl⟩, if_neg (by show ¬ (20 : ℝ) ≤ ((_ : ℤ) : ℝ); norm_num [nghostOf]), hadv]
    dsimp only
    rw [bcGlob_rest _ _ hs0]
  have hact : z.active = true := by rw [f1.rep.active]; show (nextState (wallHydro 0 20) wallLoop D).h.active = true; rw [hsh]
  have hit : z.s.iter = 1 := (withFluid_eq f1.s).2.1
  match hz : z.files, f1.files with
  | [f0, f], .cons _ (.cons h .nil) =>
    have hf : f.iter = 1 := (withFluid_eq h.2).2.1
    refine ⟨z, f, e1, hact, fun i h0 h1 => ?_, by rw [hz]; simp, hf, fun B hB => ?_⟩
    · rw [f1.rep.x]
      show (nextState (wallHydro 0 20) wallLoop D).h.X 0 i = _
      rw [hsh]
      show shiftX ![8, 1, 1] (nghostOf 1 2) wallNodes 0 i = _
      unfold shiftX shiftedNodes
      rw [if_pos rfl, if_neg (by simp [nghostOf]; omega), if_pos (by simp [nghostOf]; omega)]
      show ((i + 1 : ℤ) : ℝ) = _
      push_cast
      rfl
    · have hrho : ∀ r, inBox 0 (wallMov 0).dims r → ∀ c, layer 1 (localExt ![8, 1, 1] (wallMov 0).dims (nghostOf 1 2) r) 2 c → 0 < (z.s.h.val r c).rho := by
        intro r hr c hc
        rw [f1.rep.h.val r hr c (layer_inExt hc (by norm_num))]
        show 0 < ((nextState (wallHydro 0 20) wallLoop D).h.W _).rho
        rw [hsh]
        show (0 : ℝ) < 3
        norm_num
      obtain ⟨zA, zB, q1, q2, q3, q4, -⟩ := C72_restart_partial (X := wallNodes) (rmax := 20) (N := 1) (clock := fun _ => false) (by norm_num) (by norm_num) wall_pos le_rfl hp hl
        (wall_ok 0) hB (wall_init 0) e1 f1.status hact hrho (pre := [f0]) (f := f) (f' := f) hz (hf.trans hit.symm) ⟨⟨rfl, fun _ _ => rfl⟩, fun _ => ⟨rfl, fun _ _ => rfl⟩, ⟨rfl, fun _ _ => rfl⟩, ⟨rfl, fun _ _ => rfl⟩, ⟨rfl, fun _ _ => rfl⟩, fun _ => ⟨rfl, fun _ _ => rfl⟩, rfl, rfl, rfl, rfl, rfl, rfl, rfl⟩ m
      exact ⟨zA, zB, q1, q2, q3, q4⟩

end Examples

end Heracles

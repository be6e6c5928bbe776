import Verif.Model.MovingProgram
import Verif.Lemmas.Program
import Verif.Props.Moving

/-!
# The program with a shifting grid follows a program on one global array
-/

namespace Heracles

variable {d n : ℕ}

/-- `set_grid` on a grid that has been set gives what it gives on a new one. -/
theorem setGrid_again {K : Type} [Field K] (tr : Trig K) (geom : Geom) {nx dims rank : Cell} {ng : ℤ} (hN : ∀ a, 0 ≤ nx a) (hdm : ∀ a, 0 < dims a)
    (hr : inBox 0 dims rank) {topo : GridTopo} (ht : GridTopo.mk? d nx dims rank ng = .ok topo) {l1 : Fin 3 → List ℤ}
    (h1 : ∀ a, IsLineSchedule (l1 a) (topo.nxLocalWg a)) {l l' : List Cell} (hl : IsSchedule l 0 topo.nxLocalWg)
    (hl' : IsSchedule l' 0 topo.nxLocalWg) (X Y : Fin 3 → ℤ → K) {g : GridData K}
    (hg : setGrid tr geom d topo l1 l l' (fun a => View.line (nx a + 2 * topo.nghost a + 1) (X a)) (GridData.alloc topo.nxLocalWg) = some g) :
    setGrid tr geom d topo l1 l l' (fun a => View.line (nx a + 2 * topo.nghost a + 1) (Y a)) g =
      setGrid tr geom d topo l1 l l' (fun a => View.line (nx a + 2 * topo.nghost a + 1) (Y a)) (GridData.alloc topo.nxLocalWg) := by
  have e := setGrid_eq tr geom hN hdm hr ht h1 hl hl' X (fun a => View.line (topo.nxLocalWg a + 1) 0) (fun _ => 0) (fun _ => 0) 0 0
  have ea : (GridData.alloc topo.nxLocalWg : GridData K) = ⟨fun a => View.line (topo.nxLocalWg a + 1) 0, fun a => View.line (topo.nxLocalWg a) 0,
    fun a => View.line (topo.nxLocalWg a) 0, ⟨inExt topo.nxLocalWg, 0⟩, ⟨inExt topo.nxLocalWg, 0⟩⟩ := rfl
  rw [ea] at hg ⊢
  have hg' := Option.some.inj (e.symm.trans hg)
  rw [← hg', setGrid_eq tr geom hN hdm hr ht h1 hl hl' Y (fun a => View.line (topo.nxLocalWg a + 1) 0) (fun _ => 0) (fun _ => 0) 0 0,
    setGrid_eq tr geom hN hdm hr ht h1 hl hl' Y]
  dsimp only
  congr 2
  · funext a
    refine congrArg _ (funext fun i => ?_)
    by_cases h : 0 ≤ i ∧ i < topo.nxLocalWg a
    · rw [if_pos h, if_pos h]
    · rw [if_neg h, if_neg h, if_neg h]
  · funext a
    refine congrArg _ (funext fun i => ?_)
    by_cases h : 0 ≤ i ∧ i < topo.nxLocalWg a
    · rw [if_pos h, if_pos h]
    · rw [if_neg h, if_neg h, if_neg h]
  · refine congrArg _ (funext fun c => ?_)
    by_cases h : inExt topo.nxLocalWg c = true
    · rw [if_pos h, if_pos h, if_pos h]
      refine (dsFun_old tr geom _ _ _ _ c).trans ?_
      exact dsFun_congr tr geom _ _ _ _ _ c (fun a => by rw [if_pos (inExt_iff.1 h a), if_pos (inExt_iff.1 h a)]) rfl
    · rw [if_neg h, if_neg h, if_neg h]
  · refine congrArg _ (funext fun c => ?_)
    by_cases h : inExt topo.nxLocalWg c = true
    · rw [if_pos h, if_pos h, if_pos h]
      refine (dvFun_old tr geom _ _ _ _ c).trans ?_
      exact dvFun_congr tr geom _ _ _ _ _ c (fun a => by rw [if_pos (inExt_iff.1 h a), if_pos (inExt_iff.1 h a)]) rfl
    · rw [if_neg h, if_neg h, if_neg h]

theorem nextCell_add (c s : Cell) : nextCell c + s = nextCell (c + s) := by
  funext a
  fin_cases a
  · simp [nextCell]; ring
  · simp [nextCell]
  · simp [nextCell]

/-! ### What is asked of a process grid -/

/-- A process grid (without its gravity) as for a run with a fixed grid; the gravity of each rank is its part of a field `Gr X W` of the nodes
and the global array, and the criterion of the setup is a property `Cr X W` of them; the copies of `shift_grid` go over their planes in
some order. -/
structure MovOk (p : ProgParams d n) (nx : Cell) (ng : ℤ) (Gr : (Fin 3 → ℤ → ℝ) → (Cell → Fields d n ℝ) → Cell → Fin d → ℝ)
    (Cr : (Fin 3 → ℤ → ℝ) → (Cell → Fields d n ℝ) → Bool) (M : MovMachine d n) : Prop where
  base : MachineOk nx ng (fun _ _ _ => 0) { M.toMachine with grav := fun _ _ _ _ => some 0 }
  force : ∀ X grid, GridsOk p nx ng X M.toMachine grid → ∀ W D, HoldsAll nx M.dims (nghostOf d ng) W D → ∀ rank, inBox 0 M.dims rank →
    ∀ c, inExt (localExt nx M.dims (nghostOf d ng) rank) c = true → ∀ a, M.gravOf grid D rank c a = some (Gr X W (c + startCell nx M.dims rank) a)
  crit : ∀ X grid, GridsOk p nx ng X M.toMachine grid → ∀ W D, HoldsAll nx M.dims (nghostOf d ng) W D → M.crit grid D = some (Cr X W)
  shiftL : ∀ r, inBox 0 M.dims r → IsSchedule (M.shiftL r) 0 ![localExt nx M.dims (nghostOf d ng) r 0 - 1,
    localExt nx M.dims (nghostOf d ng) r 1, localExt nx M.dims (nghostOf d ng) r 2]

section Mov
variable {p : ProgParams d n} {rmax : ℝ} {nx : Cell} {ng : ℤ} {Gr : (Fin 3 → ℤ → ℝ) → (Cell → Fields d n ℝ) → Cell → Fin d → ℝ}
  {Cr : (Fin 3 → ℤ → ℝ) → (Cell → Fields d n ℝ) → Bool} {M : MovMachine d n} {order : List ℕ}

theorem MovOk.machine (h : MovOk p nx ng Gr Cr M) {X : Fin 3 → ℤ → ℝ} {grid : Cell → GridData ℝ} (hg : GridsOk p nx ng X M.toMachine grid) :
    MachineOk nx ng (Gr X) (M.at grid) :=
  ⟨h.base.pos, h.base.size, h.base.order, h.base.topo, h.base.gridL1, h.base.gridL, h.base.consL, h.base.writers, h.force X grid hg, h.base.mem⟩

/-! ### One global array -/

/-- The state of the global array: fields, nodes, boundary conditions, whether the criterion of the setup is in force. -/
structure GlobMov (d n : ℕ) where
  W : Cell → Fields d n ℝ
  X : Fin 3 → ℤ → ℝ
  bcs : Fin d → Fin 2 → BcKind
  active : Bool

/-- The nodes after a shift. -/
noncomputable def shiftX (nx nghost : Cell) (X : Fin 3 → ℤ → ℝ) : Fin 3 → ℤ → ℝ :=
  fun a => if a = 0 then shiftedNodes (nx 0 + 2 * nghost 0 + 1) (X 0) else X a

/-- Lines 486-524 of src/main.cpp on the global array. -/
noncomputable def shiftGlob (rmax : ℝ) (nx : Cell) (ng : ℤ) (Cr : (Fin 3 → ℤ → ℝ) → (Cell → Fields d n ℝ) → Bool) (order : List ℕ)
    (h : GlobMov d n) : GlobMov d n :=
  if h.active = true ∧ Cr h.X h.W = true then
    if rmax ≤ h.X 0 (nx 0 + nghostOf d ng 0 + 1) then
      { W := bcGlob (openOuter h.bcs) nx (nghostOf d ng) order fun g => h.W (g + nghostOf d ng), X := h.X, bcs := openOuter h.bcs, active := false }
    else
      { W := bcGlob h.bcs nx (nghostOf d ng) order fun g => h.W (nextCell (g + nghostOf d ng)), X := shiftX nx (nghostOf d ng) h.X
        bcs := h.bcs, active := h.active }
  else h

/-- The hydrodynamics of the global array. -/
noncomputable def movHydro (p : ProgParams d n) (rmax : ℝ) (nx : Cell) (ng : ℤ)
    (Gr : (Fin 3 → ℤ → ℝ) → (Cell → Fields d n ℝ) → Cell → Fin d → ℝ) (Cr : (Fin 3 → ℤ → ℝ) → (Cell → Fields d n ℝ) → Bool)
    (order : List ℕ) : Hydro (GlobMov d n) ℝ where
  timeStep := fun h => (globHydro (p.withBcs h.bcs) nx ng h.X (Gr h.X) order).timeStep h.W
  bad := fun h => (globHydro (p.withBcs h.bcs) nx ng h.X (Gr h.X) order).bad h.W
  advance := fun h t dt => shiftGlob rmax nx ng Cr order
    { h with W := (globHydro (p.withBcs h.bcs) nx ng h.X (Gr h.X) order).advance h.W t dt }

/-- The grids, fields, boundary conditions of a process grid are those of the global state `G`. -/
structure Represents (p : ProgParams d n) (nx : Cell) (ng : ℤ) (M : MovMachine d n) (z : MovState d n) (G : GlobMov d n) : Prop where
  grid : GridsOk p nx ng G.X M.toMachine z.grid
  nAxis : z.nAxis = fun a => nx a + 2 * nghostOf d ng a + 1
  x : z.x = G.X
  h : HoldsAll nx M.dims (nghostOf d ng) G.W z.s.h
  bcs : z.bcs = G.bcs
  active : z.active = G.active
  noUser : ∀ a f, G.bcs a f ≠ .userDefined

theorem openOuter_noUser {bcs : Fin d → Fin 2 → BcKind} (h : ∀ a f, bcs a f ≠ .userDefined) : ∀ a f, openOuter bcs a f ≠ .userDefined := by
  intro a f
  unfold openOuter
  split
  · exact fun h => by cases h
  · exact h a f

theorem MovOk.gridSched (h : MovOk p nx ng Gr Cr M) (hN : ∀ a, 0 ≤ nx a) {r : Cell} (hr : inBox 0 M.dims r) :
    IsSchedule (M.gridL r) 0 (M.topo r).nxLocalWg ∧ IsSchedule (M.gridL' r) 0 (M.topo r).nxLocalWg := by
  obtain ⟨rg, h1, h2, h3⟩ := h.base.gridL r hr
  obtain ⟨-, -, -, e4, e5⟩ := range_box hN h.base.pos hr (h.base.topo r hr)
  obtain ⟨f1, f2⟩ := e5 ng rg (by rw [← h1, Range.allGhosts, e4])
  have fb : rg.cellBegin d = 0 := by rw [f1]; funext a; simp [nghostOf]
  have fe : rg.cellEnd d = (M.topo r).nxLocalWg := by rw [f2]; funext a; simp [nghostOf]
  rw [fb, fe] at h2 h3
  exact ⟨h2, h3⟩

/-- `shift_grid` on a rank. -/
theorem shiftGrid_ok (h : MovOk p nx ng Gr Cr M) (hN : ∀ a, 0 ≤ nx a) (hn : 4 ≤ nx 0 + 2 * nghostOf d ng 0 + 1) {X : Fin 3 → ℤ → ℝ}
    {grid : Cell → GridData ℝ} (hg : GridsOk p nx ng X M.toMachine grid) {r : Cell} (hr : inBox 0 M.dims r) (f : Cell → Fields d n ℝ) :
    ∃ g', shiftGrid p.hydro.tr p.hydro.geom d (M.topo r) (M.shiftL r) (M.gridL1 r) (M.gridL r) (M.gridL' r)
        ⟨inExt (localExt nx M.dims (nghostOf d ng) r), f⟩ ⟨inExt (localExt nx M.dims (nghostOf d ng) r), f⟩ (nx 0 + 2 * nghostOf d ng 0 + 1)
        (fun a => View.line (nx a + 2 * nghostOf d ng a + 1) (X a)) (grid r) =
      some (⟨inExt (localExt nx M.dims (nghostOf d ng) r), fun c => if inBox 0 ![localExt nx M.dims (nghostOf d ng) r 0 - 1,
            localExt nx M.dims (nghostOf d ng) r 1, localExt nx M.dims (nghostOf d ng) r 2] c then f (nextCell c) else f c⟩,
          (fun a => View.line (nx a + 2 * nghostOf d ng a + 1) (shiftX nx (nghostOf d ng) X a)), g') ∧
      setGrid p.hydro.tr p.hydro.geom d (M.topo r) (M.gridL1 r) (M.gridL r) (M.gridL' r)
        (fun a => View.line (nx a + 2 * nghostOf d ng a + 1) (shiftX nx (nghostOf d ng) X a)) (GridData.alloc (M.topo r).nxLocalWg) = some g' := by
  obtain ⟨s1, s2⟩ := h.gridSched hN hr
  obtain ⟨f1, -⟩ := h.base.fields hN hr
  have f1' : (M.topo r).nghost = nghostOf d ng := f1
  obtain ⟨gr, hgr, hgr'⟩ := progGrids_ok (p := p) (X := shiftX nx (nghostOf d ng) X) h.base hN
  have h2 := hgr' r hr
  refine ⟨gr r, ?_, h2⟩
  have hag := setGrid_again p.hydro.tr p.hydro.geom hN h.base.pos hr (h.base.topo r hr) (h.base.gridL1 r hr) s1 s2 X (shiftX nx (nghostOf d ng) X)
    (g := grid r) (by
      have := hg r hr
      dsimp only
      rw [f1']
      exact this)
  dsimp only at hag
  rw [f1'] at hag
  have hx : (fun a : Fin 3 => if a = 0 then View.line (nx 0 + 2 * nghostOf d ng 0 + 1) (shiftedNodes (nx 0 + 2 * nghostOf d ng 0 + 1) (X 0))
      else View.line (nx a + 2 * nghostOf d ng a + 1) (X a)) = fun a => View.line (nx a + 2 * nghostOf d ng a + 1) (shiftX nx (nghostOf d ng) X a) := by
    funext a
    unfold shiftX
    by_cases ha : a = 0
    · subst ha; rw [if_pos rfl, if_pos rfl]
    · rw [if_neg ha, if_neg ha]
  unfold shiftGrid
  rw [shiftArray_eq (h.shiftL r hr), shiftNodes_eq _ hn]
  simp only [Option.bind_eq_bind, Option.bind_some]
  rw [hx, hag, h2]
  rfl

/-- The shift on all ranks is the shift of the global array. -/
theorem movShift_ok (hd : 0 < d) (hd3 : d ≤ 3) (hN : ∀ a, 0 ≤ nx a) (hng : 2 ≤ ng) (ho : ∀ id ∈ order, id < 2 * d)
    (hpo : p.hydro.order = order.map some) (h : MovOk p nx ng Gr Cr M) {z : MovState d n} {g : GlobMov d n} (hz : Represents p nx ng M z g) :
    ∃ z', movShift p rmax nx (nghostOf d ng) (borderOf M.dims) M z = some z' ∧ Represents p nx ng M z' (shiftGlob rmax nx ng Cr order g) ∧
      z'.s.withFluid () = z.s.withFluid () ∧ z'.files = z.files ∧ z'.status = z.status := by
  have hn0 : nghostOf d ng 0 = ng := by simp [nghostOf, hd]
  have hN0 := hN 0
  have hcr : movCriterion M z = some (decide (g.active = true ∧ Cr g.X g.W = true)) := by
    unfold movCriterion
    rw [hz.active]
    cases hga : g.active with
    | false => simp
    | true => rw [if_pos rfl, h.crit g.X z.grid hz.grid g.W z.s.h hz.h]; simp
  have hrd : (View.line (z.nAxis 0) (z.x 0)).rd (nx 0 + nghostOf d ng 0 + 1) = some (g.X 0 (nx 0 + nghostOf d ng 0 + 1)) := by
    rw [hz.nAxis, hz.x]
    exact View.rd_of_dom (line_dom (by omega) (show nx 0 + nghostOf d ng 0 + 1 < nx 0 + 2 * nghostOf d ng 0 + 1 by omega))
  unfold movShift shiftGlob
  dsimp only
  rw [hcr]
  simp only [Option.bind_eq_bind, Option.bind_some, decide_eq_true_eq]
  by_cases hc : g.active = true ∧ Cr g.X g.W = true
  · rw [if_pos hc, if_pos hc, hrd]
    simp only [Option.bind_some]
    by_cases hx : rmax ≤ g.X 0 (nx 0 + nghostOf d ng 0 + 1)
    · rw [if_pos hx, if_pos hx, hz.bcs]
      obtain ⟨D', hD', hH⟩ := distBcs_holds hd3 hN h.base.pos (by omega) h.base.size p.hydro.user h.base.order (openOuter_noUser hz.noUser) ho
        (fun G => g.W (G + nghostOf d ng)) z.s.h hz.h.ext (by
          intro r hr c hc
          have hc' : layer d (localExt nx M.dims (nghostOf d ng) r) ng c := by
            have : inBox (nghostOf d ng) (fun a => z.s.h.ext r a - nghostOf d ng a) c := hc
            rw [hz.h.ext r hr] at this
            exact this
          rw [hz.h.val r hr c (layer_inExt hc' (by omega)), global_add])
      rw [hpo]
      have hD'' : distBcs p.hydro.user M.sched (openOuter g.bcs) (borderOf M.dims) (nghostOf d ng) M.dims (order.map some) z.s.h = some D' := hD'
      rw [hD'']
      exact ⟨_, rfl, ⟨hz.grid, hz.nAxis, hz.x, hH, rfl, rfl, openOuter_noUser hz.noUser⟩, rfl, rfl, rfl⟩
    · rw [if_neg hx, if_neg hx, hz.bcs]
      have hres := fun r hr => shiftGrid_ok (r := r) h hN (by omega) hz.grid hr (z.s.h.val r)
      haveI : Nonempty (GridData ℝ) := ⟨GridData.alloc 0⟩
      choose! g' hg1 hg2 using hres
      have hloc : ∀ r, inBox 0 M.dims r → z.s.h.local r = ⟨inExt (localExt nx M.dims (nghostOf d ng) r), z.s.h.val r⟩ :=
        fun r hr => local_eq hz.h hr
      have hg1' : ∀ r, inBox 0 M.dims r → shiftGrid p.hydro.tr p.hydro.geom d (M.topo r) (M.shiftL r) (M.gridL1 r) (M.gridL r) (M.gridL' r)
          (z.s.h.local r) (z.s.h.local r) (z.nAxis 0) (fun a => View.line (z.nAxis a) (z.x a)) (z.grid r) =
          some (⟨inExt (localExt nx M.dims (nghostOf d ng) r), fun c => if inBox 0 ![localExt nx M.dims (nghostOf d ng) r 0 - 1,
            localExt nx M.dims (nghostOf d ng) r 1, localExt nx M.dims (nghostOf d ng) r 2] c then z.s.h.val r (nextCell c) else z.s.h.val r c⟩,
          (fun a => View.line (nx a + 2 * nghostOf d ng a + 1) (shiftX nx (nghostOf d ng) g.X a)), g' r) := fun r hr => by
        rw [hloc r hr, hz.nAxis, hz.x]
        exact hg1 r hr
      obtain ⟨res, hr1, hr2⟩ := allRanks_some (dims := M.dims)
        (dflt := fun r => (z.s.h.local r, fun a => View.line (z.nAxis a) (z.x a), z.grid r)) hg1'
      obtain ⟨D', hD', hH⟩ := distBcs_holds hd3 hN h.base.pos (by omega) h.base.size p.hydro.user h.base.order hz.noUser ho
        (fun G => g.W (nextCell (G + nghostOf d ng))) ⟨z.s.h.ext, fun r => (res r).1.val⟩ hz.h.ext (by
          intro r hr c hc
          have hc' : layer d (localExt nx M.dims (nghostOf d ng) r) ng c := by
            have : inBox (nghostOf d ng) (fun a => z.s.h.ext r a - nghostOf d ng a) c := hc
            rw [hz.h.ext r hr] at this
            exact this
          have hin := inExt_iff.1 (layer_inExt hc' (by omega))
          have h0 : nghostOf d ng 0 ≤ c 0 ∧ c 0 < localExt nx M.dims (nghostOf d ng) r 0 - nghostOf d ng 0 := hc' 0
          have hbox : inBox 0 ![localExt nx M.dims (nghostOf d ng) r 0 - 1, localExt nx M.dims (nghostOf d ng) r 1, localExt nx M.dims (nghostOf d ng) r 2] c := by
            intro a
            fin_cases a
            · exact ⟨(hin 0).1, show c 0 < localExt nx M.dims (nghostOf d ng) r 0 - 1 by omega⟩
            · exact hin 1
            · exact hin 2
          have hnext : inExt (localExt nx M.dims (nghostOf d ng) r) (nextCell c) = true := by
            refine inExt_iff.2 fun a => ?_
            have := hin 0
            fin_cases a
            · exact ⟨show 0 ≤ c 0 + 1 by omega, show c 0 + 1 < localExt nx M.dims (nghostOf d ng) r 0 by omega⟩
            · exact hin 1
            · exact hin 2
          show (res r).1.val c = _
          rw [hr2 r hr]
          refine (if_pos hbox).trans ?_
          rw [hz.h.val r hr _ hnext, nextCell_add, global_add])
      have hD'' : distBcs p.hydro.user M.sched g.bcs (borderOf M.dims) (nghostOf d ng) M.dims (order.map some) ⟨z.s.h.ext, fun r => (res r).1.val⟩ = some D' := hD'
      rw [hr1]
      simp only [Option.bind_some]
      rw [hpo, hD'']
      have h00 : inBox 0 M.dims 0 := fun a => ⟨le_rfl, h.base.pos a⟩
      refine ⟨_, rfl, ⟨fun r hr => ?_, hz.nAxis, ?_, hH, rfl, hz.active, hz.noUser⟩, rfl, rfl, rfl⟩
      · dsimp only
        rw [hr2 r hr]
        exact hg2 r hr
      · funext a i
        dsimp only
        rw [hr2 0 h00]
        rfl
  · rw [if_neg hc, if_neg hc]
    exact ⟨z, rfl, hz, rfl, rfl, rfl⟩

/-- The state of the program on a process grid represents the state `g` of the run of the global array. -/
structure MovFollows (p : ProgParams d n) (nx : Cell) (ng : ℤ) (M : MovMachine d n) (z : MovState d n) (g : RunState (GlobMov d n) ℝ) : Prop where
  rep : Represents p nx ng M z g.s.h
  s : z.s.withFluid () = g.s.withFluid ()
  files : List.Forall₂ (fun f o => FileOf p nx ng o.h.X o.h.W f.h ∧ f.withFluid () = o.withFluid ()) z.files g.outs
  status : z.status = g.status

theorem FileOf.withBcs {b : Fin d → Fin 2 → BcKind} {X : Fin 3 → ℤ → ℝ} {W : Cell → Fields d n ℝ} {f : FluidFile d n}
    (h : FileOf (p.withBcs b) nx ng X W f) : FileOf p nx ng X W f :=
  ⟨h.rho, h.u, h.P, h.E, h.T, h.fx, h.nAxis, h.x⟩

theorem Represents.withBcs {b : Fin d → Fin 2 → BcKind} {z : MovState d n} {g : GlobMov d n} :
    Represents (p.withBcs b) nx ng M z g ↔ Represents p nx ng M z g :=
  ⟨fun h => ⟨h.grid, h.nAxis, h.x, h.h, h.bcs, h.active, h.noUser⟩, fun h => ⟨h.grid, h.nAxis, h.x, h.h, h.bcs, h.active, h.noUser⟩⟩

theorem MovOk.withBcs {b : Fin d → Fin 2 → BcKind} (h : MovOk p nx ng Gr Cr M) : MovOk (p.withBcs b) nx ng Gr Cr M :=
  ⟨h.base, h.force, h.crit, h.shiftL⟩

theorem movStep_follows (hd : 0 < d) (hd3 : d ≤ 3) (hN : ∀ a, 0 ≤ nx a) (hng : 2 ≤ ng) (hp : ParamsOk p order) (h : MovOk p nx ng Gr Cr M) (i : ℕ)
    (clock : Bool) {z : MovState d n} {g : RunState (GlobMov d n) ℝ} (hz : MovFollows p nx ng M z g) :
    ∃ z', movStep p rmax nx (nghostOf d ng) (borderOf M.dims) M (M.mem i) clock z = some z' ∧
      MovFollows p nx ng M z' (runStep p.loop (movHydro p rmax nx ng Gr Cr order) clock g) := by
  unfold movStep runStep
  rw [hz.status]
  cases hst : g.status with
  | finished => exact ⟨z, rfl, hz⟩
  | failed => exact ⟨z, rfl, hz⟩
  | running =>
    simp only
    have hr := hz.rep
    have hA := h.machine hr.grid
    have hp' : ParamsOk (p.withBcs g.s.h.bcs) order := ⟨hr.noUser, hp.ids, hp.order, hp.heat, hp.top⟩
    have hgr : GridsOk (p.withBcs g.s.h.bcs) nx ng g.s.h.X (M.at z.grid) z.grid := hr.grid
    have hh : HoldsAll nx (M.at z.grid).dims (nghostOf d ng) g.s.h.W z.s.h := hr.h
    obtain ⟨up, e1, hup⟩ := progPrims_ok (p := p.withBcs g.s.h.bcs) hA i hh
    obtain ⟨m, e2, hm⟩ := timeStep_ok hd3 hA hN (by omega) i hh hup hgr
    obtain ⟨e, e3, he⟩ := energyTest_ok (p := p.withBcs g.s.h.bcs) hA hN (by omega) i hh hp'.top
    have e1' : progPrims (p.withBcs g.s.h.bcs) (M.at z.grid) (M.mem i) z.s.h = some up := e1
    have e2' : timeStep (p.withBcs g.s.h.bcs).hydro.lo (p.withBcs g.s.h.bcs).hydro.eos (p.withBcs g.s.h.bcs).hydro.tr (p.withBcs g.s.h.bcs).hydro.geom
      (boxList 0 M.dims) (fun r => (M.mem i r).parts) z.grid (fun r => (z.s.h.local r).comp Fields.rho) up = some (1 / m) := e2
    have e3' : minInternalEnergy realOps (p.withBcs g.s.h.bcs).top (boxList 0 M.dims) (fun r => (M.mem i r).eparts)
        (fun r => (z.s.h.local r).comp fun s => (s.rho, s.rhou, s.E)) = some e := e3
    have ht : (movHydro p rmax nx ng Gr Cr order).timeStep g.s.h = 1 / m := globHydro_timeStep (Gr := Gr g.s.h.X) (order := order) hm
    have hbadiff : (movHydro p rmax nx ng Gr Cr order).bad g.s.h = true ↔ ∃ g', inBox 0 nx g' ∧ internal (g.s.h.W (g' + nghostOf d ng)) < 0 := globHydro_bad (Gr := Gr g.s.h.X) (order := order) (p := p.withBcs g.s.h.bcs) (X := g.s.h.X)
    unfold iteration
    rw [hr.bcs, e1', ht]
    simp only [Option.bind_eq_bind, Option.bind_some]
    rw [e2']
    simp only [Option.bind_some]
    have hdl : (p.withBcs g.s.h.bcs).loop = p.loop := rfl
    rw [hdl, decideStep_fluid p.loop (1 / m) clock hz.s]
    obtain ⟨w1, w2, w3, w4, w5⟩ := withFluid_eq hz.s
    cases hdec : decideStep p.loop (1 / m) clock g.s with
    | error msg => exact ⟨_, rfl, ⟨hr.grid, hr.nAxis, hr.x, hr.h, rfl, hr.active, hr.noUser⟩, hz.s, hz.files, rfl⟩
    | ok c =>
      simp only
      rw [e3']
      simp only [Option.bind_some]
      by_cases hbad : e < 0
      · rw [if_pos hbad, if_pos (hbadiff.2 (he.1 hbad)), hr.nAxis, hr.x]
        obtain ⟨f, o1, o2⟩ := progOutput_ok (p := p.withBcs g.s.h.bcs) (X := g.s.h.X) hA hN (by omega) i hh hup
          (s := { z.s with outputId := z.s.outputId + 1, iterId := c.iterId, timeId := c.timeId }) rfl
        have o1' : progOutput (p.withBcs g.s.h.bcs) nx (M.at z.grid) (M.mem i) (fun a => nx a + 2 * nghostOf d ng a + 1) g.s.h.X up
          { z.s with outputId := z.s.outputId + 1, iterId := c.iterId, timeId := c.timeId } = _ := o1
        rw [o1']
        refine ⟨_, rfl, ⟨hr.grid, rfl, rfl, hr.h, rfl, hr.active, hr.noUser⟩, hz.s, ?_, rfl⟩
        refine List.rel_append hz.files (List.Forall₂.cons ⟨o2.withBcs, ?_⟩ .nil)
        simp only [LoopState.withFluid, w1, w2, w3]
      · rw [if_neg hbad, if_neg (fun hb => hbad (he.2 (hbadiff.1 hb)))]
        obtain ⟨new, D', hnew, hD', hH⟩ := progAdvance_ok hd3 hN hng hp' hA i hh hup hgr z.s.t c.dt
        have hnew' : allRanks M.dims (fun r => rankAdvance (p.withBcs g.s.h.bcs) (z.grid r) (M.mem i r) (M.gravOf z.grid z.s.h r) z.s.t c.dt
          (z.s.h.local r) (up r)) (fun r => (M.mem i r).new) = some new := hnew
        have hD'' : distBcs (p.withBcs g.s.h.bcs).hydro.user M.sched (p.withBcs g.s.h.bcs).hydro.bcs (borderOf M.dims) (nghostOf d ng) M.dims
          (p.withBcs g.s.h.bcs).hydro.order ⟨z.s.h.ext, fun r => (new r).val⟩ = some D' := hD'
        rw [hnew']
        simp only [Option.bind_some]
        rw [hD'']
        simp only [Option.bind_some]
        obtain ⟨z1, q1, q2, q3, q4, q5⟩ := movShift_ok (p := p.withBcs g.s.h.bcs) (rmax := rmax) (order := order) (Gr := Gr) (Cr := Cr) (M := M)
          (z := { z with s := { z.s with h := D' }, status := Status.running, bcs := g.s.h.bcs })
          (g := { g.s.h with W := (globHydro (p.withBcs g.s.h.bcs) nx ng g.s.h.X (Gr g.s.h.X) order).advance g.s.h.W z.s.t c.dt })
          hd hd3 hN hng hp.ids hp.order h.withBcs ⟨hr.grid, hr.nAxis, hr.x, hH, rfl, hr.active, hr.noUser⟩
        dsimp only at q1
        rw [q1]
        simp only [Option.bind_some]
        have q2' : Represents p nx ng M z1 ((movHydro p rmax nx ng Gr Cr order).advance g.s.h g.s.t c.dt) := by
          rw [← w1]
          exact Represents.withBcs.1 q2
        have hA1 := h.machine q2'.grid
        have hh1 : HoldsAll nx (M.at z1.grid).dims (nghostOf d ng) ((movHydro p rmax nx ng Gr Cr order).advance g.s.h g.s.t c.dt).W z1.s.h := q2'.h
        cases hout : c.makeOutput with
        | false =>
          refine ⟨_, rfl, ⟨q2'.grid, q2'.nAxis, q2'.x, q2'.h, q2'.bcs, q2'.active, q2'.noUser⟩, ?_, ?_, rfl⟩
          · simp only [LoopState.withFluid, w1, w2, w3, Bool.false_eq_true, if_false]
          · simp only [Bool.false_eq_true, if_false]
            rw [q4]
            exact hz.files
        | true =>
          simp only [if_true]
          obtain ⟨up', f1, hup'⟩ := progPrims_ok (p := p.withBcs g.s.h.bcs) hA1 i hh1
          have f1' : progPrims (p.withBcs g.s.h.bcs) (M.at z1.grid) (M.mem i) z1.s.h = some up' := f1
          rw [f1', q2'.nAxis, q2'.x]
          simp only [Option.bind_some]
          obtain ⟨f, o1, o2⟩ := progOutput_ok (p := p.withBcs g.s.h.bcs) (X := ((movHydro p rmax nx ng Gr Cr order).advance g.s.h g.s.t c.dt).X)
            hA1 hN (by omega) i hh1 hup'
            (s := { h := z1.s.h, t := z.s.t + c.dt, iter := z.s.iter + 1, outputId := z.s.outputId + 1, iterId := c.iterId, timeId := c.timeId }) rfl
          have o1' : progOutput (p.withBcs g.s.h.bcs) nx (M.at z1.grid) (M.mem i) (fun a => nx a + 2 * nghostOf d ng a + 1)
            ((movHydro p rmax nx ng Gr Cr order).advance g.s.h g.s.t c.dt).X up'
            { h := z1.s.h, t := z.s.t + c.dt, iter := z.s.iter + 1, outputId := z.s.outputId + 1, iterId := c.iterId, timeId := c.timeId } = _ := o1
          rw [o1']
          refine ⟨_, rfl, ⟨q2'.grid, rfl, rfl, q2'.h, q2'.bcs, q2'.active, q2'.noUser⟩, ?_, ?_, rfl⟩
          · simp only [LoopState.withFluid, w1, w2, w3]
          · rw [q4]
            refine List.rel_append hz.files (List.Forall₂.cons ⟨o2.withBcs, ?_⟩ .nil)
            simp only [LoopState.withFluid, w1, w2, w3]

theorem movRun_follows (hd : 0 < d) (hd3 : d ≤ 3) (hN : ∀ a, 0 ≤ nx a) (hng : 2 ≤ ng) (hp : ParamsOk p order) (h : MovOk p nx ng Gr Cr M)
    (clock : ℕ → Bool) {z : Option (MovState d n)} {z0 : MovState d n} {g : RunState (GlobMov d n) ℝ} (hz0 : z = some z0)
    (hz : MovFollows p nx ng M z0 g) (k : ℕ) :
    ∃ z', movRun p rmax nx (nghostOf d ng) (borderOf M.dims) M clock z k = some z' ∧
      MovFollows p nx ng M z' (runN p.loop (movHydro p rmax nx ng Gr Cr order) clock g k) := by
  induction k with
  | zero => exact ⟨z0, hz0, hz⟩
  | succ k ih =>
    obtain ⟨z1, h1, h2⟩ := ih
    obtain ⟨z2, h3, h4⟩ := movStep_follows (rmax := rmax) hd hd3 hN hng hp h k (clock k) h2
    refine ⟨z2, ?_, h4⟩
    unfold movRun
    rw [h1]
    exact h3

/-- A start or restart of the program with a fixed grid is one of the program with a shifting grid. -/
theorem movStart_follows {X : Fin 3 → ℤ → ℝ} {A : Machine d n} (hA : A = { M.toMachine with grav := A.grav }) {z : ProgState d n}
    {g : RunState (Cell → Fields d n ℝ) ℝ} {g' : RunState (GlobMov d n) ℝ} (hz : Follows p nx ng X A z g) (hb : ∀ a f, p.hydro.bcs a f ≠ .userDefined)
    (on : Bool) (hs : g'.s = g.s.withFluid ⟨g.s.h, X, p.hydro.bcs, on⟩)
    (ho : g'.outs = g.outs.map fun o => o.withFluid ⟨o.h, X, p.hydro.bcs, on⟩) (hst : g'.status = g.status) :
    MovFollows p nx ng M { z with bcs := p.hydro.bcs, active := on } g' := by
  have e1 : A.dims = M.dims := by rw [hA]
  have hg : GridsOk p nx ng X M.toMachine z.grid := by
    have := hz.grid
    rw [hA] at this
    exact this
  refine ⟨?_, ?_, ?_, hz.status.trans hst.symm⟩
  · rw [hs]
    exact ⟨hg, hz.nAxis, hz.x, e1 ▸ hz.h, rfl, rfl, hb⟩
  · rw [hs]
    exact hz.s
  · rw [ho, List.forall₂_map_right_iff]
    exact hz.files

end Mov

end Heracles

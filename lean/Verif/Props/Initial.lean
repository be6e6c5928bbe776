import Verif.Lemmas.Initial
import Verif.Props.Distributed
import Verif.Spec.Geometry

/-!
# C66: the initial state does not depend on the decomposition
-/

namespace Heracles

variable {d n : ℕ}

theorem cons_same {S : Setup d n} (F : (Fin 3 → ℝ) → (Fin 3 → ℝ) → ℝ → (Fin d → ℝ) → InitCell d n)
    (h : ∀ q topo g grav c xl xm dv gr, CellData g grav c xl xm dv gr → S q topo g grav c ⟨0, 0, 0, 0⟩ = some (F xl xm dv gr)) :
    DecompositionFree S := Positional.free ⟨F, h⟩

open Classical in
/-- **C66.** The problems whose data depend on `x0`: shock tube, shock wall, advections, stratified atmosphere, isothermal sphere,
nickel heating. For all parameters, equations of state, grids (any geometry, spacing, ghost width) and gravity fields, the
interiors of the ranks are filled with the restrictions of one global state. -/
theorem C66_independent_1d (eos : SetupEos) (rho0 rho1 u0 u1 P0 P1 inter T0 M fx0 : ℝ) :
    DecompositionFree (d := d) (n := n) (fun _ _ g _ => shockTubeInit rho0 rho1 u0 u1 P0 P1 inter g) ∧
    DecompositionFree (d := d) (n := n) (fun _ _ _ _ => shockWallInit rho0 u0 P0) ∧
    DecompositionFree (d := d) (n := n) (fun _ _ g _ => advectionGapInit rho0 rho1 u0 P0 g) ∧
    DecompositionFree (d := d) (n := n) (fun _ _ g _ => advectionSinusInit u0 P0 g) ∧
    DecompositionFree (d := d + 1) (n := n) (fun _ _ g grav => stratifiedInit eos rho0 u0 T0 g grav) ∧
    DecompositionFree (d := d) (n := n) (fun _ _ g _ => eqHydroInit eos rho0 u0 T0 M g) ∧
    DecompositionFree (d := d) (n := 1) (fun _ _ _ _ => heatNickelInit eos rho0 u0 T0 fx0) := by
  refine ⟨?_, ?_, ?_, ?_, ?_, ?_, ?_⟩
  · refine cons_same (fun _ xm _ _ => if xm 0 ≤ inter then ⟨rho0, fun _ => u0, P0, 0⟩ else ⟨rho1, fun _ => u1, P1, 0⟩) ?_
    intro q topo g grav c xl xm dv gr h
    simp only [shockTubeInit, h.xc, Option.bind_eq_bind, Option.bind_some]
    split <;> rfl
  · exact cons_same (fun _ _ _ _ => ⟨rho0, fun _ => u0, P0, 0⟩) fun _ _ _ _ _ _ _ _ _ _ => rfl
  · refine cons_same (fun _ xm _ _ => ⟨if xm 0 ≤ 0.3 ∨ xm 0 ≥ 0.7 then rho0 else rho1, fun _ => u0, P0, 0⟩) ?_
    intro q topo g grav c xl xm dv gr h
    simp only [advectionGapInit, h.xc, Option.bind_eq_bind, Option.bind_some]
    rfl
  · refine cons_same (fun _ xm _ _ => ⟨1 + 1e-1 * Real.sin (2 * Real.pi * xm 0), fun _ => u0, P0, 0⟩) ?_
    intro q topo g grav c xl xm dv gr h
    simp only [advectionSinusInit, h.xc, Option.bind_eq_bind, Option.bind_some]
    rfl
  · refine cons_same (fun _ xm _ gr =>
      ⟨rho0 * Real.exp (-xm 0 / (kB * T0 / (eos.mmw * mP * |gr 0|))), fun _ => u0,
        eos.presFromTemp (rho0 * Real.exp (-xm 0 / (kB * T0 / (eos.mmw * mP * |gr 0|)))) T0, 0⟩) ?_
    intro q topo g grav c xl xm dv gr h
    simp only [stratifiedInit, h.xc, h.grav, Option.bind_eq_bind, Option.bind_some]
    rfl
  · refine cons_same (fun _ xm _ _ =>
      ⟨rho0 * Real.exp (1 / (xm 0 * (kB * T0 / (eos.mmw * mP * gravG * M)))), fun _ => u0,
        eos.presFromTemp (rho0 * Real.exp (1 / (xm 0 * (kB * T0 / (eos.mmw * mP * gravG * M))))) T0, 0⟩) ?_
    intro q topo g grav c xl xm dv gr h
    simp only [eqHydroInit, h.xc, Option.bind_eq_bind, Option.bind_some]
    rfl
  · exact cons_same (fun _ _ _ _ => ⟨rho0, fun _ => u0, eos.presFromTemp rho0 T0, fun _ => fx0⟩) fun _ _ _ _ _ _ _ _ _ _ => rfl

/-- A kernel that evaluates to the same option on the same cell data, and never fails, is decomposition independent. -/
theorem free_of_pointGrid {S : Setup d n} (h : ∀ q topo g grav c xl xm dv gr, CellData g grav c xl xm dv gr →
    ∃ s, S q topo g grav c ⟨0, 0, 0, 0⟩ = some s ∧ ∀ q' topo' g' grav' c', CellData g' grav' c' xl xm dv gr →
      S q' topo' g' grav' c' ⟨0, 0, 0, 0⟩ = some s) : DecompositionFree S := by
  classical
  refine cons_same (fun xl xm dv gr => if hh : ∃ s, ∀ q' topo' g' grav' c', CellData g' grav' c' xl xm dv gr →
      S q' topo' g' grav' c' ⟨0, 0, 0, 0⟩ = some s then hh.choose else ⟨0, 0, 0, 0⟩) ?_
  intro q topo g grav c xl xm dv gr hc
  obtain ⟨s, -, hs⟩ := h q topo g grav c xl xm dv gr hc
  have hh : ∃ s, ∀ q' topo' g' grav' c', CellData g' grav' c' xl xm dv gr → S q' topo' g' grav' c' ⟨0, 0, 0, 0⟩ = some s := ⟨s, hs⟩
  rw [dif_pos hh]
  exact hh.choose_spec q topo g grav c hc

/-- **C66.** The two- and three-dimensional problems: implosion, Gresho vortex, Kelvin-Helmholtz, both Rayleigh-Taylor problems (the
random numbers of the second are drawn once and broadcast), two-dimensional Sedov explosion. -/
theorem C66_independent_2d (eos : SetupEos) (rho0 rho1 u0 P0 P1 Ma fx0 fx1 E0 E1 : ℝ) (rnd : Fin 4 → ℝ) :
    DecompositionFree (d := d) (n := n) (fun _ _ g _ => implosionInit rho0 rho1 u0 P0 P1 g) ∧
    DecompositionFree (n := n) (fun _ _ g _ => greshoInit eos rho0 u0 Ma g) ∧
    DecompositionFree (n := n) (fun _ _ g _ => kelvinHelmholtzInit P0 g) ∧
    DecompositionFree (fun _ _ g grav => rayleighTaylorInit rho0 rho1 u0 fx0 fx1 g grav) ∧
    DecompositionFree (fun _ _ g grav => rt3dInit rho0 rho1 u0 rnd g grav) ∧
    DecompositionFree (d := d) (n := n) (fun _ _ g _ => sedov2dKernel eos rho0 u0 E0 E1 g) := by
  refine ⟨?_, ?_, ?_, ?_, ?_, ?_⟩ <;> refine free_of_pointGrid fun q topo g grav c xl xm dv gr h => ?_
  · simp only [implosionInit, h.xc, Option.bind_eq_bind, Option.bind_some]
    split
    · rename_i hk
      exact ⟨_, rfl, fun q topo g grav c h => by simp only [h.xc, Option.bind_some, if_pos hk]; rfl⟩
    · rename_i hk
      exact ⟨_, rfl, fun q topo g grav c h => by simp only [h.xc, Option.bind_some, if_neg hk]; rfl⟩
  · simp only [greshoInit, h.xc, Option.bind_eq_bind, Option.bind_some]
    split
    · rename_i hk
      exact ⟨_, rfl, fun q topo g grav c h => by simp only [h.xc, Option.bind_some, if_pos hk]; rfl⟩
    · rename_i hk
      split
      · rename_i hk'
        exact ⟨_, rfl, fun q topo g grav c h => by simp only [h.xc, Option.bind_some, if_neg hk, if_pos hk']; rfl⟩
      · rename_i hk'
        exact ⟨_, rfl, fun q topo g grav c h => by simp only [h.xc, Option.bind_some, if_neg hk, if_neg hk']; rfl⟩
  · simp only [kelvinHelmholtzInit, h.xc, Option.bind_eq_bind, Option.bind_some]
    exact ⟨_, rfl, fun q topo g grav c h => by simp only [h.xc, Option.bind_some]; rfl⟩
  · simp only [rayleighTaylorInit, h.xc, h.grav, Option.bind_eq_bind, Option.bind_some]
    exact ⟨_, rfl, fun q topo g grav c h => by simp only [h.xc, h.grav, Option.bind_some]; rfl⟩
  · simp only [rt3dInit, h.x, h.grav, Option.bind_eq_bind, Option.bind_some]
    split
    · rename_i hk
      exact ⟨_, rfl, fun q topo g grav c h => by simp only [h.x, h.grav, Option.bind_some, if_pos hk]; rfl⟩
    · rename_i hk
      exact ⟨_, rfl, fun q topo g grav c h => by simp only [h.x, h.grav, Option.bind_some, if_neg hk]; rfl⟩
  · simp only [sedov2dKernel, h.x, h.dv, Option.bind_eq_bind, Option.bind_some]
    exact ⟨_, rfl, fun q topo g grav c h => by simp only [h.x, h.dv, Option.bind_some]; rfl⟩

/-! ### From the initialisation to the run -/

/-- The conservative variables of a cell initialised with `s`. -/
noncomputable def fieldsOf (eos : EoS ℝ) (s : InitCell d n) : Fields d n ℝ :=
  ⟨s.rho, (toCons eos (Prim.mk s.rho s.u s.P)).rhou, (toCons eos (Prim.mk s.rho s.u s.P)).E, s.fx⟩

theorem initFields_eq {eos : EoS ℝ} {l l' : List Cell} {k : InitKernel d n} {ext : Cell} {v : View Cell (InitCell d n)} {b e : Cell}
    (hl' : IsSchedule l' b e) (hv : initLoop l k ⟨inExt ext, fun _ => ⟨0, 0, 0, 0⟩⟩ = some v) (hd : v.dom = inExt ext)
    (hb : ∀ c, inBox b e c → inExt ext c = true) :
    ∃ w, initFields eos l l' k ext = some w ∧ w.dom = inExt ext ∧ ∀ c, inBox b e c → w.val c = fieldsOf eos (v.val c) := by
  unfold initFields
  rw [hv]
  simp only [Option.bind_eq_bind, Option.bind_some]
  have : convPrimToCons eos l' (v.comp fun s => s.rho) (v.comp fun s => ⟨s.u, s.P⟩) ⟨inExt ext, fun _ => ⟨0, 0⟩⟩ =
      some ⟨inExt ext, fun c => if c ∈ l' then
        ⟨(toCons eos (Prim.mk (v.val c).rho (v.val c).u (v.val c).P)).rhou, (toCons eos (Prim.mk (v.val c).rho (v.val c).u (v.val c).P)).E⟩
        else ⟨0, 0⟩⟩ := by
    unfold convPrimToCons
    refine parFor_update l' hl'.1 _ _ (fun c => MomEn.mk
      (toCons eos (Prim.mk (v.val c).rho (v.val c).u (v.val c).P)).rhou (toCons eos (Prim.mk (v.val c).rho (v.val c).u (v.val c).P)).E)
      fun c hc w hw1 hw2 => ?_
    have hin := hb c ((hl'.2 c).1 hc)
    have h1 : (v.comp fun s => s.rho).rd c = some (v.val c).rho := View.rd_of_dom (by simp only [View.comp, hd]; exact hin)
    have h2 : (v.comp fun s => (⟨s.u, s.P⟩ : VelPres d ℝ)).rd c = some ⟨(v.val c).u, (v.val c).P⟩ :=
      View.rd_of_dom (by simp only [View.comp, hd]; exact hin)
    simp only [h1, h2, Option.bind_eq_bind, Option.bind_some]
    exact View.wr_of_dom (by rw [hw1]; exact hin)
  rw [this]
  simp only [Option.bind_some]
  refine ⟨_, rfl, rfl, fun c hc => ?_⟩
  simp only [if_pos ((hl'.2 c).2 hc), fieldsOf]

/-- A run started by the initialisation `S`: on each rank the grid is that of the first iteration, the gravity before the first
ghost exchange is `grav0`, the loops run in any order, and `D` is what the initialisation leaves in the arrays. -/
structure Starts (p : DistParams d n ℝ) (S : Setup d n) (nx : Cell) (ng : ℤ) (X : Fin 3 → ℤ → ℝ) (Gr0 : Cell → Fin d → ℝ) (dims : Cell)
    (D : DistView (Fields d n ℝ)) : Prop where
  state : ∀ rank, inBox 0 dims rank → ∃ topo g grav r l l', RankGrid p.tr p.geom nx dims ng X Gr0 rank topo g grav ∧
    topo.range.noGhosts = .ok r ∧ IsSchedule l (r.cellBegin d) (r.cellEnd d) ∧ IsSchedule l' (r.cellBegin d) (r.cellEnd d) ∧
    D.ext rank = topo.nxLocalWg ∧
    initFields p.eos l l' (S (cartRank dims rank) topo g grav) topo.nxLocalWg = some ⟨inExt (D.ext rank), D.val rank⟩

/-- **C66.** From the configuration to the end of the run: with an initialisation of the two theorems above, the initialisation never
accesses an array out of bounds, and two runs on different process grids take the same time steps and hold
the same values in cells that represent the same cell of the domain after any number of iterations (C35 with the initial
state produced by the code). -/
theorem C66_run (hd3 : d ≤ 3) {p : DistParams d n ℝ} {S : Setup d n} (hS : DecompositionFree S) {nx : Cell} {ng : ℤ}
    (hN : ∀ a, 0 ≤ nx a) (hng : 2 ≤ ng) (hb : ∀ a f, p.bcs a f ≠ .userDefined) {order : List ℕ} (ho : ∀ id ∈ order, id < 2 * d)
    (hpo : p.order = order.map some) {X : Fin 3 → ℤ → ℝ} {Gr0 : Cell → Fin d → ℝ} {Gr : (Cell → Fields d n ℝ) → Cell → Fin d → ℝ}
    {dims dims' : Cell} {sched sched' : Cell → Cell → List Cell} {grav grav' : DistView (Fields d n ℝ) → Cell → GravField d ℝ}
    {M M' : ℕ → Cell → RankMem d n ℝ} (h : Decomposition p nx ng X Gr dims sched grav M)
    (h' : Decomposition p nx ng X Gr dims' sched' grav' M') :
    (∃ D, Starts p S nx ng X Gr0 dims D) ∧ ∀ D D', Starts p S nx ng X Gr0 dims D → Starts p S nx ng X Gr0 dims' D' → ∀ k,
    ∃ F F' hist, distRun p sched (borderOf dims) (nghostOf d ng) dims grav M D k = some (F, hist) ∧
      distRun p sched' (borderOf dims') (nghostOf d ng) dims' grav' M' D' k = some (F', hist) ∧
      ∀ rank rank' c c', inBox 0 dims rank → inBox 0 dims' rank' →
        inExt (localExt nx dims (nghostOf d ng) rank) c = true → inExt (localExt nx dims' (nghostOf d ng) rank') c' = true →
        globalOf nx dims (nghostOf d ng) rank c = globalOf nx dims' (nghostOf d ng) rank' c' →
        F.val rank c = F'.val rank' c' := by
  classical
  obtain ⟨W, hW⟩ := hS p.tr p.geom nx ng X Gr0 hN (by omega)
  have key : ∀ dims : Cell, (∀ a, 0 < dims a) → ∀ D, Starts p S nx ng X Gr0 dims D → ∀ rank, inBox 0 dims rank →
      D.ext rank = localExt nx dims (nghostOf d ng) rank ∧
      ∀ c, inBox (nghostOf d ng) (fun a => D.ext rank a - nghostOf d ng a) c →
        D.val rank c = fieldsOf p.eos (W (globalOf nx dims (nghostOf d ng) rank c)) := by
    intro dims hdm D hD rank hr
    obtain ⟨topo, g, grv, r, l, l', hg, hrg, hl, hl', he, hi⟩ := hD.state rank hr
    obtain ⟨e1, f1, f2⟩ := rank_noGhosts_box hN hdm hr hg.ok hrg
    obtain ⟨v, h1, h2, h3⟩ := hW dims rank topo g grv r l trivial hdm hr hg hrg hl
    obtain ⟨w, q1, q2, q3⟩ := initFields_eq (eos := p.eos) hl' h1 h2 (fun c hc => by
      rw [f1, f2] at hc; rw [e1]; exact rank_interior_inExt (by omega) hc)
    rw [hi] at q1
    cases q1
    refine ⟨he.trans e1, fun c hc => ?_⟩
    rw [he, e1] at hc
    have hc' : inBox (r.cellBegin d) (r.cellEnd d) c := by rw [f1, f2]; exact hc
    exact (q3 c hc').trans (by rw [h3 c hc'])
  refine ⟨?_, fun D D' hD hD' k => ?_⟩
  · have hex : ∀ rank, ∃ (e : Cell) (w : Cell → Fields d n ℝ), inBox 0 dims rank → ∃ topo g grav r l l',
        RankGrid p.tr p.geom nx dims ng X Gr0 rank topo g grav ∧
        topo.range.noGhosts = .ok r ∧ IsSchedule l (r.cellBegin d) (r.cellEnd d) ∧ IsSchedule l' (r.cellBegin d) (r.cellEnd d) ∧
        e = topo.nxLocalWg ∧ initFields p.eos l l' (S (cartRank dims rank) topo g grav) topo.nxLocalWg = some ⟨inExt e, w⟩ := by
      intro rank
      by_cases hr : inBox 0 dims rank
      · obtain ⟨topo, g, r, hg, hrg⟩ := exists_rankGrid (ng := ng) p.tr p.geom hN h.pos (by omega) hr X Gr0
        obtain ⟨e1, f1, f2⟩ := rank_noGhosts_box hN h.pos hr hg.ok hrg
        obtain ⟨v, h1, h2, h3⟩ := hW dims rank topo g _ r _ trivial h.pos hr hg hrg (boxList_isSchedule _ _)
        obtain ⟨w, q1, q2, q3⟩ := initFields_eq (eos := p.eos) (boxList_isSchedule (r.cellBegin d) (r.cellEnd d)) h1 h2 (fun c hc => by
          rw [f1, f2] at hc; rw [e1]; exact rank_interior_inExt (by omega) hc)
        refine ⟨topo.nxLocalWg, w.val, fun _ => ⟨topo, g, _, r, _, _, hg, hrg, boxList_isSchedule _ _, boxList_isSchedule _ _, rfl, ?_⟩⟩
        rw [q1, ← q2]
      · exact ⟨0, fun _ => ⟨0, 0, 0, 0⟩, fun hr' => absurd hr' hr⟩
    choose e w hew using hex
    exact ⟨⟨e, w⟩, ⟨hew⟩⟩
  · exact C35_decomposition_independent hd3 hN hng hb ho hpo h h' (fun C => fieldsOf p.eos (W C))
      (fun rank hr => (key dims h.pos D hD rank hr).1) (fun rank hr => (key dims h.pos D hD rank hr).2)
      (fun rank hr => (key dims' h'.pos D' hD' rank hr).1) (fun rank hr => (key dims' h'.pos D' hD' rank hr).2) k

/-! ### The Sedov explosions -/

theorem perfect_evol_temp {g : Gas} (hm : 0 < g.mmw) {rho : ℝ} (hr : rho ≠ 0) (e : ℝ) :
    (PerfectGas.setupEos g).presFromTemp rho ((PerfectGas.setupEos g).tempFromEvol rho e) = g.gammaM1 * e := by
  have h1 : kB ≠ 0 := by unfold kB; norm_num
  have h2 : mP ≠ 0 := by unfold mP; norm_num
  have h3 := hm.ne'
  simp only [PerfectGas.setupEos, PerfectGas.presFromTemp, PerfectGas.tempFromEvol]
  field_simp

/-- **C66, violated.** One-dimensional Sedov explosion in spherical geometry: the ambient pressure is computed with the volume of the
third cell of each rank. On a mesh of 4 cells `X i = i` with two ghosts, the pressure on two processes is not that on one. -/
theorem C66_sedov1d_violated {g : Gas} (hm : 0 < g.mmw) (hg : 0 < g.gammaM1) {rho0 E0 : ℝ} (hr : rho0 ≠ 0) (hE : E0 ≠ 0) (u0 E1 : ℝ) :
    ¬ SameInitial (d := 1) (n := n) (fun q _ G _ => sedov1dInit (PerfectGas.setupEos g) .spherical q rho0 u0 E0 E1 G)
      realTrig .spherical ![4, 1, 1] 2 (fun _ i => i) (fun _ _ => 0) := by
  intro h
  obtain ⟨W, hW⟩ := h.value (by decide) (by norm_num)
  have key : ∀ dims rank, (∀ a, 0 < dims a) → inBox 0 dims rank → ∀ c,
      inExt (localExt ![4, 1, 1] dims (nghostOf 1 2) rank) ![2, 0, 0] = true → cartRank dims rank ≠ 0 ∨ c 0 ≠ 2 →
      inBox (nghostOf 1 2) (fun a => localExt ![4, 1, 1] dims (nghostOf 1 2) rank a - nghostOf 1 2 a) c →
      (W (globalOf ![4, 1, 1] dims (nghostOf 1 2) rank c)).P =
        g.gammaM1 * (E0 / (globGrid (d := 1) realTrig .spherical (fun _ i => (i : ℝ)) (fun _ _ => 0)).dv
          (globalOf ![4, 1, 1] dims (nghostOf 1 2) rank ![2, 0, 0] + nghostOf 1 2)) := by
    intro dims rank hdm hrk c h2 hc0 hc
    obtain ⟨topo, G, hG, hT⟩ := hW dims rank hdm hrk
    have hd := (hG.cell (by decide) hdm hrk h2).dv
    rw [← hT _ (fun c hc => by
      simp only [sedov1dInit, hd, Option.bind_eq_bind, Option.bind_some]; rfl) c hc]
    have : ¬ (cartRank dims rank = 0 ∧ c 0 = 2) := by tauto
    simp only [if_neg this]
    exact perfect_evol_temp hm hr _
  have h1 := key 1 0 (by decide) (by decide) ![4, 0, 0] (by decide) (Or.inr (by decide)) (by decide)
  have h2 := key ![2, 1, 1] ![1, 0, 0] (by decide) (by decide) ![2, 0, 0] (by decide) (Or.inl (by decide)) (by decide)
  have e1 : globalOf ![4, 1, 1] 1 (nghostOf 1 2) 0 ![4, 0, 0] = globalOf ![4, 1, 1] ![2, 1, 1] (nghostOf 1 2) ![1, 0, 0] ![2, 0, 0] := by
    decide
  rw [e1, h2] at h1
  have e2 : globalOf ![4, 1, 1] 1 (nghostOf 1 2) 0 ![2, 0, 0] + nghostOf 1 2 = ![2, 0, 0] := by decide
  have e3 : globalOf ![4, 1, 1] ![2, 1, 1] (nghostOf 1 2) ![1, 0, 0] ![2, 0, 0] + nghostOf 1 2 = ![4, 0, 0] := by decide
  rw [e2, e3] at h1
  have hp := Real.pi_pos
  simp only [globGrid, dvFun, realTrig] at h1
  norm_num at h1
  rcases h1 with h1 | h1
  · rw [div_eq_div_iff (by positivity) (by positivity)] at h1
    have : E0 * Real.pi = 0 := by linarith
    rcases mul_eq_zero.1 this with h | h
    · exact hE h
    · exact hp.ne' h
  · exact hg.ne' h1

/-- Owner of the first cell of an axis. -/
theorem owner_zero {N D r c : ℤ} (hN : 0 ≤ N) (hD : 0 < D) (hr : 0 ≤ r) (h0 : localStart N D r + c = 0) (hc : 0 ≤ c)
    (hs : c < localSize N D r) : r = 0 ∧ c = 0 := by
  have h1 := localStart_nonneg hN hD hr
  have hc0 : c = 0 := by omega
  refine ⟨?_, hc0⟩
  by_contra hne
  have h2 := localStart_mono (r := 1) (s := r) hN hD (by omega)
  have h3 := localStart_succ (r := 0) hN hD
  rw [zero_add, localStart_zero hN hD, zero_add] at h3
  rw [h3, localSize_eq hN hD] at h2
  rw [localSize_eq hN hD] at hs
  have h4 := Int.emod_nonneg N hD.ne'
  split at h2 <;> split at hs <;> omega

/-- What the one-dimensional Sedov setup writes in Cartesian geometry, on a regular mesh with two ghosts. -/
theorem sedov1d_writes (eos : SetupEos) (rho0 u0 E0 E1 : ℝ) (tr : Trig ℝ) {nx : Cell} (hN : 0 ≤ nx 0) (h1 : nx 1 = 1) (h2 : nx 2 = 1)
    (o h : Fin 3 → ℝ) (Gr : Cell → Fin 1 → ℝ) :
    InitialState (d := 1) (n := n) (fun _ => True) (fun q _ G _ => sedov1dInit eos .cartesian q rho0 u0 E0 E1 G) tr .cartesian nx 2
      (fun a i => o a + i * h a) Gr (fun C => ⟨rho0, fun _ => u0,
        if C 0 = 0 then eos.presFromTemp rho0 (eos.tempFromEvol rho0 (0.5 * E1 / (h 0 * h 1 * h 2)))
        else eos.presFromTemp rho0 (eos.tempFromEvol rho0 (E0 / (h 0 * h 1 * h 2))), 0⟩) := by
  have hNx : ∀ a, 0 ≤ nx a := by
    intro a; fin_cases a
    · exact hN
    · simp [h1]
    · simp [h2]
  refine initialState_of_kernel hNx (by norm_num) _ ?_
  intro dims rank topo g grav _ hdm hr hg c hc
  have hb : ∀ a, nghostOf 1 2 a ≤ c a ∧ c a < localSize (nx a) (dims a) (rank a) + nghostOf 1 2 a := fun a => by
    have := hc a
    simp only [localExt] at this
    omega
  have b0 := hb 0
  have b1 := hb 1
  have b2 := hb 2
  simp only [nghostOf, Fin.val_zero, Fin.val_one, Fin.val_two] at b0 b1 b2
  norm_num at b0 b1 b2
  have hin : inExt (localExt nx dims (nghostOf 1 2) rank) ![2, 0, 0] = true := by
    refine inExt_iff.2 fun a => ?_
    fin_cases a <;> simp [localExt, nghostOf] <;> omega
  have hd := (hg.cell hNx hdm hr hin).dv
  have hV : ∀ C, (globGrid (d := 1) tr .cartesian (fun a i => o a + i * h a) Gr).dv C = h 0 * h 1 * h 2 := by
    intro C
    simp only [globGrid, dvFun]
    push_cast
    ring
  rw [hV] at hd
  simp only [sedov1dInit, hd, Option.bind_eq_bind, Option.bind_some, if_true]
  have hiff : (cartRank dims rank = 0 ∧ c 0 = 2) ↔ globalOf nx dims (nghostOf 1 2) rank c 0 = 0 := by
    have hr0 := hr 0
    have hr1 := hr 1
    have hr2 := hr 2
    simp only [Pi.zero_apply] at hr0 hr1 hr2
    have o1 := owner_zero (N := nx 1) (D := dims 1) (r := rank 1) (c := c 1) (hNx 1) (hdm 1) hr1.1
    have o2 := owner_zero (N := nx 2) (D := dims 2) (r := rank 2) (c := c 2) (hNx 2) (hdm 2) hr2.1
    have e1 := localStart_add_size_le (hNx 1) (hdm 1) hr1.2
    have e2 := localStart_add_size_le (hNx 2) (hdm 2) hr2.2
    have s1 := localStart_nonneg (hNx 1) (hdm 1) hr1.1
    have s2 := localStart_nonneg (hNx 2) (hdm 2) hr2.1
    obtain ⟨r1, -⟩ := o1 (by omega) (by omega) (by omega)
    obtain ⟨r2, -⟩ := o2 (by omega) (by omega) (by omega)
    have hg0 : globalOf nx dims (nghostOf 1 2) rank c 0 = localStart (nx 0) (dims 0) (rank 0) + (c 0 - 2) := by
      simp only [globalOf, nghostOf, Fin.val_zero]; norm_num; ring
    rw [hg0, cartRank, r1, r2]
    constructor
    · rintro ⟨q1, q2⟩
      have : rank 0 = 0 := by
        have h3 : rank 0 * (dims 1 * dims 2) = 0 := by linarith
        rcases mul_eq_zero.1 h3 with q | q
        · exact q
        · exact absurd q (mul_pos (hdm 1) (hdm 2)).ne'
      rw [this, q2, localStart_zero (hNx 0) (hdm 0)]
      rfl
    · intro q
      obtain ⟨q1, q2⟩ := owner_zero (hNx 0) (hdm 0) hr0.1 q (by omega) (by omega)
      exact ⟨by rw [q1]; ring, by omega⟩
  simp only [hiff]
  rfl

/-- **C66, the part that holds for the one-dimensional Sedov explosion.** In Cartesian geometry on a regular mesh with two ghosts, the
initial state is the same on all process grids. The full statement is the same in every geometry, on every mesh and for every number
of ghosts; it is false, see `C66_sedov1d_violated`. -/
theorem C66_sedov1d_partial (eos : SetupEos) (rho0 u0 E0 E1 : ℝ) (tr : Trig ℝ) {nx : Cell} (hN : 0 ≤ nx 0) (h1 : nx 1 = 1) (h2 : nx 2 = 1)
    (o h : Fin 3 → ℝ) (Gr : Cell → Fin 1 → ℝ) :
    SameInitial (d := 1) (n := n) (fun q _ G _ => sedov1dInit eos .cartesian q rho0 u0 E0 E1 G) tr .cartesian nx 2
      (fun a i => o a + i * h a) Gr :=
  ⟨_, sedov1d_writes eos rho0 u0 E0 E1 tr hN h1 h2 o h Gr⟩

open Classical in
/-- What the three-dimensional Sedov setup writes in an interior cell of a rank. -/
theorem sedov3d_writes (eos : SetupEos) (rho0 P0 E1 : ℝ) {tr : Trig ℝ} {geom : Geom} {nx dims rank : Cell} {ng : ℤ} {X : Fin 3 → ℤ → ℝ}
    {Gr : Cell → Fin d → ℝ} {topo : GridTopo} {g : GridData ℝ} {grav : GravField d ℝ} (hN : ∀ a, 0 ≤ nx a) (hng : 0 ≤ ng)
    (hdm : ∀ a, 0 < dims a) (hr : inBox 0 dims rank) (hg : RankGrid tr geom nx dims ng X Gr rank topo g grav) {c : Cell}
    (hc : inBox (nghostOf d ng) (fun a => localExt nx dims (nghostOf d ng) rank a - nghostOf d ng a) c) :
    sedov3dKernel (d := d) (n := n) eos topo.nxGlob rho0 P0 E1 g c ⟨0, 0, 0, 0⟩ = some ⟨rho0, fun _ => 0,
      if X 0 (globalOf nx dims (nghostOf d ng) rank c 0 + nghostOf d ng 0) = 1 ∧ c 1 = (nx 1).tdiv 2 ∧ c 2 = (nx 2).tdiv 2 then
        eos.presFromEvol rho0 (E1 / (globGrid tr geom X Gr).dv (globalOf nx dims (nghostOf d ng) rank c + nghostOf d ng)) else P0, 0⟩ := by
  have hnx : topo.nxGlob = nx := by
    obtain ⟨t, ht, -, -, -, -, -, -, -, -, h9, -⟩ := GridTopo.mk?_ok (ndim := d) (ng := ng) hN hdm (fun a => (hr a).1)
    rw [hg.ok] at ht
    cases ht
    exact h9
  have hd := hg.cell hN hdm hr (rank_interior_inExt hng hc)
  simp only [sedov3dKernel, hd.x, hd.dv, hnx, Option.bind_eq_bind, Option.bind_some]
  split
  · rename_i hk
    rfl
  · rename_i hk
    rfl

/-- **C66, violated.** Three-dimensional Sedov explosion: the cell that receives the energy is chosen by comparing indices of the local
arrays, ghosts included, with the middle of the global domain. On a domain of 4 x 4 x 4 cells the cell (0, 2, 0) keeps the ambient pressure
on one process and receives the energy when the second direction is cut in two. -/
theorem C66_sedov3d_violated {g : Gas} (hm : 0 < g.mmw) {rho0 P0 E1 : ℝ} (hr : rho0 ≠ 0) (hP : 0 < P0)
    (hE : 5 * P0 < g.gammaM1 * E1) :
    ¬ SameInitial (d := 3) (n := n) (fun _ topo G _ => sedov3dKernel (PerfectGas.setupEos g) topo.nxGlob rho0 P0 E1 G)
      realTrig .spherical ![4, 4, 4] 2 ![fun i => i - 1, fun i => i / 8, fun i => i] (fun _ _ => 0) := by
  classical
  intro h
  obtain ⟨W, hW⟩ := h.value (by decide) (by norm_num)
  have key : ∀ dims rank, (∀ a, 0 < dims a) → inBox 0 dims rank → ∀ c,
      inBox (nghostOf 3 2) (fun a => localExt ![4, 4, 4] dims (nghostOf 3 2) rank a - nghostOf 3 2 a) c →
      W (globalOf ![4, 4, 4] dims (nghostOf 3 2) rank c) = _ := fun dims rank hdm hrk c hc => by
    obtain ⟨topo, G, hG, hT⟩ := hW dims rank hdm hrk
    exact (hT _ (fun c hc => sedov3d_writes _ _ _ _ (by decide) (by norm_num) hdm hrk hG hc) c hc).symm
  have h1 := congrArg InitCell.P (key 1 0 (by decide) (by decide) ![2, 4, 2] (by decide))
  have h2 := congrArg InitCell.P (key ![1, 2, 1] ![0, 1, 0] (by decide) (by decide) ![2, 2, 2] (by decide))
  have e1 : globalOf ![4, 4, 4] 1 (nghostOf 3 2) 0 ![2, 4, 2] = ![0, 2, 0] := by decide
  have e2 : globalOf ![4, 4, 4] ![1, 2, 1] (nghostOf 3 2) ![0, 1, 0] ![2, 2, 2] = ![0, 2, 0] := by decide
  have e3 : (![0, 2, 0] : Cell) + nghostOf 3 2 = ![2, 4, 2] := by decide
  have c1 : ¬ ((![2, 4, 2] : Cell) 1 = ((![4, 4, 4] : Cell) 1).tdiv 2) := by decide
  have c2 : (![2, 2, 2] : Cell) 1 = ((![4, 4, 4] : Cell) 1).tdiv 2 ∧ (![2, 2, 2] : Cell) 2 = ((![4, 4, 4] : Cell) 2).tdiv 2 := by decide
  rw [e1] at h1
  rw [e2, e3] at h2
  rw [h1, if_neg (fun h => c1 h.2.1), if_pos ⟨by norm_num [nghostOf], c2⟩] at h2
  simp only [PerfectGas.setupEos, PerfectGas.presFromEvol] at h2
  have hq := perfect_evol_temp hm hr (E1 / (globGrid (d := 3) realTrig .spherical
    ![fun i => (i : ℝ) - 1, fun i => (i : ℝ) / 8, fun i => (i : ℝ)] (fun _ _ => 0)).dv ![2, 4, 2])
  simp only [PerfectGas.setupEos] at hq
  rw [hq] at h2
  set V := (globGrid (d := 3) realTrig .spherical
    ![fun i => (i : ℝ) - 1, fun i => (i : ℝ) / 8, fun i => (i : ℝ)] (fun _ _ => 0)).dv ![2, 4, 2] with hV
  have hV5 : V ≤ 5 := by
    have e : V = 1 / 3 * ((((2 + 1 : ℤ) : ℝ) - 1) * (((2 + 1 : ℤ) : ℝ) - 1) * (((2 + 1 : ℤ) : ℝ) - 1) -
        (((2 : ℤ) : ℝ) - 1) * (((2 : ℤ) : ℝ) - 1) * (((2 : ℤ) : ℝ) - 1)) *
        (Real.cos (((4 : ℤ) : ℝ) / 8) - Real.cos (((4 + 1 : ℤ) : ℝ) / 8)) * (((2 + 1 : ℤ) : ℝ) - ((2 : ℤ) : ℝ)) := rfl
    rw [e]
    norm_num
    have a1 := Real.cos_le_one (1 / 2)
    have a2 := Real.neg_one_le_cos (5 / 8)
    linarith
  have hV0 : V ≠ 0 := by
    intro h0
    rw [h0, div_zero, mul_zero] at h2
    linarith
  have : P0 * V = g.gammaM1 * E1 := by rw [h2]; field_simp
  nlinarith

/-- **C66, the part that holds for the three-dimensional Sedov explosion.** The initial state is the same on all process grids that
cut the first direction only. The full statement is the same for all process grids; it is false, see `C66_sedov3d_violated`. -/
theorem C66_sedov3d_partial (eos : SetupEos) (rho0 P0 E1 : ℝ) (tr : Trig ℝ) (geom : Geom) {nx : Cell} {ng : ℤ} (hN : ∀ a, 0 ≤ nx a)
    (hng : 0 ≤ ng) (X : Fin 3 → ℤ → ℝ) (Gr : Cell → Fin d → ℝ) :
    SameInitialOn (n := n) (fun dims => dims 1 = 1 ∧ dims 2 = 1)
      (fun _ topo G _ => sedov3dKernel eos topo.nxGlob rho0 P0 E1 G) tr geom nx ng X Gr := by
  classical
  refine sameInitial_of_kernel hN hng (fun C => ⟨rho0, fun _ => 0,
      if X 0 (C 0 + nghostOf d ng 0) = 1 ∧ C 1 + nghostOf d ng 1 = (nx 1).tdiv 2 ∧ C 2 + nghostOf d ng 2 = (nx 2).tdiv 2 then
        eos.presFromEvol rho0 (E1 / (globGrid tr geom X Gr).dv (C + nghostOf d ng)) else P0, 0⟩) ?_
  intro dims rank topo g grav hD hdm hr hg c hc
  refine (sedov3d_writes eos rho0 P0 E1 hN hng hdm hr hg hc).trans ?_
  have hs : ∀ a, dims a = 1 → globalOf nx dims (nghostOf d ng) rank c a + nghostOf d ng a = c a := by
    intro a ha
    have h0 := hr a
    rw [ha] at h0
    have : rank a = 0 := by simp only [Pi.zero_apply] at h0; omega
    simp only [globalOf, this, localStart_zero (hN a) (hdm a)]
    ring
  rw [← hs 1 hD.1, ← hs 2 hD.2]

/-! ### The hypotheses can be met -/

/-- The setup is one of those covered, the process grids 2 x 3 and 1 x 1 of a 8 x 6 domain both give a run from the implosion problem. -/
example (p : DistParams 2 1 ℝ) (hb : p.bcs = ![![.periodic, .periodic], ![.reflexive, .nullGradient]])
    (hpo : p.order = [some 2, some 0, some 3, some 1]) (X : Fin 3 → ℤ → ℝ) :
    ∃ (M M' : ℕ → Cell → RankMem 2 1 ℝ) (D D' : DistView (Fields 2 1 ℝ)), ∀ k,
      ∃ F F' hist, distRun p boxList (borderOf ![2, 3, 1]) (nghostOf 2 2) ![2, 3, 1]
          (fun _ _ _ _ => some (-1)) M D k = some (F, hist) ∧
        distRun p boxList (borderOf 1) (nghostOf 2 2) 1 (fun _ _ _ _ => some (-1)) M' D' k = some (F', hist) ∧
        F.val ![1, 2, 0] ![2, 3, 0] = F'.val 0 ![6, 7, 0] := by
  have hN : ∀ a, 0 ≤ (![8, 6, 1] : Cell) a := by decide
  have key : ∀ dims : Cell, (∀ a, 0 < dims a) →
      (∀ a : Fin 3, a.val < 2 → ∀ r, 0 ≤ r → r < dims a → 2 ≤ localSize ((![8, 6, 1] : Cell) a) (dims a) r) →
      ∃ M : ℕ → Cell → RankMem 2 1 ℝ, Decomposition p ![8, 6, 1] 2 X (fun _ _ _ => -1) dims boxList (fun _ _ _ _ => some (-1)) M := by
    intro dims hdm hsz
    have hex : ∀ r, ∃ m : RankMem 2 1 ℝ, inBox 0 dims r → RankOk p.tr p.geom ![8, 6, 1] dims 2 X r m := fun r => by
      by_cases hr : inBox 0 dims r
      · obtain ⟨m, hm⟩ := exists_rankOk (d := 2) (n := 1) p.tr p.geom hN hdm (by norm_num : (0 : ℤ) ≤ 2) hr X
        exact ⟨m, fun _ => hm⟩
      · obtain ⟨m, hm⟩ := exists_rankOk (d := 2) (n := 1) p.tr p.geom hN hdm (by norm_num : (0 : ℤ) ≤ 2) (rank := 0)
          (fun a => ⟨le_rfl, hdm a⟩) X
        exact ⟨m, fun h => absurd h hr⟩
    choose m hm using hex
    exact ⟨fun _ => m, hdm, hsz, fun b e => boxList_isSchedule b e, fun _ _ _ _ _ _ _ _ => rfl, fun _ r hr => hm r hr⟩
  obtain ⟨M, hM⟩ := key ![2, 3, 1] (by decide) (by
    intro a ha r h0 h1
    rw [localSize_eq (hN a) (lt_of_le_of_lt h0 h1)]
    fin_cases a
    · simp [not_lt.2 h0]
    · simp [not_lt.2 h0]
    · simp at ha)
  obtain ⟨M', hM'⟩ := key 1 (by decide) (by
    intro a ha r h0 h1
    rw [localSize_eq (hN a) (by simp)]
    fin_cases a
    · simp [not_lt.2 h0]
    · simp [not_lt.2 h0]
    · simp at ha)
  have hS := (C66_independent_2d (d := 2) (n := 1) (PerfectGas.setupEos ⟨1.4, 0.4, 1⟩) 1 0.125 0 1 0.14 1 0 0 0 0 0).1
  obtain ⟨⟨D, hD⟩, -⟩ := C66_run (by norm_num) hS hN (by norm_num) (by rw [hb]; decide) (order := [2, 0, 3, 1]) (by decide) hpo
    (Gr0 := fun _ _ => -1) hM hM'
  obtain ⟨⟨D', hD'⟩, -⟩ := C66_run (by norm_num) hS hN (by norm_num) (by rw [hb]; decide) (order := [2, 0, 3, 1]) (by decide) hpo
    (Gr0 := fun _ _ => -1) hM' hM
  refine ⟨M, M', D, D', fun k => ?_⟩
  obtain ⟨-, h⟩ := C66_run (by norm_num) hS hN (by norm_num) (by rw [hb]; decide) (order := [2, 0, 3, 1]) (by decide) hpo
    (Gr0 := fun _ _ => -1) hM hM'
  obtain ⟨F, F', hist, e1, e2, e3⟩ := h D D' hD hD' k
  exact ⟨F, F', hist, e1, e2, e3 _ _ _ _ (by decide) (by decide) (by decide) (by decide) (by decide)⟩

/-- The gas of the inputs, a strong explosion. -/
example : (0 : ℝ) < (⟨1.4, 0.4, 1⟩ : Gas).mmw ∧ (0 : ℝ) < (⟨1.4, 0.4, 1⟩ : Gas).gammaM1 ∧
    (5 : ℝ) * 1e-5 < (⟨1.4, 0.4, 1⟩ : Gas).gammaM1 * 1 := by norm_num

end Heracles

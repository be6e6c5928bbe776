import Verif.Model.Program
import Verif.Props.Distributed
import Verif.Props.PressureFix
import Verif.Props.Setup
import Verif.Props.Restart

/-!
# The program on all ranks follows a program on one global array
-/

namespace Heracles

variable {d n : ℕ}

/-! ### One global array -/

/-- Energy after the pressure fix, from arrays of the whole domain. -/
noncomputable def fixPure (eos : EoS ℝ) (G : PGrid d ℝ) (dt eps : ℝ) (U : Cell → Fields d n ℝ) (R : Cell → Fin 2 → Fin d → Fields d n ℝ)
    (q : Fields d n ℝ) (c : Cell) : ℝ :=
  if internal (U c) < eps * kinetic (U c) then
    pressureFixEnergy eos dt eps (U c) q (fun a => U (lindex a.val c)) (fun a => U (rindex a.val c)) (R c)
      (fun a => R (lindex a.val c)) (fun a => R (rindex a.val c)) (G.ds c) (fun a => G.ds (rindex a.val c)) (G.dv c)
  else q.E

/-- Heating by the user step. -/
noncomputable def heatVal (k : UserStepKind) (t dt : ℝ) (s : Fields d n ℝ) : Fields d n ℝ :=
  match k with
  | .heatNickel => if h : 0 < n then { s with E := s.E + s.fx ⟨0, h⟩ * s.rho * nickelEpsilon t * dt } else s
  | _ => s

/-- State of a cell after lines 427-477 of src/main.cpp. -/
noncomputable def progVal (p : ProgParams d n) (G : PGrid d ℝ) (t dt : ℝ) (U : Cell → Fields d n ℝ) (up : Cell → VelPres d ℝ) (c : Cell) :
    Fields d n ℝ :=
  let q := stepVal p.hydro.lim p.hydro.sol p.hydro.eos p.hydro.tr p.hydro.geom G dt U up c
  let R := recVal p.hydro.lim p.hydro.eos p.hydro.tr p.hydro.geom G (dt / 2) U up
  let q := match p.fix with
    | some eps => { q with E := fixPure p.hydro.eos G dt eps U R q c }
    | none => q
  heatVal p.step t dt q

theorem fixPure_shift (hd3 : d ≤ 3) (eos : EoS ℝ) {p G : PGrid d ℝ} (dt eps : ℝ) {U W : Cell → Fields d n ℝ}
    {R R' : Cell → Fin 2 → Fin d → Fields d n ℝ} (q : Fields d n ℝ) {c s : Cell}
    (hU : ∀ a : Fin d, ∀ t : ℤ, -1 ≤ t → t ≤ 1 → U (nb c (ax a) t) = W (nb c (ax a) t + s)) (hU0 : U c = W (c + s))
    (hR0 : R c = R' (c + s)) (hR : ∀ a : Fin d, ∀ t : ℤ, -1 ≤ t → t ≤ 1 → R (nb c (ax a) t) = R' (nb c (ax a) t + s))
    (hds0 : p.ds c = G.ds (c + s)) (hds : ∀ a : Fin d, p.ds (nb c (ax a) 1) = G.ds (nb c (ax a) 1 + s)) (hdv : p.dv c = G.dv (c + s)) :
    fixPure eos p dt eps U R q c = fixPure eos G dt eps W R' q (c + s) := by
  have em : ∀ (a : Fin d) c, lindex a.val c = nb c (ax a) (-1) := fun a c => lindex_eq hd3 a c
  have ep : ∀ (a : Fin d) c, rindex a.val c = nb c (ax a) 1 := fun a c => rindex_eq hd3 a c
  have u1 : ∀ a : Fin d, U (nb c (ax a) 1) = W (nb (c + s) (ax a) 1) := fun a => by
    rw [nb_add]; exact hU a 1 (by norm_num) (by norm_num)
  have u2 : ∀ a : Fin d, U (nb c (ax a) (-1)) = W (nb (c + s) (ax a) (-1)) := fun a => by
    rw [nb_add]; exact hU a (-1) (by norm_num) (by norm_num)
  have r1 : ∀ a : Fin d, R (nb c (ax a) 1) = R' (nb (c + s) (ax a) 1) := fun a => by
    rw [nb_add]; exact hR a 1 (by norm_num) (by norm_num)
  have r2 : ∀ a : Fin d, R (nb c (ax a) (-1)) = R' (nb (c + s) (ax a) (-1)) := fun a => by
    rw [nb_add]; exact hR a (-1) (by norm_num) (by norm_num)
  have d1 : ∀ a : Fin d, p.ds (nb c (ax a) 1) = G.ds (nb (c + s) (ax a) 1) := fun a => by
    rw [nb_add]; exact hds a
  unfold fixPure
  simp only [em, ep, hU0, u1, u2, r1, r2, d1, hR0, hds0, hdv]

section Step
variable {tr : Trig ℝ} {geom : Geom} {X : Fin 3 → ℤ → ℝ}

/-- An advance of a rank is an advance of the global array. -/
theorem progVal_shift (hd3 : d ≤ 3) (p : ProgParams d n) {P : PGrid d ℝ} {ext s : Cell}
    (hp : GeoOf p.hydro.tr p.hydro.geom ext P) (hx : ∀ a i, P.x a i = X a (i + s a)) {Gr : Cell → Fin d → ℝ}
    (hgr : ∀ c, inExt ext c = true → P.grav c = Gr (c + s)) (t dt : ℝ) {U W : Cell → Fields d n ℝ} {up UP : Cell → VelPres d ℝ}
    (hU : ∀ c, inExt ext c = true → U c = W (c + s)) (hup : ∀ c, inExt ext c = true → up c = UP (c + s)) {m : ℤ} (hm : 2 ≤ m)
    {c : Cell} (hc : layer d ext m c) :
    progVal p P t dt U up c = progVal p (globGrid p.hydro.tr p.hydro.geom X Gr) t dt W UP (c + s) := by
  have hs := stepVal_shift hd3 p.hydro.lim p.hydro.sol p.hydro.eos hp hx hgr dt hU hup hm hc
  obtain ⟨h1, h2, h3⟩ := geo_shift (Gr := Gr) hp hx
  unfold progVal
  rw [hs]
  cases p.fix with
  | none => rfl
  | some eps =>
    simp only
    have hrec : ∀ k, 1 ≤ k → ∀ e, layer d ext k e → recVal p.hydro.lim p.hydro.eos p.hydro.tr p.hydro.geom P (dt / 2) U up e =
        recVal p.hydro.lim p.hydro.eos p.hydro.tr p.hydro.geom (globGrid p.hydro.tr p.hydro.geom X Gr) (dt / 2) W UP (e + s) := by
      intro k hk e he
      have hst := layer_stencil hd3 he hk
      have hin := layer_inExt he (by omega)
      refine recVal_shift _ _ _ _ (dt / 2) ?_ ?_ ?_ ?_ ?_ ?_
      · intro a t t1 t2
        have := inExt_iff.1 (hst a t t1 t2) (ax a)
        rw [nb_self] at this
        rw [h1 (ax a) _ this.1 this.2, add_right_comm]
      · exact fun a t t1 t2 => hU _ (hst a t t1 t2)
      · exact fun a t t1 t2 => hup _ (hst a t t1 t2)
      · exact fun a => dirGeo_shift hp hx a hin (hst a 1 (by norm_num) (by norm_num))
      · exact hgr e hin
      · exact h3 e hin
    have hst := layer_stencil hd3 hc (by omega)
    have hin := layer_inExt hc (by omega)
    rw [fixPure_shift hd3 p.hydro.eos dt eps _ (fun a t t1 t2 => hU _ (hst a t t1 t2)) (hU c hin) (hrec m (by omega) c hc)
      (fun a t t1 t2 => hrec (m - 1) (by omega) _ (layer_nb hd3 hc a t1 t2)) (h2 c hin)
      (fun a => h2 _ (hst a 1 (by norm_num) (by norm_num))) (h3 c hin)]

/-- Reconstruction, update, pressure fix and user step of a rank: no access out of bounds, the value of `progVal` in every interior cell. -/
theorem rankAdvance_eq (p : ProgParams d n) {grid : GridData ℝ} {m : ProgMem d n} {grav : GravField d ℝ} {ext : Cell} {P : PGrid d ℝ} {ng : ℤ}
    (h : StepOk grid grav ext P ng m.sc m.l m.l') (hfix : IsSchedule m.fixL (nghostOf d ng) (fun a => ext a - nghostOf d ng a))
    (hstep : IsSchedule m.stepL (nghostOf d ng) (fun a => ext a - nghostOf d ng a)) (hk : p.step = .heatNickel → 0 < n)
    (h1 : m.upRec.dom = inExt ext) (h2 : m.faces.dom = inExt ext) (h3 : m.new.dom = inExt ext) (t dt : ℝ)
    (U : Cell → Fields d n ℝ) (up : Cell → VelPres d ℝ) :
    ∃ v, rankAdvance p grid m grav t dt ⟨inExt ext, U⟩ ⟨inExt ext, up⟩ = some v ∧ v.dom = inExt ext ∧
      ∀ c, layer d ext ng c → v.val c = progVal p P t dt U up c := by
  have hng := h.ghosts
  have hrec := h.recon p.hydro.lim p.hydro.eos p.hydro.tr p.hydro.geom (dt / 2) U up m.upRec.val m.faces.val
  have hstp := h.step p.hydro.lim p.hydro.sol p.hydro.eos p.hydro.tr p.hydro.geom dt U up m.upRec.val m.faces.val m.new.val
  unfold hydroStep at hstp
  rw [hrec] at hstp
  simp only [Option.bind_eq_bind, Option.bind_some] at hstp
  rw [show (⟨inExt ext, m.upRec.val⟩ : FaceArr d (VelPres d ℝ)) = m.upRec by rw [← h1],
    show (⟨inExt ext, m.faces.val⟩ : FaceArr d (Fields d n ℝ)) = m.faces by rw [← h2]] at hrec
  rw [show (⟨inExt ext, m.new.val⟩ : View Cell (Fields d n ℝ)) = m.new by rw [← h3]] at hstp
  unfold rankAdvance
  rw [hrec]
  simp only [Option.bind_eq_bind, Option.bind_some]
  rw [hstp]
  simp only [Option.bind_some]
  have hmid : ∃ v : View Cell (Fields d n ℝ), fixIfOn p grid m dt ⟨inExt ext, U⟩ ⟨inExt ext, fun c => if layer d ext (ng - 1) c then
          recVal p.hydro.lim p.hydro.eos p.hydro.tr p.hydro.geom P (dt / 2) U up c else m.faces.val c⟩ ⟨inExt ext, fun c => if layer d ext ng c then
          stepVal p.hydro.lim p.hydro.sol p.hydro.eos p.hydro.tr p.hydro.geom P dt U up c else m.new.val c⟩ = some v ∧ v.dom = inExt ext ∧
      ∀ c, layer d ext ng c → v.val c = progVal { p with step := .off } P t dt U up c := by
    unfold fixIfOn progVal heatVal
    cases p.fix with
    | none => exact ⟨_, rfl, rfl, fun c hc => if_pos hc⟩
    | some eps =>
      have em : ∀ (a : Fin d) c, lindex a.val c = nb c (ax a) (-1) := fun a c => lindex_eq h.dim a c
      have ep : ∀ (a : Fin d) c, rindex a.val c = nb c (ax a) 1 := fun a c => rindex_eq h.dim a c
      have hbox : ∀ c, inBox (nghostOf d ng) (fun a => ext a - nghostOf d ng a) c ↔ layer d ext ng c := fun c => Iff.rfl
      have hin : ∀ c, layer d ext ng c → inExt ext c = true := fun c hc => layer_inExt hc (by omega)
      have hst : ∀ c, layer d ext ng c → StencilIn d ext c := fun c hc => layer_stencil h.dim hc (by omega)
      refine ⟨_, pressureFix_eq p.hydro.eos grid dt eps (b := nghostOf d ng) (e := fun a => ext a - nghostOf d ng a) ⟨hfix, fun c hc => hin c hc,
        fun c hc => ⟨hin c hc, hin c hc, by rw [h.fits.ds]; exact hin c hc, by rw [h.fits.dv]; exact hin c hc⟩,
        fun c hc a => ?_, fun c hc a => ?_⟩, rfl, fun c hc => ?_⟩
      · rw [em]; exact ⟨hst c hc a (-1) (by norm_num) (by norm_num), hst c hc a (-1) (by norm_num) (by norm_num)⟩
      · rw [ep]
        refine ⟨hst c hc a 1 (by norm_num) (by norm_num), hst c hc a 1 (by norm_num) (by norm_num), ?_⟩
        rw [h.fits.ds]; exact hst c hc a 1 (by norm_num) (by norm_num)
      · refine (if_pos hc).trans ?_
        simp only [if_pos hc]
        have r0 : layer d ext (ng - 1) c := layer_mono hc (by omega)
        have r1 : ∀ a : Fin d, layer d ext (ng - 1) (nb c (ax a) 1) := fun a => layer_nb h.dim hc a (by norm_num) (by norm_num)
        have r2 : ∀ a : Fin d, layer d ext (ng - 1) (nb c (ax a) (-1)) := fun a => layer_nb h.dim hc a (by norm_num) (by norm_num)
        unfold fixVal fixPure
        simp only [em, ep, if_pos r0, if_pos (r1 _), if_pos (r2 _), h.fits.ds, h.fits.dv]
  obtain ⟨v, hv1, hv2, hv3⟩ := hmid
  rw [hv1]
  simp only [Option.bind_some]
  have hoff : ∀ c, progVal p P t dt U up c = heatVal p.step t dt (progVal { p with step := .off } P t dt U up c) := fun c => rfl
  unfold userStepExecute
  cases hs : p.step with
  | off => exact ⟨v, rfl, hv2, fun c hc => by rw [hoff, hs]; exact hv3 c hc⟩
  | userDefined => exact ⟨v, rfl, hv2, fun c hc => by rw [hoff, hs]; exact hv3 c hc⟩
  | heatNickel =>
    have hn := hk hs
    refine ⟨_, parFor_update m.stepL hstep.1 v _ (fun c => heatVal .heatNickel t dt (v.val c)) (fun c hc w hw hwv => ?_), hv2, fun c hc => ?_⟩
    · have hin : w.dom c = true := by rw [hw, hv2]; exact layer_inExt (m := ng) ((hstep.2 c).1 hc) (by omega)
      rw [View.rd_of_dom hin, hwv c (Or.inr rfl)]
      simp only [Option.bind_eq_bind, Option.bind_some, dif_pos hn, heatVal]
      exact View.wr_of_dom hin
    · simp only [if_pos ((hstep.2 c).2 hc), hoff, hs, hv3 c hc]

end Step

/-! ### What is asked of a process grid -/

/-- Memory and loop orders of a rank in one iteration (`RankOk` without the grid). -/
structure MemFits (nx dims : Cell) (ng : ℤ) (rank : Cell) (m : ProgMem d n) : Prop where
  conv : IsSchedule m.conv 0 (localExt nx dims (nghostOf d ng) rank)
  parts : IsPartition m.parts 0 (localExt nx dims (nghostOf d ng) rank)
  sc : m.sc.Ok (nghostOf d (ng - 1)) (fun a => localExt nx dims (nghostOf d ng) rank a - nghostOf d (ng - 1) a)
  l : IsSchedule m.l (nghostOf d ng) (fun a => localExt nx dims (nghostOf d ng) rank a - nghostOf d ng a)
  l' : IsSchedule m.l' (nghostOf d ng) (fun a => localExt nx dims (nghostOf d ng) rank a - nghostOf d ng a)
  fixL : IsSchedule m.fixL (nghostOf d ng) (fun a => localExt nx dims (nghostOf d ng) rank a - nghostOf d ng a)
  stepL : IsSchedule m.stepL (nghostOf d ng) (fun a => localExt nx dims (nghostOf d ng) rank a - nghostOf d ng a)
  eparts : IsPartition m.eparts (nghostOf d ng) (fun a => localExt nx dims (nghostOf d ng) rank a - nghostOf d ng a)
  tempL : IsSchedule m.tempL 0 (localExt nx dims (nghostOf d ng) rank)
  up : m.up.dom = inExt (localExt nx dims (nghostOf d ng) rank)
  upRec : m.upRec.dom = inExt (localExt nx dims (nghostOf d ng) rank)
  faces : m.faces.dom = inExt (localExt nx dims (nghostOf d ng) rank)
  new : m.new.dom = inExt (localExt nx dims (nghostOf d ng) rank)
  T : m.T.dom = inExt (localExt nx dims (nghostOf d ng) rank)

/-- A process grid on which each rank owns at least `ng` cells in every active direction, the ranks have built their `Grid`, all loops
traverse their ranges in some order, all ranks write, and the gravity of each rank is its part of the field `Gr W` of the global array. -/
structure MachineOk (nx : Cell) (ng : ℤ) (Gr : (Cell → Fields d n ℝ) → Cell → Fin d → ℝ) (A : Machine d n) : Prop where
  pos : ∀ a, 0 < A.dims a
  size : ∀ a : Fin 3, a.val < d → ∀ r, 0 ≤ r → r < A.dims a → ng ≤ localSize (nx a) (A.dims a) r
  order : ∀ b e, IsSchedule (A.sched b e) b e
  topo : ∀ r, inBox 0 A.dims r → GridTopo.mk? d nx A.dims r ng = .ok (A.topo r)
  gridL1 : ∀ r, inBox 0 A.dims r → ∀ a, IsLineSchedule (A.gridL1 r a) ((A.topo r).nxLocalWg a)
  gridL : ∀ r, inBox 0 A.dims r → ∃ rg, (A.topo r).range.allGhosts = .ok rg ∧ IsSchedule (A.gridL r) (rg.cellBegin d) (rg.cellEnd d) ∧
    IsSchedule (A.gridL' r) (rg.cellBegin d) (rg.cellEnd d)
  consL : ∀ r, inBox 0 A.dims r → IsSchedule (A.consL r) (nghostOf d ng) (fun a => localExt nx A.dims (nghostOf d ng) r a - nghostOf d ng a)
  writers : ∀ r, r ∈ A.writers ↔ inBox 0 A.dims r
  force : ∀ W D, HoldsAll nx A.dims (nghostOf d ng) W D → ∀ rank, inBox 0 A.dims rank →
    ∀ c, inExt (localExt nx A.dims (nghostOf d ng) rank) c = true → ∀ a, A.grav D rank c a = some (Gr W (c + startCell nx A.dims rank) a)
  mem : ∀ i r, inBox 0 A.dims r → MemFits nx A.dims ng r (A.mem i r)

/-- The layout of C43. -/
def MachineOk.layout {nx : Cell} {ng : ℤ} {Gr : (Cell → Fields d n ℝ) → Cell → Fin d → ℝ} {A : Machine d n} (h : MachineOk nx ng Gr A) :
    Layout d nx ng where
  dims := A.dims
  topo := A.topo
  pos := h.pos
  ok := h.topo

/-- The grid of every rank is what `set_grid` computes from the nodes `X`. -/
def GridsOk (p : ProgParams d n) (nx : Cell) (ng : ℤ) (X : Fin 3 → ℤ → ℝ) (A : Machine d n) (grid : Cell → GridData ℝ) : Prop :=
  ∀ r, inBox 0 A.dims r → setGrid p.hydro.tr p.hydro.geom d (A.topo r) (A.gridL1 r) (A.gridL r) (A.gridL' r)
    (fun a => View.line (nx a + 2 * nghostOf d ng a + 1) (X a)) (GridData.alloc (A.topo r).nxLocalWg) = some (grid r)

section Pieces
variable {p : ProgParams d n} {nx : Cell} {ng : ℤ} {X : Fin 3 → ℤ → ℝ} {Gr : (Cell → Fields d n ℝ) → Cell → Fin d → ℝ} {A : Machine d n}

theorem MachineOk.fields (h : MachineOk nx ng Gr A) (hN : ∀ a, 0 ≤ nx a) {r : Cell} (hr : inBox 0 A.dims r) :
    (A.topo r).nghost = nghostOf d ng ∧ (A.topo r).nxLocalWg = localExt nx A.dims (nghostOf d ng) r :=
  (h.layout.fields hN hr).2.2

theorem progGrids_ok (h : MachineOk nx ng Gr A) (hN : ∀ a, 0 ≤ nx a) :
    ∃ g, progGrids p A (fun a => View.line (nx a + 2 * nghostOf d ng a + 1) (X a)) = some g ∧ GridsOk p nx ng X A g := by
  have key : ∀ r, inBox 0 A.dims r → ∃ g, setGrid p.hydro.tr p.hydro.geom d (A.topo r) (A.gridL1 r) (A.gridL r) (A.gridL' r)
      (fun a => View.line (nx a + 2 * nghostOf d ng a + 1) (X a)) (GridData.alloc (A.topo r).nxLocalWg) = some g := by
    intro r hr
    obtain ⟨rg, h1, h2, h3⟩ := h.gridL r hr
    obtain ⟨g, hg, -⟩ := setGrid_spec p.hydro.tr p.hydro.geom hN h.pos hr (h.topo r hr) (h.gridL1 r hr) h1 h2 h3 X
    rw [(h.fields hN hr).1] at hg
    exact ⟨g, hg⟩
  haveI : Nonempty (GridData ℝ) := ⟨GridData.alloc 0⟩
  choose! g hg using key
  obtain ⟨v, hv, hv'⟩ := allRanks_some (dims := A.dims) (dflt := fun r => GridData.alloc (A.topo r).nxLocalWg) hg
  exact ⟨v, hv, fun r hr => by rw [hg r hr, hv' r hr]⟩

/-- The memory of a rank together with the grid of the run. -/
theorem MachineOk.rankOk (h : MachineOk nx ng Gr A) (hN : ∀ a, 0 ≤ nx a) {grid : Cell → GridData ℝ} (hg : GridsOk p nx ng X A grid) (i : ℕ)
    {r : Cell} (hr : inBox 0 A.dims r) :
    RankOk p.hydro.tr p.hydro.geom nx A.dims ng X r { (A.mem i r).toRankMem with grid := grid r } := by
  have m := h.mem i r hr
  obtain ⟨rg, h1, h2, h3⟩ := h.gridL r hr
  refine ⟨⟨A.topo r, A.gridL1 r, rg, A.gridL r, A.gridL' r, h.topo r hr, h.gridL1 r hr, h1, h2, h3, ?_⟩, m.conv, m.parts, m.sc, m.l, m.l',
    m.up, m.upRec, m.faces, m.new⟩
  rw [(h.fields hN hr).1]
  exact hg r hr

theorem progPrims_ok (h : MachineOk nx ng Gr A) (i : ℕ) {W : Cell → Fields d n ℝ} {D : DistView (Fields d n ℝ)}
    (hD : HoldsAll nx A.dims (nghostOf d ng) W D) :
    ∃ up, progPrims p A (A.mem i) D = some up ∧ ∀ r, inBox 0 A.dims r → (up r).dom = inExt (localExt nx A.dims (nghostOf d ng) r) ∧
      ∀ c, inExt (localExt nx A.dims (nghostOf d ng) r) c = true → (up r).val c = primGlob p.hydro.eos W (c + startCell nx A.dims r) := by
  have hconv : ∀ r, inBox 0 A.dims r → ∃ v : View Cell (VelPres d ℝ), convConsToPrim p.hydro.eos (A.mem i r).conv
      ((D.local r).comp Fields.rho) ((D.local r).comp fun s => { rhou := s.rhou, E := s.E }) (A.mem i r).up = some v ∧
      v.dom = inExt (localExt nx A.dims (nghostOf d ng) r) ∧ ∀ c, inExt (localExt nx A.dims (nghostOf d ng) r) c = true →
        v.val c = primGlob p.hydro.eos W (c + startCell nx A.dims r) := by
    intro r hr
    have hm := h.mem i r hr
    have hloc : D.local r = ⟨inExt (localExt nx A.dims (nghostOf d ng) r), D.val r⟩ := by unfold DistView.local; rw [hD.ext r hr]
    obtain ⟨v, h1, h2, h3, _⟩ := C15_cons_to_prim p.hydro.eos hm.conv ((D.local r).comp Fields.rho)
      ((D.local r).comp fun s => { rhou := s.rhou, E := s.E }) (A.mem i r).up (by
        intro c hc
        have : inExt (localExt nx A.dims (nghostOf d ng) r) c = true := inExt_iff.2 hc
        rw [hloc]
        exact ⟨this, this, by rw [hm.up]; exact this⟩)
    refine ⟨v, h1, by rw [h2, hm.up], fun c hc => ?_⟩
    rw [h3 c (inExt_iff.1 hc), hloc]
    simp only [View.comp, hD.val r hr c hc]
    rfl
  haveI : Nonempty (View Cell (VelPres d ℝ)) := ⟨(A.mem i 0).up⟩
  choose! v0 hv1 hv2 hv3 using hconv
  obtain ⟨up, hup, hup'⟩ := allRanks_some (dims := A.dims) (dflt := fun r => (A.mem i r).up) hv1
  exact ⟨up, hup, fun r hr => by rw [hup' r hr]; exact ⟨hv2 r hr, hv3 r hr⟩⟩

theorem local_eq {dims : Cell} {W : Cell → Fields d n ℝ} {D : DistView (Fields d n ℝ)} (hD : HoldsAll nx dims (nghostOf d ng) W D) {r : Cell}
    (hr : inBox 0 dims r) : D.local r = ⟨inExt (localExt nx dims (nghostOf d ng) r), D.val r⟩ := by
  unfold DistView.local; rw [hD.ext r hr]

theorem ranks_ne_nil (hdm : ∀ a, 0 < A.dims a) : boxList 0 A.dims ≠ [] := by
  intro hnil
  have h0 : (0 : Cell) ∈ boxList 0 A.dims := ((boxList_isSchedule 0 A.dims).2 0).2 fun a => ⟨le_rfl, hdm a⟩
  rw [hnil] at h0
  simp at h0

theorem timeStep_ok (hd3 : d ≤ 3) (h : MachineOk nx ng Gr A) (hN : ∀ a, 0 ≤ nx a) (hng : 0 < ng) (i : ℕ) {W : Cell → Fields d n ℝ}
    {D : DistView (Fields d n ℝ)} (hD : HoldsAll nx A.dims (nghostOf d ng) W D) {up : Cell → View Cell (VelPres d ℝ)}
    (hup : ∀ r, inBox 0 A.dims r → (up r).dom = inExt (localExt nx A.dims (nghostOf d ng) r) ∧
      ∀ c, inExt (localExt nx A.dims (nghostOf d ng) r) c = true → (up r).val c = primGlob p.hydro.eos W (c + startCell nx A.dims r))
    {grid : Cell → GridData ℝ} (hg : GridsOk p nx ng X A grid) :
    ∃ m, timeStep p.hydro.lo p.hydro.eos p.hydro.tr p.hydro.geom (boxList 0 A.dims) (fun r => (A.mem i r).parts) grid
        (fun r => (D.local r).comp Fields.rho) up = some (1 / m) ∧
      IsRate p.hydro.lo p.hydro.eos p.hydro.tr p.hydro.geom nx (nghostOf d ng) X W m := by
  have hfit := fun r hr => (h.rankOk hN hg i hr).fits hN h.pos hr (grav := A.grav D r)
    (G := fun c => Gr W (c + startCell nx A.dims r)) (h.force W D hD r hr)
  have hfit1 := fun r hr => (hfit r hr).1
  haveI : Nonempty (PGrid d ℝ) := ⟨globGrid p.hydro.tr p.hydro.geom X (Gr W)⟩
  choose! P hP1 hP2 hP3 hP4 using hfit1
  have hmemr : ∀ r, r ∈ boxList 0 A.dims ↔ inBox 0 A.dims r := (boxList_isSchedule 0 A.dims).2
  set E := fun r => localExt nx A.dims (nghostOf d ng) r with hE
  obtain ⟨m, hm1, hm2, hm3, hm4⟩ := timeStep_max (lo := p.hydro.lo) p.hydro.eos p.hydro.tr p.hydro.geom hd3 (ranks := boxList 0 A.dims)
    (parts := fun r => (A.mem i r).parts) (g := grid) (rho := fun r => (D.local r).comp Fields.rho) (up := up)
    (D := fun r => { ext := E r, dx := (P r).dx
                     xc := fun a i => if 0 ≤ i ∧ i < E r a then
                        (X a (i + startCell nx A.dims r a) + X a (i + startCell nx A.dims r a + 1)) / 2 else 0
                     rho := fun c => (D.val r c).rho, up := (up r).val })
    (fun r hr => by
      have hr' := (hmemr r).1 hr
      refine ⟨(hP1 r hr').dx, (hfit r hr').2, by rw [local_eq hD hr']; rfl, ?_⟩
      rw [← (hup r hr').1])
    (fun r hr c hc => inExt_iff.2 (((h.mem i r ((hmemr r).1 hr)).parts.2 c).1 hc)) (ranks_ne_nil h.pos)
  have hrate : ∀ r, inBox 0 A.dims r → ∀ c, inExt (E r) c = true →
      (RankData.mk (E r) (P r).dx (fun a i => if 0 ≤ i ∧ i < E r a then
          (X a (i + startCell nx A.dims r a) + X a (i + startCell nx A.dims r a + 1)) / 2 else 0)
        (fun c => (D.val r c).rho) (up r).val).rate p.hydro.eos p.hydro.tr p.hydro.geom c =
      (globRank p.hydro.eos nx (nghostOf d ng) X W).rate p.hydro.eos p.hydro.tr p.hydro.geom (c + startCell nx A.dims r) := by
    intro r hr c hc
    have hci := inExt_iff.1 hc
    obtain ⟨g1, _, _⟩ := geo_shift (Gr := Gr W) (hP2 r hr) (hP4 r hr)
    have gd : (fun a : Fin 3 => (P r).dx a (c a)) =
        fun a => X a (c a + startCell nx A.dims r a + 1) - X a (c a + startCell nx A.dims r a) :=
      funext fun a => g1 a (c a) (hci a).1 (hci a).2
    unfold RankData.rate globRank
    simp only [gd, if_pos (hci 0), if_pos (hci 1), (hup r hr).2 c hc, hD.val r hr c hc, Pi.add_apply]
  refine ⟨m, hm1, hm2, fun C hC => ?_, ?_⟩
  · obtain ⟨r, c, hr, hc, rfl⟩ := exists_local hN h.pos hng h.size hC
    rw [← hrate r hr c hc]
    exact hm3 r ((hmemr r).2 hr) c (((h.mem i r hr).parts.2 c).2 (inExt_iff.1 hc))
  · rcases hm4 with e | ⟨r, hr, c, hc, e⟩
    · exact Or.inl e
    · have hr' := (hmemr r).1 hr
      have hc' : inExt (E r) c = true := inExt_iff.2 (((h.mem i r hr').parts.2 c).1 hc)
      exact Or.inr ⟨c + startCell nx A.dims r, inExt_shift hN h.pos hr' hc', by rw [e]; exact hrate r hr' c hc'⟩

/-! ### The test on the internal energy -/

theorem kmin_real (a b x : ℝ) : kmin a b < x ↔ a < x ∨ b < x := by
  unfold kmin
  split
  · exact ⟨Or.inr, fun h => h.elim (fun h => lt_trans ‹_› h) id⟩
  · exact ⟨Or.inl, fun h => h.elim id (fun h => lt_of_le_of_lt (not_lt.1 ‹_›) h)⟩

theorem foldl_kmin {ι : Type} (l : List ι) (g : ι → ℝ) (e x : ℝ) :
    l.foldl (fun s i => kmin s (g i)) e < x ↔ e < x ∨ ∃ i ∈ l, g i < x := by
  induction l generalizing e with
  | nil => simp
  | cons i l ih => rw [List.foldl_cons, ih, kmin_real]; simp [or_assoc]

theorem evolOps_real (rho : ℝ) (rhou : Fin d → ℝ) (E : ℝ) :
    evolOps realOps rho rhou E = E - (∑ i, rhou i ^ 2) / (2 * rho) := by
  have hs : ∀ (l : List (Fin d)) (s : ℝ), l.foldl (fun s i => realOps.add s (realOps.mul (rhou i) (rhou i))) s =
      s + (l.map fun i => rhou i ^ 2).sum := by
    intro l
    induction l with
    | nil => simp
    | cons i l ih => intro s; rw [List.foldl_cons, ih]; simp [realOps]; ring
  unfold evolOps
  rw [hs]
  have : ((List.finRange d).map fun i => rhou i ^ 2).sum = ∑ i, rhou i ^ 2 := by
    rw [← List.ofFn_eq_map, List.sum_ofFn]
  rw [this]
  simp only [realOps, zero_add, div_div, mul_comm]

theorem energyTest_ok (h : MachineOk nx ng Gr A) (hN : ∀ a, 0 ≤ nx a) (hng : 0 ≤ ng) (i : ℕ) {W : Cell → Fields d n ℝ}
    {D : DistView (Fields d n ℝ)} (hD : HoldsAll nx A.dims (nghostOf d ng) W D) (htop : 0 ≤ p.top) :
    ∃ e, minInternalEnergy realOps p.top (boxList 0 A.dims) (fun r => (A.mem i r).eparts)
        (fun r => (D.local r).comp fun s => (s.rho, s.rhou, s.E)) = some e ∧
      (e < 0 ↔ ∃ g, inBox 0 nx g ∧ internal (W (g + nghostOf d ng)) < 0) := by
  have hmemr : ∀ r, r ∈ boxList 0 A.dims ↔ inBox 0 A.dims r := (boxList_isSchedule 0 A.dims).2
  have hlay : ∀ r, inBox 0 A.dims r → ∀ c, c ∈ (A.mem i r).eparts.flatten ↔ layer d (localExt nx A.dims (nghostOf d ng) r) ng c :=
    fun r hr c => (h.mem i r hr).eparts.2 c
  set v := fun r => (fun c => evolOps realOps (D.val r c).rho (D.val r c).rhou (D.val r c).E) with hv
  have h1 : ∀ r ∈ boxList 0 A.dims, parReduce p.top kmin (A.mem i r).eparts (fun c s => do
      let x ← ((D.local r).comp fun s => (s.rho, s.rhou, s.E)).rd c
      return kmin s (evolOps realOps x.1 x.2.1 x.2.2)) =
      some (((A.mem i r).eparts.map fun l => l.foldl (fun s c => kmin s (v r c)) p.top).foldl kmin p.top) := by
    intro r hr
    have hr' := (hmemr r).1 hr
    rw [local_eq hD hr']
    exact parReduce_eq (op := fun s (x : ℝ × (Fin d → ℝ) × ℝ) => kmin s (evolOps realOps x.1 x.2.1 x.2.2))
      (g := fun c => ((D.val r c).rho, (D.val r c).rhou, (D.val r c).E))
      fun c hc => View.rd_of_dom (v := View.comp ⟨inExt (localExt nx A.dims (nghostOf d ng) r), D.val r⟩ fun s => (s.rho, s.rhou, s.E))
        (layer_inExt ((hlay r hr' c).1 hc) hng)
  have h2 : ∀ r x, ((A.mem i r).eparts.map fun l => l.foldl (fun s c => kmin s (v r c)) p.top).foldl kmin p.top < x ↔
      p.top < x ∨ ∃ c ∈ (A.mem i r).eparts.flatten, v r c < x := by
    intro r x
    have := foldl_kmin ((A.mem i r).eparts.map fun l => l.foldl (fun s c => kmin s (v r c)) p.top) id p.top x
    simp only [id] at this
    rw [this]
    constructor
    · rintro (h | ⟨y, hy, h⟩)
      · exact Or.inl h
      · obtain ⟨l, hl, rfl⟩ := List.mem_map.1 hy
        rcases (foldl_kmin l _ _ _).1 h with h | ⟨c, hc, h⟩
        · exact Or.inl h
        · exact Or.inr ⟨c, List.mem_flatten.2 ⟨l, hl, hc⟩, h⟩
    · rintro (h | ⟨c, hc, h⟩)
      · exact Or.inl h
      · obtain ⟨l, hl, hcl⟩ := List.mem_flatten.1 hc
        exact Or.inr ⟨_, List.mem_map.2 ⟨l, hl, rfl⟩, (foldl_kmin l _ _ _).2 (Or.inr ⟨c, hcl, h⟩)⟩
  unfold minInternalEnergy
  rw [mapM_some _ h1]
  simp only [Option.bind_eq_bind, Option.bind_some]
  obtain ⟨r0, rs, hrs⟩ : ∃ r0 rs, boxList 0 A.dims = r0 :: rs := List.exists_cons_of_ne_nil (ranks_ne_nil h.pos)
  rw [hrs, List.map_cons]
  refine ⟨_, rfl, ?_⟩
  have h3 := foldl_kmin (rs.map fun r => ((A.mem i r).eparts.map fun l => l.foldl (fun s c => kmin s (v r c)) p.top).foldl kmin p.top) id
    (((A.mem i r0).eparts.map fun l => l.foldl (fun s c => kmin s (v r0 c)) p.top).foldl kmin p.top) 0
  simp only [id] at h3
  rw [h3]
  have key : ∀ r, inBox 0 A.dims r → ∀ c, layer d (localExt nx A.dims (nghostOf d ng) r) ng c →
      v r c = internal (W (c + startCell nx A.dims r)) := by
    intro r hr c hc
    simp only [hv, evolOps_real, hD.val r hr c (layer_inExt hc hng), internal, kinetic]
  constructor
  · intro hh
    obtain ⟨r, hr, hlt⟩ : ∃ r ∈ boxList 0 A.dims,
        ((A.mem i r).eparts.map fun l => l.foldl (fun s c => kmin s (v r c)) p.top).foldl kmin p.top < 0 := by
      rw [hrs]
      rcases hh with hh | ⟨y, hy, hh⟩
      · exact ⟨r0, by simp, hh⟩
      · obtain ⟨r, hr, rfl⟩ := List.mem_map.1 hy
        exact ⟨r, by simp [hr], hh⟩
    rcases (h2 r 0).1 hlt with hh | ⟨c, hc, hh⟩
    · exact absurd hh (not_lt.2 htop)
    · have hr' := (hmemr r).1 hr
      have hl := (hlay r hr' c).1 hc
      rw [key r hr' c hl] at hh
      refine ⟨globalOf nx A.dims (nghostOf d ng) r c, ?_, ?_⟩
      · intro a
        have h1 := localStart_nonneg (r := r a) (hN a) (h.pos a) (hr' a).1
        have h2 := localStart_add_size_le (r := r a) (hN a) (h.pos a) (hr' a).2
        have h3 := hl a
        simp only [localExt] at h3
        simp only [globalOf, Pi.zero_apply]
        omega
      · have e : globalOf nx A.dims (nghostOf d ng) r c + nghostOf d ng = c + startCell nx A.dims r := by
          funext a; simp only [globalOf, Pi.add_apply, startCell]; ring
        rw [e]; exact hh
  · rintro ⟨g, hg, hh⟩
    have ho := fun a => exists_owner (hN a) (h.pos a) (hg a).1 (hg a).2
    choose r k0 k1 k2 k3 using ho
    have hr : inBox 0 A.dims r := fun a => ⟨k0 a, k1 a⟩
    set c : Cell := fun a => g a - localStart (nx a) (A.dims a) (r a) + nghostOf d ng a with hc
    have hl : layer d (localExt nx A.dims (nghostOf d ng) r) ng c := by
      intro a
      have := k2 a
      have := k3 a
      simp only [hc, localExt]
      omega
    have e : c + startCell nx A.dims r = g + nghostOf d ng := by
      funext a; simp only [hc, Pi.add_apply, startCell]; ring
    have hlt := (h2 r 0).2 (Or.inr ⟨c, (hlay r hr c).2 hl, by rw [key r hr c hl, e]; exact hh⟩)
    have hm := (hmemr r).2 hr
    rw [hrs] at hm
    rcases List.mem_cons.1 hm with rfl | hm
    · exact Or.inl hlt
    · exact Or.inr ⟨_, List.mem_map.2 ⟨r, hm, rfl⟩, hlt⟩

end Pieces

/-! ### Files -/

/-- A dataset that holds the field `G`. -/
def Dataset (nx : Cell) (v : View (List ℤ) ℝ) (G : Cell → ℝ) : Prop :=
  v.dom = datasetDom [nx 2, nx 1, nx 0] ∧ ∀ g, inBox 0 nx g → v.val (dataIndex g) = G g

/-- A file that holds the global array `W`. -/
structure FileOf (p : ProgParams d n) (nx : Cell) (ng : ℤ) (X : Fin 3 → ℤ → ℝ) (W : Cell → Fields d n ℝ) (f : FluidFile d n) : Prop where
  rho : Dataset nx f.rho fun g => (W (g + nghostOf d ng)).rho
  u : ∀ l, Dataset nx (f.u l) fun g => (primGlob p.hydro.eos W (g + nghostOf d ng)).u l
  P : Dataset nx f.P fun g => (primGlob p.hydro.eos W (g + nghostOf d ng)).P
  E : Dataset nx f.E fun g => (W (g + nghostOf d ng)).E
  T : Dataset nx f.T fun g => p.temp (W (g + nghostOf d ng)).rho (primGlob p.hydro.eos W (g + nghostOf d ng)).P
  fx : ∀ l, Dataset nx (f.fx l) fun g => (W (g + nghostOf d ng)).fx l
  nAxis : f.nAxis = fun a => nx a + 2 * nghostOf d ng a + 1
  x : f.x = X

theorem flat_val {ext c : Cell} (L : ℤ) (f : Cell → ℤ → ℝ) (hc : ∀ a, 0 ≤ c a ∧ c a < ext a) (l : ℤ) :
    (flat ext L f).val (offsetLeft ext c l) = f c l := by
  have e0 : offsetLeft ext c l % ext 0 = c 0 := by
    unfold offsetLeft
    rw [Int.add_mul_emod_self_left, Int.emod_eq_of_lt (hc 0).1 (hc 0).2]
  have e1 : offsetLeft ext c l / ext 0 = c 1 + ext 1 * (c 2 + ext 2 * l) := by
    unfold offsetLeft
    have := hc 0
    rw [Int.add_mul_ediv_left _ _ (by omega), Int.ediv_eq_zero_of_lt (hc 0).1 (hc 0).2, zero_add]
  have e2 : (c 1 + ext 1 * (c 2 + ext 2 * l)) % ext 1 = c 1 := by
    rw [Int.add_mul_emod_self_left, Int.emod_eq_of_lt (hc 1).1 (hc 1).2]
  have e3 : (c 1 + ext 1 * (c 2 + ext 2 * l)) / ext 1 = c 2 + ext 2 * l := by
    have := hc 1
    rw [Int.add_mul_ediv_left _ _ (by omega), Int.ediv_eq_zero_of_lt (hc 1).1 (hc 1).2, zero_add]
  have e4 : (c 2 + ext 2 * l) % ext 2 = c 2 := by
    rw [Int.add_mul_emod_self_left, Int.emod_eq_of_lt (hc 2).1 (hc 2).2]
  have e5 : (c 2 + ext 2 * l) / ext 2 = l := by
    have := hc 2
    rw [Int.add_mul_ediv_left _ _ (by omega), Int.ediv_eq_zero_of_lt (hc 2).1 (hc 2).2, zero_add]
  show f ![_, _, _] _ = _
  rw [e0, e1, e2, e3, e4, e5]
  congr 1
  funext a
  fin_cases a <;> rfl

theorem comp_val {m : ℕ} (v : Fin m → ℝ) (l : Fin m) : comp v (l.val : ℤ) = v l := by
  simp [comp]

section Files
variable {p : ProgParams d n} {nx : Cell} {ng : ℤ} {X : Fin 3 → ℤ → ℝ} {Gr : (Cell → Fields d n ℝ) → Cell → Fin d → ℝ} {A : Machine d n}

theorem global_add (nx dims nghost r c : Cell) : globalOf nx dims nghost r c + nghost = c + startCell nx dims r := by
  funext a; simp only [globalOf, Pi.add_apply, startCell]; ring

theorem interior_layer (h : MachineOk nx ng Gr A) {r c : Cell} :
    Interior h.layout r c ↔ layer d (localExt nx A.dims (nghostOf d ng) r) ng c := by
  constructor
  · intro hc a
    have := hc a
    simp only [MachineOk.layout] at this
    simp only [localExt]
    omega
  · intro hc a
    have := hc a
    simp only [localExt] at this
    simp only [MachineOk.layout]
    omega

theorem write_ok (h : MachineOk nx ng Gr A) (hN : ∀ a, 0 ≤ nx a) (hng : 0 ≤ ng) {lead comp' : List ℤ} {L l : ℤ}
    (hs : Shape lead comp' L l) {D : DistView (Fields d n ℝ)} (hext : ∀ r, inBox 0 A.dims r → D.ext r = localExt nx A.dims (nghostOf d ng) r)
    (f : Cell → Cell → ℤ → ℝ) (G : Cell → ℝ)
    (hf : ∀ r, inBox 0 A.dims r → ∀ c, inExt (localExt nx A.dims (nghostOf d ng) r) c = true → f r c l = G (c + startCell nx A.dims r)) :
    ∃ w, writeField lead comp' A.topo A.writers (fun r => flat (D.ext r) L (f r)) (newDataset nx 0) = some w ∧
      Dataset nx w fun g => G (g + nghostOf d ng) := by
  refine C43_written hs h.layout hN hng A.writers h.writers _ (fun r hr => ?_) 0 (fun g => G (g + nghostOf d ng)) fun r hr c hc => ?_
  · rw [hext r hr]; rfl
  · have hin : ∀ a, 0 ≤ c a ∧ c a < localExt nx A.dims (nghostOf d ng) r a := interior_inExt hng hc
    show (flat (D.ext r) L (f r)).val (offsetLeft (localExt nx A.dims (nghostOf d ng) r) c l) = G (globalOf nx A.dims (nghostOf d ng) r c + nghostOf d ng)
    rw [hext r hr, flat_val L (f r) hin l, global_add]
    exact hf r hr c (inExt_iff.2 hin)

theorem progOutput_ok (h : MachineOk nx ng Gr A) (hN : ∀ a, 0 ≤ nx a) (hng : 0 ≤ ng) (i : ℕ) {W : Cell → Fields d n ℝ}
    {D : DistView (Fields d n ℝ)} (hD : HoldsAll nx A.dims (nghostOf d ng) W D) {up : Cell → View Cell (VelPres d ℝ)}
    (hup : ∀ r, inBox 0 A.dims r → (up r).dom = inExt (localExt nx A.dims (nghostOf d ng) r) ∧
      ∀ c, inExt (localExt nx A.dims (nghostOf d ng) r) c = true → (up r).val c = primGlob p.hydro.eos W (c + startCell nx A.dims r))
    {s : LoopState (DistView (Fields d n ℝ)) ℝ} (hs : s.h = D) :
    ∃ f, progOutput p nx A (A.mem i) (fun a => nx a + 2 * nghostOf d ng a + 1) X up s = some (s.withFluid f) ∧ FileOf p nx ng X W f := by
  subst hs
  have hT : ∀ r, inBox 0 A.dims r → ∃ T, temperature p.temp (A.mem i r).tempL ((s.h.local r).comp Fields.rho) ((up r).comp VelPres.P)
      (A.mem i r).T = some T ∧ ∀ c, inExt (localExt nx A.dims (nghostOf d ng) r) c = true →
        T.val c = p.temp (W (c + startCell nx A.dims r)).rho (primGlob p.hydro.eos W (c + startCell nx A.dims r)).P := by
    intro r hr
    have hm := h.mem i r hr
    have hin : ∀ c, c ∈ (A.mem i r).tempL ↔ inExt (localExt nx A.dims (nghostOf d ng) r) c = true :=
      fun c => (hm.tempL.2 c).trans inExt_iff.symm
    refine ⟨_, parFor_update (A.mem i r).tempL hm.tempL.1 (A.mem i r).T _
      (fun c => p.temp (W (c + startCell nx A.dims r)).rho (primGlob p.hydro.eos W (c + startCell nx A.dims r)).P) (fun c hc w hw _ => ?_),
      fun c hc => if_pos ((hin c).2 hc)⟩
    have hc' := (hin c).1 hc
    rw [local_eq hD hr]
    have r1 : (View.comp (⟨inExt (localExt nx A.dims (nghostOf d ng) r), s.h.val r⟩ : View Cell (Fields d n ℝ)) Fields.rho).rd c =
        some (W (c + startCell nx A.dims r)).rho := by
      rw [View.rd_of_dom (by exact hc')]
      simp only [View.comp, hD.val r hr c hc']
    have r2 : ((up r).comp VelPres.P).rd c = some (primGlob p.hydro.eos W (c + startCell nx A.dims r)).P := by
      rw [View.rd_of_dom (by simp only [View.comp, (hup r hr).1]; exact hc')]
      simp only [View.comp, (hup r hr).2 c hc']
    rw [r1, r2]
    simp only [Option.bind_eq_bind, Option.bind_some]
    exact View.wr_of_dom (by rw [hw, hm.T]; exact hc')
  haveI : Nonempty (View Cell ℝ) := ⟨(A.mem i 0).T⟩
  choose! T0 hT1 hT2 using hT
  obtain ⟨T, hT, hT'⟩ := allRanks_some (dims := A.dims) (dflt := fun r => (A.mem i r).T) hT1
  have s0 : Shape [] [] 1 0 := Or.inl ⟨rfl, rfl, rfl, rfl⟩
  have sl : ∀ {m : ℕ} (l : Fin m), Shape [(m : ℤ)] [(l.val : ℤ)] m l.val := fun {m} l => Or.inr ⟨rfl, rfl, by have := l.isLt; omega⟩
  obtain ⟨rho, a1, b1⟩ := write_ok h hN hng s0 hD.ext (fun r c _ => (s.h.val r c).rho) (fun C => (W C).rho)
    fun r hr c hc => by simp only [hD.val r hr c hc]
  obtain ⟨P, a2, b2⟩ := write_ok h hN hng s0 hD.ext (fun r c _ => ((up r).val c).P) (fun C => (primGlob p.hydro.eos W C).P)
    fun r hr c hc => by simp only [(hup r hr).2 c hc]
  obtain ⟨E, a3, b3⟩ := write_ok h hN hng s0 hD.ext (fun r c _ => (s.h.val r c).E) (fun C => (W C).E)
    fun r hr c hc => by simp only [hD.val r hr c hc]
  obtain ⟨T', a4, b4⟩ := write_ok h hN hng s0 hD.ext (fun r c _ => (T r).val c)
    (fun C => p.temp (W C).rho (primGlob p.hydro.eos W C).P) fun r hr c hc => by simp only [hT' r hr, hT2 r hr c hc]
  have hu := fun l : Fin d => write_ok h hN hng (sl l) hD.ext (fun r c => comp ((up r).val c).u) (fun C => (primGlob p.hydro.eos W C).u l)
    fun r hr c hc => by rw [comp_val, (hup r hr).2 c hc]
  have hfx := fun l : Fin n => write_ok h hN hng (sl l) hD.ext (fun r c => comp (s.h.val r c).fx) (fun C => (W C).fx l)
    fun r hr c hc => by rw [comp_val, hD.val r hr c hc]
  choose u a5 b5 using hu
  choose fx a6 b6 using hfx
  refine ⟨⟨rho, u, P, E, T', fx, _, X⟩, ?_, ⟨b1, b5, b2, b3, b4, b6, rfl, rfl⟩⟩
  unfold progOutput writeFluid
  rw [hT]
  simp only [Option.bind_eq_bind, Option.bind_some]
  rw [a1, a2, a3, a4, seqFin_some a5, seqFin_some a6]
  rfl

/-- The components of a vector read one after the other. -/
theorem read_comps {m : ℕ} (h : MachineOk nx ng Gr A) (hN : ∀ a, 0 ≤ nx a) (hng : 0 ≤ ng) {r : Cell} (hr : inBox 0 A.dims r)
    {F : Fin m → View (List ℤ) ℝ} {G : Fin m → Cell → ℝ} (hF : ∀ l, Dataset nx (F l) (G l)) (ls : List (Fin m)) {mem : View ℤ ℝ}
    (hm : MemOk h.layout m r mem) :
    ∃ w, parFor ls (fun l mem => readField [(m : ℤ)] [(l.val : ℤ)] (A.topo r) (F l) mem) mem = some w ∧ MemOk h.layout m r w ∧
      ∀ l c, Interior h.layout r c → (l ∈ ls ∨ elem h.layout r mem c l.val = G l (globalOf nx A.dims (nghostOf d ng) r c)) →
        elem h.layout r w c l.val = G l (globalOf nx A.dims (nghostOf d ng) r c) := by
  induction ls generalizing mem with
  | nil => exact ⟨mem, rfl, hm, fun l c _ h => h.elim (fun h => by simp at h) id⟩
  | cons k ls ih =>
    have sl : Shape [(m : ℤ)] [(k.val : ℤ)] m k.val := Or.inr ⟨rfl, rfl, by have := k.isLt; omega⟩
    obtain ⟨w, k1, k2, k3, k4⟩ := h5Read_spec sl h.layout hN hng hr hm (hF k).1
    obtain ⟨w', q1, q2, q3⟩ := ih (mem := w) (by unfold MemOk at hm ⊢; rw [k2, hm]; rfl)
    refine ⟨w', ?_, q2, fun l c hc hor => q3 l c hc ?_⟩
    · rw [parFor_cons]
      exact (congrArg (fun o => Option.bind o _) k1).trans q1
    · by_cases hl : l ∈ ls
      · exact Or.inl hl
      · right
        by_cases hk : l = k
        · subst hk
          rw [k3 c hc]
          exact (hF l).2 _ (interior_global hN hr hc)
        · have h0 : elem h.layout r mem c l.val = G l (globalOf nx A.dims (nghostOf d ng) r c) := by
            rcases hor with hor | hor
            · rcases List.mem_cons.1 hor with e | e
              · exact absurd e hk
              · exact absurd e hl
            · exact hor
          rw [← h0]
          refine k4 _ fun c' hc' e => hk ?_
          have := (offset_inj (interior_inExt hng hc') (interior_inExt hng hc) e).2
          exact Fin.ext (by omega)

/-- The fields read by a rank. -/
theorem readFluid_ok (h : MachineOk nx ng Gr A) (hN : ∀ a, 0 ≤ nx a) (hng : 0 ≤ ng) {r : Cell} (hr : inBox 0 A.dims r)
    {W : Cell → Fields d n ℝ} {f : FluidFile d n} (hf : FileOf p nx ng X W f) :
    ∃ v, readFluid (A.topo r) f = some v ∧ v.1.dom = inExt (localExt nx A.dims (nghostOf d ng) r) ∧
      v.2.dom = inExt (localExt nx A.dims (nghostOf d ng) r) ∧
      ∀ c, layer d (localExt nx A.dims (nghostOf d ng) r) ng c →
        (v.1.val c).rho = (W (c + startCell nx A.dims r)).rho ∧ (v.1.val c).fx = (W (c + startCell nx A.dims r)).fx ∧
        v.2.val c = primGlob p.hydro.eos W (c + startCell nx A.dims r) := by
  have hext := (h.fields hN hr).2
  have s0 : Shape [] [] 1 0 := Or.inl ⟨rfl, rfl, rfl, rfl⟩
  have m0 : ∀ L, MemOk h.layout L r (flat (localExt nx A.dims (nghostOf d ng) r) L fun _ _ => 0) := fun L => rfl
  obtain ⟨rho, a1, -, a3, -⟩ := h5Read_spec s0 h.layout hN hng hr (m0 1) hf.rho.1
  obtain ⟨P, b1, -, b3, -⟩ := h5Read_spec s0 h.layout hN hng hr (m0 1) hf.P.1
  obtain ⟨u, c1, -, c3⟩ := read_comps h hN hng hr hf.u (List.finRange d) (m0 d)
  obtain ⟨fx, e1, -, e3⟩ := read_comps h hN hng hr hf.fx (List.finRange n) (m0 n)
  have a1' : readField [] [] (A.topo r) f.rho (flat (localExt nx A.dims (nghostOf d ng) r) 1 fun _ _ => 0) = some rho := a1
  have b1' : readField [] [] (A.topo r) f.P (flat (localExt nx A.dims (nghostOf d ng) r) 1 fun _ _ => 0) = some P := b1
  unfold readFluid
  simp only [hext, Option.bind_eq_bind]
  rw [a1', c1, b1', e1]
  refine ⟨_, rfl, rfl, rfl, fun c hc => ?_⟩
  have hi := (interior_layer h).2 hc
  have hg := interior_global (Y := h.layout) hN hr hi
  have ea := global_add nx A.dims (nghostOf d ng) r c
  refine ⟨?_, ?_, ?_⟩
  · refine (a3 c hi).trans ?_
    rw [hf.rho.2 _ hg]
    exact congrArg (fun C => (W C).rho) ea
  · funext l
    refine (e3 l c hi (Or.inl (List.mem_finRange l))).trans ?_
    exact congrArg (fun C => (W C).fx l) ea
  · refine VelPres.ext (funext fun l => ?_) ?_
    · refine (c3 l c hi (Or.inl (List.mem_finRange l))).trans ?_
      exact congrArg (fun C => (primGlob p.hydro.eos W C).u l) ea
    · refine (b3 c hi).trans ?_
      rw [hf.P.2 _ hg]
      exact congrArg (fun C => (primGlob p.hydro.eos W C).P) ea

/-- The conserved fields of primitive variables. -/
noncomputable def consFields (eos : EoS ℝ) (s : Prim d ℝ) (fx : Fin n → ℝ) : Fields d n ℝ :=
  ⟨s.rho, (toCons eos s).rhou, (toCons eos s).E, fx⟩

theorem progConserved_ok (hd3 : d ≤ 3) (h : MachineOk nx ng Gr A) (hN : ∀ a, 0 ≤ nx a) (hng : 0 < ng)
    (hb : ∀ a f, p.hydro.bcs a f ≠ .userDefined) {order : List ℕ} (ho : ∀ id ∈ order, id < 2 * d) (hpo : p.hydro.order = order.map some)
    {U : Cell → View Cell (Fields d n ℝ)} {up : Cell → View Cell (VelPres d ℝ)}
    (hU : ∀ r, inBox 0 A.dims r → (U r).dom = inExt (localExt nx A.dims (nghostOf d ng) r))
    (hup : ∀ r, inBox 0 A.dims r → (up r).dom = inExt (localExt nx A.dims (nghostOf d ng) r)) (S : Cell → Prim d ℝ) (Fx : Cell → Fin n → ℝ)
    (hS : ∀ r, inBox 0 A.dims r → ∀ c, layer d (localExt nx A.dims (nghostOf d ng) r) ng c →
      ((U r).val c).rho = (S (globalOf nx A.dims (nghostOf d ng) r c)).rho ∧ ((U r).val c).fx = Fx (globalOf nx A.dims (nghostOf d ng) r c) ∧
      (up r).val c = ⟨(S (globalOf nx A.dims (nghostOf d ng) r c)).u, (S (globalOf nx A.dims (nghostOf d ng) r c)).P⟩) :
    ∃ D, progConserved p (nghostOf d ng) (borderOf A.dims) A U up = some D ∧ HoldsAll nx A.dims (nghostOf d ng)
      (bcGlob p.hydro.bcs nx (nghostOf d ng) order fun g => consFields p.hydro.eos (S g) (Fx g)) D := by
  have hme : ∀ r, inBox 0 A.dims r → ∃ me, convPrimToCons p.hydro.eos (A.consL r) ((U r).comp Fields.rho) (up r)
      ((U r).comp fun s => ({ rhou := s.rhou, E := s.E } : MomEn d ℝ)) = some me ∧
      ∀ c, layer d (localExt nx A.dims (nghostOf d ng) r) ng c → me.val c =
        ⟨(toCons p.hydro.eos (S (globalOf nx A.dims (nghostOf d ng) r c))).rhou, (toCons p.hydro.eos (S (globalOf nx A.dims (nghostOf d ng) r c))).E⟩ := by
    intro r hr
    have hl := h.consL r hr
    refine ⟨_, parFor_update (A.consL r) hl.1 _ _ (fun c => MomEn.mk (toCons p.hydro.eos (Prim.mk ((U r).val c).rho ((up r).val c).u ((up r).val c).P)).rhou
      (toCons p.hydro.eos (Prim.mk ((U r).val c).rho ((up r).val c).u ((up r).val c).P)).E) (fun c hc w hw _ => ?_), fun c hc => ?_⟩
    · have hin : inExt (localExt nx A.dims (nghostOf d ng) r) c = true := layer_inExt (m := ng) ((hl.2 c).1 hc) hng.le
      rw [View.rd_of_dom (v := (U r).comp Fields.rho) (by simp only [View.comp, hU r hr]; exact hin),
        View.rd_of_dom (v := up r) (by rw [hup r hr]; exact hin)]
      simp only [Option.bind_eq_bind, Option.bind_some]
      exact View.wr_of_dom (by rw [hw]; simp only [View.comp, hU r hr]; exact hin)
    · obtain ⟨e1, -, e3⟩ := hS r hr c hc
      simp only [if_pos ((hl.2 c).2 hc), e1, e3]
  haveI : Nonempty (View Cell (MomEn d ℝ)) := ⟨⟨fun _ => false, fun _ => ⟨0, 0⟩⟩⟩
  choose! me0 m1 m2 using hme
  obtain ⟨me, hm, hm'⟩ := allRanks_some (dims := A.dims) (dflt := fun r => (U r).comp fun s => ({ rhou := s.rhou, E := s.E } : MomEn d ℝ)) m1
  obtain ⟨D, hD, hH⟩ := distBcs_holds hd3 hN h.pos hng h.size p.hydro.user h.order hb ho (fun g => consFields p.hydro.eos (S g) (Fx g))
    ⟨fun r => (A.topo r).nxLocalWg, fun r c => { (U r).val c with rhou := ((me r).val c).rhou, E := ((me r).val c).E }⟩
    (fun r hr => (h.fields hN hr).2) (by
      intro r hr c hc
      have hc' : layer d (localExt nx A.dims (nghostOf d ng) r) ng c := by
        have : inBox (nghostOf d ng) (fun a => (A.topo r).nxLocalWg a - nghostOf d ng a) c := hc
        rw [(h.fields hN hr).2] at this
        exact this
      obtain ⟨e1, e2, e3⟩ := hS r hr c hc'
      show Fields.mk _ _ _ _ = _
      rw [hm' r hr, m2 r hr c hc', e1, e2]
      rfl)
  refine ⟨D, ?_, hH⟩
  unfold progConserved
  rw [hm]
  simp only [Option.bind_eq_bind, Option.bind_some]
  rw [hpo]
  exact hD

end Files

/-! ### The program on the global array -/

section Glob

/-- The hydrodynamics of the global array, as seen by the loop. -/
noncomputable def globHydro (p : ProgParams d n) (nx : Cell) (ng : ℤ) (X : Fin 3 → ℤ → ℝ) (Gr : (Cell → Fields d n ℝ) → Cell → Fin d → ℝ)
    (order : List ℕ) : Hydro (Cell → Fields d n ℝ) ℝ where
  timeStep := fun W => by
    classical exact if h : ∃ m, IsRate p.hydro.lo p.hydro.eos p.hydro.tr p.hydro.geom nx (nghostOf d ng) X W m then 1 / h.choose else 0
  bad := fun W => by classical exact decide (∃ g, inBox 0 nx g ∧ internal (W (g + nghostOf d ng)) < 0)
  advance := fun W t dt => bcGlob p.hydro.bcs nx (nghostOf d ng) order fun g =>
    progVal p (globGrid p.hydro.tr p.hydro.geom X (Gr W)) t dt W (primGlob p.hydro.eos W) (g + nghostOf d ng)

/-- The state of the program on a process grid represents the state `g` of the run of the global array. -/
structure Follows (p : ProgParams d n) (nx : Cell) (ng : ℤ) (X : Fin 3 → ℤ → ℝ) (A : Machine d n) (z : ProgState d n)
    (g : RunState (Cell → Fields d n ℝ) ℝ) : Prop where
  grid : GridsOk p nx ng X A z.grid
  nAxis : z.nAxis = fun a => nx a + 2 * nghostOf d ng a + 1
  x : z.x = X
  h : HoldsAll nx A.dims (nghostOf d ng) g.s.h z.s.h
  s : z.s.withFluid () = g.s.withFluid ()
  files : List.Forall₂ (fun f o => FileOf p nx ng X o.h f.h ∧ f.withFluid () = o.withFluid ()) z.files g.outs
  status : z.status = g.status

theorem decideStep_fluid {H H' : Type} (p : LoopParams ℝ) (dt0 : ℝ) (clock : Bool) {s : LoopState H ℝ} {s' : LoopState H' ℝ}
    (h : s.withFluid () = s'.withFluid ()) : decideStep p dt0 clock s = decideStep p dt0 clock s' := by
  cases s
  cases s'
  simp only [LoopState.withFluid, LoopState.mk.injEq, true_and] at h
  obtain ⟨rfl, rfl, rfl, rfl, rfl⟩ := h
  rfl

theorem withFluid_eq {H H' : Type} {s : LoopState H ℝ} {s' : LoopState H' ℝ} (h : s.withFluid () = s'.withFluid ()) :
    s.t = s'.t ∧ s.iter = s'.iter ∧ s.outputId = s'.outputId ∧ s.iterId = s'.iterId ∧ s.timeId = s'.timeId := by
  simpa only [LoopState.withFluid, LoopState.mk.injEq, true_and] using h

/-- What is asked of the choices of a run: boundary conditions that are not those of a setup, in some order of the faces; a species to
heat if the heating is on; a non-negative identity of the minimum. -/
structure ParamsOk (p : ProgParams d n) (order : List ℕ) : Prop where
  bcs : ∀ a f, p.hydro.bcs a f ≠ .userDefined
  ids : ∀ id ∈ order, id < 2 * d
  order : p.hydro.order = order.map some
  heat : p.step = .heatNickel → 0 < n
  top : 0 ≤ p.top

variable {p : ProgParams d n} {nx : Cell} {ng : ℤ} {X : Fin 3 → ℤ → ℝ} {Gr : (Cell → Fields d n ℝ) → Cell → Fin d → ℝ} {A : Machine d n}
  {order : List ℕ}

theorem globHydro_timeStep {W : Cell → Fields d n ℝ} {m : ℝ}
    (h : IsRate p.hydro.lo p.hydro.eos p.hydro.tr p.hydro.geom nx (nghostOf d ng) X W m) :
    (globHydro p nx ng X Gr order).timeStep W = 1 / m := by
  have hex : ∃ m, IsRate p.hydro.lo p.hydro.eos p.hydro.tr p.hydro.geom nx (nghostOf d ng) X W m := ⟨m, h⟩
  refine (dif_pos hex).trans ?_
  rw [hex.choose_spec.unique h]

theorem globHydro_bad {W : Cell → Fields d n ℝ} :
    (globHydro p nx ng X Gr order).bad W = true ↔ ∃ g, inBox 0 nx g ∧ internal (W (g + nghostOf d ng)) < 0 := by
  simp only [globHydro, decide_eq_true_eq]

/-- Lines 427-479 of src/main.cpp on all ranks. -/
theorem progAdvance_ok (hd3 : d ≤ 3) (hN : ∀ a, 0 ≤ nx a) (hng : 2 ≤ ng) (hp : ParamsOk p order) (h : MachineOk nx ng Gr A) (i : ℕ)
    {W : Cell → Fields d n ℝ} {D : DistView (Fields d n ℝ)} (hD : HoldsAll nx A.dims (nghostOf d ng) W D) {up : Cell → View Cell (VelPres d ℝ)}
    (hup : ∀ r, inBox 0 A.dims r → (up r).dom = inExt (localExt nx A.dims (nghostOf d ng) r) ∧
      ∀ c, inExt (localExt nx A.dims (nghostOf d ng) r) c = true → (up r).val c = primGlob p.hydro.eos W (c + startCell nx A.dims r))
    {grid : Cell → GridData ℝ} (hg : GridsOk p nx ng X A grid) (t dt : ℝ) :
    ∃ new D', allRanks A.dims (fun r => rankAdvance p (grid r) (A.mem i r) (A.grav D r) t dt (D.local r) (up r)) (fun r => (A.mem i r).new) = some new ∧
      distBcs p.hydro.user A.sched p.hydro.bcs (borderOf A.dims) (nghostOf d ng) A.dims p.hydro.order ⟨D.ext, fun r => (new r).val⟩ = some D' ∧
      HoldsAll nx A.dims (nghostOf d ng) ((globHydro p nx ng X Gr order).advance W t dt) D' := by
  have hfit1 := fun r hr => ((h.rankOk hN hg i hr).fits hN h.pos hr (grav := A.grav D r)
    (G := fun c => Gr W (c + startCell nx A.dims r)) (h.force W D hD r hr)).1
  haveI : Nonempty (PGrid d ℝ) := ⟨globGrid p.hydro.tr p.hydro.geom X (Gr W)⟩
  choose! P hP1 hP2 hP3 hP4 using hfit1
  have hadv : ∀ r, inBox 0 A.dims r → ∃ v, rankAdvance p (grid r) (A.mem i r) (A.grav D r) t dt (D.local r) (up r) = some v ∧
      ∀ cl, layer d (localExt nx A.dims (nghostOf d ng) r) ng cl → v.val cl =
        progVal p (globGrid p.hydro.tr p.hydro.geom X (Gr W)) t dt W (primGlob p.hydro.eos W) (cl + startCell nx A.dims r) := by
    intro r hr
    have hm := h.mem i r hr
    have hok : StepOk (grid r) (A.grav D r) (localExt nx A.dims (nghostOf d ng) r) (P r) ng (A.mem i r).sc (A.mem i r).l (A.mem i r).l' :=
      ⟨hd3, hng, hP1 r hr, hm.sc, hm.l, hm.l'⟩
    obtain ⟨v, v1, -, v3⟩ := rankAdvance_eq p hok hm.fixL hm.stepL hp.heat hm.upRec hm.faces hm.new t dt (D.val r) (up r).val
    refine ⟨v, ?_, fun cl hcl => ?_⟩
    · rw [local_eq hD hr, ← v1]
      congr 1
      rw [← (hup r hr).1]
    · rw [v3 cl hcl]
      exact progVal_shift hd3 p (hP2 r hr) (hP4 r hr) (fun c hc => by rw [hP3 r hr]) t dt (fun c hc => hD.val r hr c hc)
        (hup r hr).2 hng hcl
  haveI : Nonempty (View Cell (Fields d n ℝ)) := ⟨⟨fun _ => false, fun _ => ⟨0, 0, 0, 0⟩⟩⟩
  choose! v0 hv1 hv2 using hadv
  obtain ⟨new, hnew, hnew'⟩ := allRanks_some (dims := A.dims) (dflt := fun r => (A.mem i r).new) hv1
  obtain ⟨D', hD', hH⟩ := distBcs_holds hd3 hN h.pos (by omega) h.size p.hydro.user h.order hp.bcs hp.ids
    (fun G => progVal p (globGrid p.hydro.tr p.hydro.geom X (Gr W)) t dt W (primGlob p.hydro.eos W) (G + nghostOf d ng))
    ⟨D.ext, fun r => (new r).val⟩ hD.ext (by
      intro r hr cl hcl
      have hcl' : layer d (localExt nx A.dims (nghostOf d ng) r) ng cl := by
        have : inBox (nghostOf d ng) (fun a => D.ext r a - nghostOf d ng a) cl := hcl
        rw [hD.ext r hr] at this
        exact this
      show (new r).val cl = _
      rw [hnew' r hr, hv2 r hr cl hcl', global_add])
  exact ⟨new, D', hnew, by rw [hp.order]; exact hD', hH⟩

theorem progStep_follows (hd3 : d ≤ 3) (hN : ∀ a, 0 ≤ nx a) (hng : 2 ≤ ng) (hp : ParamsOk p order) (h : MachineOk nx ng Gr A) (i : ℕ)
    (clock : Bool) {z : ProgState d n} {g : RunState (Cell → Fields d n ℝ) ℝ} (hz : Follows p nx ng X A z g) :
    ∃ z', progStep p nx (nghostOf d ng) (borderOf A.dims) A (A.mem i) clock z = some z' ∧
      Follows p nx ng X A z' (runStep p.loop (globHydro p nx ng X Gr order) clock g) := by
  unfold progStep runStep
  rw [hz.status]
  cases hst : g.status with
  | finished => exact ⟨z, rfl, hz⟩
  | failed => exact ⟨z, rfl, hz⟩
  | running =>
    simp only
    obtain ⟨up, e1, hup⟩ := progPrims_ok (p := p) h i hz.h
    obtain ⟨m, e2, hm⟩ := timeStep_ok hd3 h hN (by omega) i hz.h hup hz.grid
    obtain ⟨e, e3, he⟩ := energyTest_ok (p := p) h hN (by omega) i hz.h hp.top
    unfold iteration
    rw [e1, globHydro_timeStep hm]
    simp only [Option.bind_eq_bind, Option.bind_some]
    rw [e2]
    simp only [Option.bind_some]
    rw [decideStep_fluid p.loop (1 / m) clock hz.s]
    obtain ⟨w1, w2, w3, w4, w5⟩ := withFluid_eq hz.s
    cases hdec : decideStep p.loop (1 / m) clock g.s with
    | error msg => exact ⟨_, rfl, hz.grid, hz.nAxis, hz.x, hz.h, hz.s, hz.files, rfl⟩
    | ok c =>
      simp only
      rw [e3]
      simp only [Option.bind_some]
      by_cases hbad : e < 0
      · rw [if_pos hbad, if_pos (globHydro_bad.2 (he.1 hbad)), hz.nAxis, hz.x]
        obtain ⟨f, o1, o2⟩ := progOutput_ok (p := p) (X := X) h hN (by omega) i hz.h hup
          (s := { z.s with outputId := z.s.outputId + 1, iterId := c.iterId, timeId := c.timeId }) rfl
        rw [o1]
        refine ⟨_, rfl, hz.grid, rfl, rfl, hz.h, hz.s, ?_, rfl⟩
        refine List.rel_append hz.files (List.Forall₂.cons ⟨o2, ?_⟩ .nil)
        simp only [LoopState.withFluid, w1, w2, w3]
      · rw [if_neg hbad, if_neg (fun hb => hbad (he.2 (globHydro_bad.1 hb)))]
        obtain ⟨new, D', hnew, hD', hH⟩ := progAdvance_ok hd3 hN hng hp h i hz.h hup hz.grid z.s.t c.dt
        rw [hnew]
        simp only [Option.bind_some]
        rw [hD']
        simp only [Option.bind_some]
        have hH' : HoldsAll nx A.dims (nghostOf d ng) ((globHydro p nx ng X Gr order).advance g.s.h g.s.t c.dt) D' := by
          rw [← w1]; exact hH
        cases hout : c.makeOutput with
        | false =>
          refine ⟨_, rfl, hz.grid, hz.nAxis, hz.x, hH', ?_, hz.files, rfl⟩
          simp only [LoopState.withFluid, w1, w2, w3, Bool.false_eq_true, if_false]
        | true =>
          simp only [if_true]
          obtain ⟨up', f1, hup'⟩ := progPrims_ok (p := p) h i hH'
          rw [f1, hz.nAxis, hz.x]
          simp only [Option.bind_some]
          obtain ⟨f, o1, o2⟩ := progOutput_ok (p := p) (X := X) h hN (by omega) i hH' hup'
            (s := { h := D', t := z.s.t + c.dt, iter := z.s.iter + 1, outputId := z.s.outputId + 1, iterId := c.iterId, timeId := c.timeId }) rfl
          rw [o1]
          refine ⟨_, rfl, hz.grid, rfl, rfl, hH', ?_, ?_, rfl⟩
          · simp only [LoopState.withFluid, w1, w2, w3]
          · refine List.rel_append hz.files (List.Forall₂.cons ⟨o2, ?_⟩ .nil)
            simp only [LoopState.withFluid, w1, w2, w3]

theorem progRun_follows (hd3 : d ≤ 3) (hN : ∀ a, 0 ≤ nx a) (hng : 2 ≤ ng) (hp : ParamsOk p order) (h : MachineOk nx ng Gr A)
    (clock : ℕ → Bool) {z : Option (ProgState d n)} {z0 : ProgState d n} {g : RunState (Cell → Fields d n ℝ) ℝ} (hz0 : z = some z0)
    (hz : Follows p nx ng X A z0 g) (k : ℕ) :
    ∃ z', progRun p nx (nghostOf d ng) (borderOf A.dims) A clock z k = some z' ∧
      Follows p nx ng X A z' (runN p.loop (globHydro p nx ng X Gr order) clock g k) := by
  induction k with
  | zero => exact ⟨z0, hz0, hz⟩
  | succ k ih =>
    obtain ⟨z1, h1, h2⟩ := ih
    obtain ⟨z2, h3, h4⟩ := progStep_follows hd3 hN hng hp h k (clock k) h2
    refine ⟨z2, ?_, h4⟩
    unfold progRun
    rw [h1]
    exact h3

/-- What the initialisation leaves: arrays of the local extents whose interiors are the parts of the global primitive variables `S`, `Fx`. -/
structure InitOf (nx : Cell) (ng : ℤ) (A : Machine d n) (S : Cell → Prim d ℝ) (Fx : Cell → Fin n → ℝ)
    (U : Cell → View Cell (Fields d n ℝ)) (up : Cell → View Cell (VelPres d ℝ)) : Prop where
  domU : ∀ r, inBox 0 A.dims r → (U r).dom = inExt (localExt nx A.dims (nghostOf d ng) r)
  domUp : ∀ r, inBox 0 A.dims r → (up r).dom = inExt (localExt nx A.dims (nghostOf d ng) r)
  val : ∀ r, inBox 0 A.dims r → ∀ c, layer d (localExt nx A.dims (nghostOf d ng) r) ng c →
    ((U r).val c).rho = (S (globalOf nx A.dims (nghostOf d ng) r c)).rho ∧ ((U r).val c).fx = Fx (globalOf nx A.dims (nghostOf d ng) r c) ∧
    (up r).val c = ⟨(S (globalOf nx A.dims (nghostOf d ng) r c)).u, (S (globalOf nx A.dims (nghostOf d ng) r c)).P⟩

theorem progFresh_follows (hd3 : d ≤ 3) (hN : ∀ a, 0 ≤ nx a) (hng : 2 ≤ ng) (hp : ParamsOk p order) (h : MachineOk nx ng Gr A)
    {S : Cell → Prim d ℝ} {Fx : Cell → Fin n → ℝ} {U : Cell → View Cell (Fields d n ℝ)} {up : Cell → View Cell (VelPres d ℝ)}
    (hi : InitOf nx ng A S Fx U up) :
    ∃ z, progFresh p nx (nghostOf d ng) (borderOf A.dims) A X U up = some z ∧ Follows p nx ng X A z
      (freshRun p.loop p.tIni (bcGlob p.hydro.bcs nx (nghostOf d ng) order fun g => consFields p.hydro.eos (S g) (Fx g))) := by
  obtain ⟨gr, g1, g2⟩ := progGrids_ok (p := p) (X := X) h hN
  obtain ⟨D, d1, d2⟩ := progConserved_ok hd3 h hN (by omega) hp.bcs hp.ids hp.order hi.domU hi.domUp S Fx hi.val
  unfold progFresh freshRun
  dsimp only
  rw [g1]
  simp only [Option.bind_eq_bind, Option.bind_some]
  rw [d1]
  simp only [Option.bind_some]
  by_cases hf : 0 < p.loop.iterFreq ∨ 0 < p.loop.timeFreq
  · rw [if_pos hf, if_pos hf]
    obtain ⟨up', f1, hup'⟩ := progPrims_ok (p := p) h 0 d2
    rw [f1]
    simp only [Option.bind_some]
    obtain ⟨f, o1, o2⟩ := progOutput_ok (p := p) (X := X) h hN (by omega) 0 d2 hup'
      (s := { h := D, t := p.tIni, iter := 0, outputId := 0, iterId := 0, timeId := -1 }) rfl
    rw [o1]
    exact ⟨_, rfl, g2, rfl, rfl, d2, rfl, List.Forall₂.cons ⟨o2, rfl⟩ .nil, rfl⟩
  · rw [if_neg hf, if_neg hf]
    exact ⟨_, rfl, g2, rfl, rfl, d2, rfl, .nil, rfl⟩

/-! ### Restart -/

/-- The boundary conditions do not change the interior. -/
theorem bcGlob_interior (bcs : Fin d → Fin 2 → BcKind) (hd3 : d ≤ 3) (hng : 0 < ng) (ho : ∀ id ∈ order, id < 2 * d)
    (G : Cell → Fields d n ℝ) {g : Cell} (hg : inBox 0 nx g) : bcGlob bcs nx (nghostOf d ng) order G (g + nghostOf d ng) = G g := by
  have key : ∀ (l : List ℕ), (∀ id ∈ l, id < 2 * d) → ∀ V : Cell → Fields d n ℝ,
      l.foldl (bcPure bcs (fun _ _ => true) (globExt nx (nghostOf d ng)) (nghostOf d ng)) V (g + nghostOf d ng) = V (g + nghostOf d ng) := by
    intro l
    induction l with
    | nil => exact fun _ _ => rfl
    | cons id l ih =>
      intro hl V
      rw [List.foldl_cons, ih (fun i hi => hl i (by simp [hi]))]
      obtain ⟨a, f, rfl⟩ := faceId_surj (hl id (by simp))
      rw [bcPure_faceId, if_pos rfl, condPure_eq, if_neg]
      rintro ⟨-, hL⟩
      have := hg (ax a)
      have hnga : nghostOf d ng (ax a) = ng := by simp [nghostOf, ax_val hd3]
      rcases face_cases f with rfl | rfl
      · simp [InGhostLayer, hnga, globExt] at hL this
        omega
      · simp [InGhostLayer, hnga, globExt] at hL this
        omega
  unfold bcGlob
  rw [key order ho]
  congr 1
  rw [add_sub_cancel_right]
  funext a
  exact Int.emod_eq_of_lt (hg a).1 (hg a).2

theorem bcGlob_congr (bcs : Fin d → Fin 2 → BcKind) (hpos : ∀ a, 0 < nx a) {G G' : Cell → Fields d n ℝ} {nghost : Cell}
    (h : ∀ g, inBox 0 nx g → G g = G' g) : bcGlob bcs nx nghost order G = bcGlob bcs nx nghost order G' := by
  unfold bcGlob
  congr 1
  funext C
  exact h _ fun a => ⟨Int.emod_nonneg _ (hpos a).ne', Int.emod_lt_of_pos _ (hpos a)⟩

theorem primGlob_toPrim (eos : EoS ℝ) (W : Cell → Fields d n ℝ) (C : Cell) :
    primGlob eos W C = ⟨(toPrim eos (W C).cons).u, (toPrim eos (W C).cons).P⟩ := by
  have : ∀ i, (W C).rhou i * (W C).rhou i = (W C).rhou i ^ 2 := fun i => by ring
  simp only [primGlob, toPrim, Fields.cons, Cons.evol, Cons.ek, this]

/-- Restart from a file that holds the array `W`, with positive densities, on any process grid: the run starts from `W`. -/
theorem progRestart_follows (hd3 : d ≤ 3) (hpos : ∀ a, 0 < nx a) (hng : 2 ≤ ng) (hp : ParamsOk p order) (he : p.hydro.eos.Lawful)
    (h : MachineOk nx ng Gr A) {W G : Cell → Fields d n ℝ} (hW : W = bcGlob p.hydro.bcs nx (nghostOf d ng) order G)
    (hrho : ∀ g, inBox 0 nx g → 0 < (W (g + nghostOf d ng)).rho) {f : LoopState (FluidFile d n) ℝ} (hf : FileOf p nx ng X W f.h) :
    ∃ z, progRestart p nx (nghostOf d ng) (borderOf A.dims) A f = some z ∧ Follows p nx ng X A z (restartRun id (f.withFluid W)) := by
  have hN : ∀ a, 0 ≤ nx a := fun a => (hpos a).le
  obtain ⟨gr, g1, g2⟩ := progGrids_ok (p := p) (X := X) h hN
  have hread := fun r hr => readFluid_ok (r := r) h hN (by omega) hr hf
  haveI : Nonempty (View Cell (Fields d n ℝ) × View Cell (VelPres d ℝ)) := ⟨(⟨fun _ => false, fun _ => ⟨0, 0, 0, 0⟩⟩, ⟨fun _ => false, fun _ => ⟨0, 0⟩⟩)⟩
  choose! v0 v1 v2 v3 v4 using hread
  obtain ⟨v, hv, hv'⟩ := allRanks_some (dims := A.dims)
    (dflt := fun _ => (⟨fun _ => false, fun _ => ⟨0, 0, 0, 0⟩⟩, ⟨fun _ => false, fun _ => ⟨0, 0⟩⟩)) v1
  obtain ⟨D, d1, d2⟩ := progConserved_ok (p := p) (U := fun r => (v r).1) (up := fun r => (v r).2) hd3 h hN (by omega) hp.bcs hp.ids hp.order
    (fun r hr => by rw [hv' r hr]; exact v2 r hr) (fun r hr => by rw [hv' r hr]; exact v3 r hr)
    (fun g => toPrim p.hydro.eos (W (g + nghostOf d ng)).cons) (fun g => (W (g + nghostOf d ng)).fx) (by
      intro r hr c hc
      rw [hv' r hr]
      obtain ⟨q1, q2, q3⟩ := v4 r hr c hc
      rw [global_add]
      exact ⟨q1, q2, by rw [q3, primGlob_toPrim]⟩)
  have hax : ∀ a : Fin 3, (readAxis (f.h.nAxis a) (nx a + 2 * nghostOf d ng a + 1) (f.h.x a)).toOption =
      some (View.line (nx a + 2 * nghostOf d ng a + 1) (X a)) := by
    intro a
    rw [hf.nAxis, hf.x]
    simp [readAxis, Except.toOption]
  have hback : bcGlob p.hydro.bcs nx (nghostOf d ng) order (fun g => consFields p.hydro.eos (toPrim p.hydro.eos (W (g + nghostOf d ng)).cons)
      (W (g + nghostOf d ng)).fx) = W := by
    conv_rhs => rw [hW]
    refine bcGlob_congr _ hpos fun g hg => ?_
    rw [← bcGlob_interior (ng := ng) p.hydro.bcs hd3 (by omega) hp.ids G hg, ← hW]
    have := toCons_toPrim he (c := (W (g + nghostOf d ng)).cons) (hrho g hg)
    unfold consFields
    rw [this]
    rfl
  rw [hback] at d2
  unfold progRestart
  simp only [Option.bind_eq_bind]
  rw [seqFin_some hax]
  simp only [Option.bind_some]
  rw [hv]
  simp only [Option.bind_some]
  rw [g1]
  simp only [Option.bind_some]
  rw [d1]
  exact ⟨_, rfl, g2, rfl, rfl, d2, rfl, .nil, rfl⟩

end Glob

end Heracles

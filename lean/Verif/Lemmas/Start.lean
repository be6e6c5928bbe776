import Verif.Model.Start
import Verif.Lemmas.Program
import Verif.Lemmas.Initial

/-!
# From the initialisation of a setup to the arrays of a run
-/

namespace Heracles

variable {d n : ℕ}

/-- The state left by an initialisation that depends on the data of the cell only. -/
theorem positional_state {S : Setup d n} {F : (Fin 3 → ℝ) → (Fin 3 → ℝ) → ℝ → (Fin d → ℝ) → InitCell d n}
    (hF : ∀ q topo g grav c xl xm dv gr, CellData g grav c xl xm dv gr → S q topo g grav c ⟨0, 0, 0, 0⟩ = some (F xl xm dv gr))
    (tr : Trig ℝ) (geom : Geom) {nx : Cell} {ng : ℤ} (hN : ∀ a, 0 ≤ nx a) (hng : 0 ≤ ng) (X : Fin 3 → ℤ → ℝ) (Gr : Cell → Fin d → ℝ) :
    InitialState (fun _ => True) S tr geom nx ng X Gr fun C => F (fun a => X a (C a + nghostOf d ng a))
      (fun a => (X a (C a + nghostOf d ng a) + X a (C a + nghostOf d ng a + 1)) / 2)
      ((globGrid tr geom X Gr).dv (C + nghostOf d ng)) (Gr C) := by
  refine initialState_of_kernel hN hng _ ?_
  intro dims rank topo g grav _ hdm hr hg c hc
  exact hF _ _ _ _ c _ _ _ _ (hg.cell hN hdm hr (rank_interior_inExt hng hc))

variable {p : ProgParams d n} {nx : Cell} {ng : ℤ} {X : Fin 3 → ℤ → ℝ} {Gr : (Cell → Fields d n ℝ) → Cell → Fin d → ℝ} {A : Machine d n}

/-- The gravity when the initialisation starts: that of empty arrays. -/
def startGravity (Gr : (Cell → Fields d n ℝ) → Cell → Fin d → ℝ) (nghost : Cell) : Cell → Fin d → ℝ := fun C => Gr (fun _ => ⟨0, 0, 0, 0⟩) (C + nghost)

theorem zeroFluid_holds (hA : MachineOk nx ng Gr A) (hN : ∀ a, 0 ≤ nx a) :
    HoldsAll nx A.dims (nghostOf d ng) (fun _ => (⟨0, 0, 0, 0⟩ : Fields d n ℝ)) (zeroFluid A) :=
  ⟨fun _ hr => (hA.fields hN hr).2, fun _ _ _ _ => rfl⟩

/-- With the state `W` of the initialisation, the start is that of `progFresh` with the arrays of `W`. -/
theorem progSetup_eq {D : Cell → Prop} {S : Setup d n} {W : Cell → InitCell d n} (hN : ∀ a, 0 ≤ nx a) (hng : 0 ≤ ng) (hA : MachineOk nx ng Gr A) (hD : D A.dims)
    (hS : InitialState D S p.hydro.tr p.hydro.geom nx ng X (startGravity Gr (nghostOf d ng)) W) {initL : Cell → List Cell}
    (hl : ∀ r, inBox 0 A.dims r → IsSchedule (initL r) (nghostOf d ng) (fun a => localExt nx A.dims (nghostOf d ng) r a - nghostOf d ng a)) :
    ∃ U up, InitOf nx ng A (fun g => ⟨(W g).rho, (W g).u, (W g).P⟩) (fun g => (W g).fx) U up ∧
      progSetup p nx (nghostOf d ng) (borderOf A.dims) A (cartRank A.dims) initL X S = progFresh p nx (nghostOf d ng) (borderOf A.dims) A X U up := by
  obtain ⟨g, e, hg⟩ := progGrids_ok (p := p) (X := X) hA hN
  have key : ∀ r, inBox 0 A.dims r → ∃ v, initLoop (initL r) (S (cartRank A.dims r) (A.topo r) (g r) (A.grav (zeroFluid A) r))
      ⟨inExt (A.topo r).nxLocalWg, fun _ => ⟨0, 0, 0, 0⟩⟩ = some v ∧ v.dom = inExt (A.topo r).nxLocalWg ∧
      ∀ c, layer d (localExt nx A.dims (nghostOf d ng) r) ng c → v.val c = W (globalOf nx A.dims (nghostOf d ng) r c) := by
    intro r hr
    obtain ⟨rg, h1, h2, h3⟩ := hA.gridL r hr
    obtain ⟨r', hrg'⟩ : ∃ r', (A.topo r).range.noGhosts = .ok r' := by
      unfold Range.noGhosts Range.withGhosts
      rw [if_neg (by have := (hA.topo r hr); obtain ⟨topo, ht, -, -, -, -, -, -, -, -, -, -, e11, -⟩ := GridTopo.mk?_ok (ndim := d) (ng := ng) hN hA.pos (fun a => (hr a).1); rw [this] at ht; cases ht; omega)]
      exact ⟨_, rfl⟩
    obtain ⟨e1, f1, f2⟩ := rank_noGhosts_box hN hA.pos hr (hA.topo r hr) hrg'
    have hgr : RankGrid p.hydro.tr p.hydro.geom nx A.dims ng X (startGravity Gr (nghostOf d ng)) r (A.topo r) (g r) (A.grav (zeroFluid A) r) := by
      refine ⟨hA.topo r hr, ⟨_, rg, _, _, hA.gridL1 r hr, h1, h2, h3, ?_⟩, fun c hc a => ?_⟩
      · rw [(hA.fields hN hr).1]
        exact hg r hr
      · rw [hA.force _ _ (zeroFluid_holds hA hN) r hr c hc a]
        show _ = some (Gr _ (globalOf nx A.dims (nghostOf d ng) r c + nghostOf d ng) a)
        rw [global_add]
    obtain ⟨v, v1, v2, v3⟩ := hS A.dims r (A.topo r) (g r) _ r' (initL r) hD hA.pos hr hgr hrg' (by rw [f1, f2]; exact hl r hr)
    refine ⟨v, v1, v2, fun c hc => v3 c ?_⟩
    rw [f1, f2]
    exact hc
  haveI : Nonempty (View Cell (InitCell d n)) := ⟨⟨fun _ => false, fun _ => ⟨0, 0, 0, 0⟩⟩⟩
  choose! v hv using key
  obtain ⟨w, w1, w2⟩ := allRanks_some (dims := A.dims) (dflt := fun r => ⟨inExt (A.topo r).nxLocalWg, fun _ => ⟨0, 0, 0, 0⟩⟩) fun r hr => (hv r hr).1
  refine ⟨fun r => (w r).comp fun s => ⟨s.rho, 0, 0, s.fx⟩, fun r => (w r).comp fun s => ⟨s.u, s.P⟩, ⟨fun r hr => ?_, fun r hr => ?_, fun r hr c hc => ?_⟩, ?_⟩
  · show (w r).dom = _
    rw [w2 r hr, (hv r hr).2.1, (hA.fields hN hr).2]
  · show (w r).dom = _
    rw [w2 r hr, (hv r hr).2.1, (hA.fields hN hr).2]
  · have := (hv r hr).2.2 c hc
    rw [← w2 r hr] at this
    exact ⟨congrArg InitCell.rho this, congrArg InitCell.fx this, by show (⟨_, _⟩ : VelPres d ℝ) = _; rw [this]⟩
  · unfold progSetup
    rw [e]
    simp only [Option.bind_eq_bind, Option.bind_some]
    rw [w1]
    rfl

end Heracles

import Verif.Lemmas.SymmetryRun
import Verif.Props.PressureFix

/-!
# C81: a symmetric problem stays symmetric

Whole runs of the program whose axes are exchanged or reversed. The full claim: if a problem is given with its axes permuted or reversed (mesh,
boundary conditions, force, initial state), then all files and all states of the run are those of the original with permuted or reversed axes;
in particular a problem that is symmetric stays symmetric. It is proved for permutations (`C81_exchange`, `C81_symmetric`). For a reversed
axis it is proved without the pressure fix: with HLL and the low-Mach solver for every run (`C81_mirror_any_partial`), with HLLC if the states
extrapolated to the faces are admissible (`C81_mirror_partial`), which is always so for the constant reconstruction
(`C81_mirror_first_order_partial`). With the pressure fix it is false (`C81_fix_mirror_violated`).
-/

namespace Heracles

variable {d n : ℕ} {p p' : ProgParams d n} {nx nx' : Cell} {ng : ℤ} {X X' : Fin 3 → ℤ → ℝ}
  {Gr Gr' : (Cell → Fields d n ℝ) → Cell → Fin d → ℝ} {A B : Machine d n} {order order' : List ℕ} {S S' : Cell → Prim d ℝ} {Fx Fx' : Cell → Fin n → ℝ}

section Lemmas

theorem MachineOk.ghosts_le (h : MachineOk nx ng Gr A) (hd3 : d ≤ 3) (hN : ∀ a, 0 ≤ nx a) (a : Fin d) : ng ≤ nx (ax a) := by
  have h1 := h.size (ax a) (by rw [ax_val hd3]; exact a.isLt) 0 le_rfl (h.pos _)
  have h2 := h.pos (ax a)
  have h3 := hN (ax a)
  rw [localSize_eq h3 h2] at h1
  have h4 := Int.emod_add_mul_ediv (nx (ax a)) (A.dims (ax a))
  have h5 := Int.emod_nonneg (nx (ax a)) h2.ne'
  have h6 := Int.ediv_nonneg h3 h2.le
  have h7 : nx (ax a) / A.dims (ax a) ≤ A.dims (ax a) * (nx (ax a) / A.dims (ax a)) := le_mul_of_one_le_left h6 (by omega)
  split at h1 <;> omega

/-- Change of the components of the momentum of a cell. -/
def Fields.actVec (vec : (Fin d → ℝ) → Fin d → ℝ) (s : Fields d n ℝ) : Fields d n ℝ := { s with rhou := vec s.rhou }

variable {μ : Cell → Cell} {vec : (Fin d → ℝ) → Fin d → ℝ}

theorem FileOf.seen (hm : DomainMap μ nx nx') (he : p'.hydro.eos = p.hydro.eos) (ht : p'.temp = p.temp)
    (hv : ∀ (W : Cell → Fields d n ℝ) C, primGlob p.hydro.eos (fun C => (W (withGhosts (nghostOf d ng) μ C)).actVec vec) C =
      ⟨vec (primGlob p.hydro.eos W (withGhosts (nghostOf d ng) μ C)).u, (primGlob p.hydro.eos W (withGhosts (nghostOf d ng) μ C)).P⟩)
    {f f' : LoopState (FluidFile d n) ℝ} {o o' : LoopState (Cell → Fields d n ℝ) ℝ}
    (ho : o.Related 1 (fun W W' => W' = fun C => (W (withGhosts (nghostOf d ng) μ C)).actVec vec) o') (hf : FileOf p nx ng X o.h f.h)
    (hf' : FileOf p' nx' ng X' o'.h f'.h) (e : f.withFluid () = o.withFluid ()) (e' : f'.withFluid () = o'.withFluid ()) : SeenFile μ vec nx' f f' := by
  obtain ⟨w1, w2, w3, w4, w5⟩ := withFluid_eq e
  obtain ⟨v1, v2, v3, v4, v5⟩ := withFluid_eq e'
  have hk : ∀ g, withGhosts (nghostOf d ng) μ (g + nghostOf d ng) = μ g + nghostOf d ng := fun g => by
    simp only [withGhosts, add_sub_cancel_right]
  have hW : ∀ g, o'.h (g + nghostOf d ng) = (o.h (μ g + nghostOf d ng)).actVec vec := fun g => by rw [ho.h]; simp only [hk]
  have hup : ∀ g, primGlob p'.hydro.eos o'.h (g + nghostOf d ng) =
      ⟨vec (primGlob p.hydro.eos o.h (μ g + nghostOf d ng)).u, (primGlob p.hydro.eos o.h (μ g + nghostOf d ng)).P⟩ := fun g => by
    rw [he, ho.h, hv, hk]
  have hb := fun g hg => (hm.box g).1 hg
  exact
    { rho := fun g hg => by
        refine (hf'.rho.2 g hg).trans (Eq.trans ?_ (hf.rho.2 (μ g) (hb g hg)).symm)
        dsimp only
        rw [hW]; rfl
      u := fun g hg l => by
        refine ((hf'.u l).2 g hg).trans ?_
        dsimp only
        rw [hup]
        exact congrFun (congrArg vec (funext fun l => ((hf.u l).2 (μ g) (hb g hg)).symm)) l
      P := fun g hg => by
        refine (hf'.P.2 g hg).trans (Eq.trans ?_ (hf.P.2 (μ g) (hb g hg)).symm)
        dsimp only
        rw [hup]
      E := fun g hg => by
        refine (hf'.E.2 g hg).trans (Eq.trans ?_ (hf.E.2 (μ g) (hb g hg)).symm)
        dsimp only
        rw [hW]; rfl
      T := fun g hg => by
        refine (hf'.T.2 g hg).trans (Eq.trans ?_ (hf.T.2 (μ g) (hb g hg)).symm)
        dsimp only
        rw [hup, hW, ht]; rfl
      fx := fun g hg l => by
        refine ((hf'.fx l).2 g hg).trans (Eq.trans ?_ ((hf.fx l).2 (μ g) (hb g hg)).symm)
        dsimp only
        rw [hW]; rfl
      t := by rw [v1, w1, ho.t, one_mul]
      iter := by rw [v2, w2, ho.iter]
      outputId := by rw [v3, w3, ho.outputId]
      iterId := by rw [v4, w4, ho.iterId]
      timeId := by rw [v5, w5, ho.timeId] }

theorem seenState (hm : DomainMap μ nx nx') (he : p'.hydro.eos = p.hydro.eos) (ht : p'.temp = p.temp)
    (hv : ∀ (W : Cell → Fields d n ℝ) C, primGlob p.hydro.eos (fun C => (W (withGhosts (nghostOf d ng) μ C)).actVec vec) C =
      ⟨vec (primGlob p.hydro.eos W (withGhosts (nghostOf d ng) μ C)).u, (primGlob p.hydro.eos W (withGhosts (nghostOf d ng) μ C)).P⟩)
    {z z' : ProgState d n} {r r' : RunState (Cell → Fields d n ℝ) ℝ} (hz : Follows p nx ng X A z r) (hz' : Follows p' nx' ng X' B z' r')
    (hr : r.Related 1 (fun W W' => W' = fun C => (W (withGhosts (nghostOf d ng) μ C)).actVec vec) r') :
    SeenState μ vec nx nx' ng A.dims B.dims z z' := by
  obtain ⟨w1, w2, w3, w4, w5⟩ := withFluid_eq hz.s
  obtain ⟨v1, v2, v3, v4, v5⟩ := withFluid_eq hz'.s
  refine ⟨?_, ?_, ?_, ?_, ?_, ?_, ?_, ?_⟩
  · rw [hz'.status, hz.status, hr.status]
  · rw [v1, w1, hr.s.t, one_mul]
  · rw [v2, w2, hr.s.iter]
  · rw [v3, w3, hr.s.outputId]
  · rw [v4, w4, hr.s.iterId]
  · rw [v5, w5, hr.s.timeId]
  · intro k k' c c' hk hk' hc hc' eg
    have e1 := hz.h.val k hk c hc
    have e2 := hz'.h.val k' hk' c' hc'
    rw [← global_add nx A.dims (nghostOf d ng), eg] at e1
    rw [← global_add nx' B.dims (nghostOf d ng), hr.s.h] at e2
    simp only [withGhosts, add_sub_cancel_right] at e2
    rw [e2, e1]
    exact ⟨rfl, rfl, rfl, rfl⟩
  · have key : ∀ {o o' : List (LoopState (Cell → Fields d n ℝ) ℝ)} {l l' : List (LoopState (FluidFile d n) ℝ)},
        List.Forall₂ (LoopState.Related 1 fun W W' => W' = fun C => (W (withGhosts (nghostOf d ng) μ C)).actVec vec) o o' →
        List.Forall₂ (fun f o => FileOf p nx ng X o.h f.h ∧ f.withFluid () = o.withFluid ()) l o →
        List.Forall₂ (fun f o => FileOf p' nx' ng X' o.h f.h ∧ f.withFluid () = o.withFluid ()) l' o' → List.Forall₂ (SeenFile μ vec nx') l l' := by
      intro o o' l l' h1 h2 h3
      induction h1 generalizing l l' with
      | nil =>
        cases h2
        cases h3
        exact .nil
      | cons a _ ih =>
        cases h2 with
        | cons b t =>
          cases h3 with
          | cons b' t' => exact .cons (FileOf.seen hm he ht hv a b.1 b'.1 b.2 b'.2) (ih t t')
    exact key hr.outs hz.files hz'.files

theorem forall₂_diag {α : Type} {R : α → α → Prop} {l : List α} (h : List.Forall₂ R l l) : ∀ x ∈ l, R x x := by
  induction l with
  | nil => intro x hx; cases hx
  | cons a t ih =>
    cases h with
    | cons h1 h2 =>
      intro x hx
      rcases List.mem_cons.1 hx with rfl | hx
      · exact h1
      · exact ih h2 x hx

theorem scaleTime_one (q : LoopParams ℝ) : q.scaleTime 1 = q := by
  simp [LoopParams.scaleTime]

theorem Fields.perm_actVec (σ : Equiv.Perm (Fin d)) (s : Fields d n ℝ) : s.actVec (permVec σ) = s.perm σ := rfl

theorem Fields.flip_actVec (b : Fin d) (s : Fields d n ℝ) : s.actVec (flipVec b) = s.flip b :=
  Fields.ext rfl (funext fun i => (Fields.flip_rhou b s i).symm) rfl rfl

end Lemmas

/-! ### Exchanged axes -/

section Exchange
variable {σ : Equiv.Perm (Fin d)} {τ : Equiv.Perm (Fin 3)}

/-- **C81**, permutations. Two runs of the whole program, on any process grids: the second is the first with permuted axes (`σ` on directions,
`τ` on the axes of the arrays): mesh (each axis possibly translated), sizes, boundary conditions, force, initial densities, velocities,
pressures and scalars; everything else is the same. Boundary conditions may be applied in any order of the faces, not the same in both runs.
Both runs make the same turns: after any number of turns they have the same status, time and counters, and every field of every cell (ghosts
included) and every dataset of every file of the second is that of the first with permuted axes and components. This holds on Cartesian grids
for all solvers, limiters, boundary conditions, with or without the pressure fix and the heating. -/
theorem C81_exchange (hd3 : d ≤ 3) (hτ : ∀ a : Fin d, τ (ax a) = ax (σ a)) (hpos : ∀ a, 0 < nx a) (hn : ∀ x, nx' (τ x) = nx x) (hng : 2 ≤ ng)
    (ho : ParamsOk p order) (ho' : ParamsOk p' order') (hall : order.Perm (List.range (2 * d))) (hall' : order'.Perm (List.range (2 * d)))
    (hp : p.Permuted σ p') (hA : MachineOk nx ng Gr A) (hB : MachineOk nx' ng Gr' B) (δ : Fin 3 → ℝ)
    (hx : ∀ x i, 0 ≤ i → i ≤ nx x + 2 * nghostOf d ng x → X' (τ x) i = X x i + δ x)
    (hg : ∀ W C a, inExt (globExt nx' (nghostOf d ng)) C = true → Gr' (fun C => (W (C ∘ τ)).perm σ) C (σ a) = Gr W (C ∘ τ) a)
    (hS : ∀ g, inBox 0 nx' g → S' g = (S (g ∘ τ)).perm σ ∧ Fx' g = Fx (g ∘ τ))
    {U U' : Cell → View Cell (Fields d n ℝ)} {up up' : Cell → View Cell (VelPres d ℝ)} (hi : InitOf nx ng A S Fx U up)
    (hi' : InitOf nx' ng B S' Fx' U' up') (clock : ℕ → Bool) (m : ℕ) :
    ∃ z z', progRun p nx (nghostOf d ng) (borderOf A.dims) A clock (progFresh p nx (nghostOf d ng) (borderOf A.dims) A X U up) m = some z ∧
      progRun p' nx' (nghostOf d ng) (borderOf B.dims) B clock (progFresh p' nx' (nghostOf d ng) (borderOf B.dims) B X' U' up') m = some z' ∧
      SeenState (fun g => g ∘ τ) (permVec σ) nx nx' ng A.dims B.dims z z' := by
  have hm := domainMap_perm (τ := τ) hpos hn
  have hk := withGhosts_perm hd3 hτ ng
  have hN : ∀ a, 0 ≤ nx a := fun a => (hpos a).le
  have hN' : ∀ a, 0 ≤ nx' a := fun a => (hm.pos a).le
  obtain ⟨z0, e0, h0⟩ := progFresh_follows (X := X) hd3 hN hng ho hA hi
  obtain ⟨z0', e0', h0'⟩ := progFresh_follows (X := X') hd3 hN' hng ho' hB hi'
  obtain ⟨z, e, hz⟩ := progRun_follows hd3 hN hng ho hA clock e0 h0 m
  obtain ⟨z', e', hz'⟩ := progRun_follows hd3 hN' hng ho' hB clock e0' h0' m
  have hsz := hB.ghosts_le hd3 hN'
  have hst : bcGlob p'.hydro.bcs nx' (nghostOf d ng) order' (fun g => consFields p'.hydro.eos (S' g) (Fx' g)) =
      fun C => (bcGlob p.hydro.bcs nx (nghostOf d ng) order (fun g => consFields p.hydro.eos (S g) (Fx g)) (C ∘ τ)).perm σ := by
    have := bcGlob_seen (n := n) (order := order) (order' := order') (act := Fields.perm σ) (φ := fun a f => (σ a, f)) hd3 (by omega) hsz hm
      (by rw [hk]; exact relabel_perm hd3 hτ hn ng)
      ⟨fun x y e => by
        simp only [Prod.mk.injEq, EmbeddingLike.apply_eq_iff_eq] at e
        exact Prod.ext e.1 e.2, fun y => ⟨(σ.symm y.1, y.2), by simp⟩⟩ hp.bcs hall hall'
      (G := fun g => consFields p.hydro.eos (S g) (Fx g)) (G' := fun g => consFields p'.hydro.eos (S' g) (Fx' g)) (fun g hg => by
        rw [hp.eos, (hS g hg).1, (hS g hg).2, consFields_perm])
    rw [hk] at this
    exact this
  have hrel := runN_related (p := p.loop) one_pos (globHydro_perm hd3 hτ hpos hn hng hsz hp δ hx hg hall hall')
    (freshRun_related (p := p.loop) (Rel := fun W W' : Cell → Fields d n ℝ => W' = fun C => (W (C ∘ τ)).perm σ) one_pos hst p.tIni) clock m
  rw [scaleTime_one, one_mul] at hrel
  rw [hp.loop, hp.tIni] at hz'
  refine ⟨z, z', e, e', seenState hm hp.eos hp.temp (fun W C => ?_) hz hz' ?_⟩
  · rw [hk]
    exact congrFun (primGlob_perm p.hydro.eos (fun C => C ∘ τ) W) C
  · rw [hk]
    exact hrel

/-- **C81**, symmetric problems. If mesh, boundary conditions, force and initial state of a run are unchanged by a permutation of the axes, then
so are all its later states and all its files: cells that are images of each other hold the same densities, energies and scalars, and momenta
with permuted components, on all ranks and in the ghosts. -/
theorem C81_symmetric (hd3 : d ≤ 3) (hτ : ∀ a : Fin d, τ (ax a) = ax (σ a)) (hpos : ∀ a, 0 < nx a) (hn : ∀ x, nx (τ x) = nx x) (hng : 2 ≤ ng)
    (ho : ParamsOk p order) (hall : order.Perm (List.range (2 * d))) (hcart : p.hydro.geom = .cartesian)
    (hbc : ∀ a f, p.hydro.bcs (σ a) f = p.hydro.bcs a f) (hA : MachineOk nx ng Gr A) (δ : Fin 3 → ℝ)
    (hx : ∀ x i, 0 ≤ i → i ≤ nx x + 2 * nghostOf d ng x → X (τ x) i = X x i + δ x)
    (hg : ∀ W C a, inExt (globExt nx (nghostOf d ng)) C = true → Gr (fun C => (W (C ∘ τ)).perm σ) C (σ a) = Gr W (C ∘ τ) a)
    (hS : ∀ g, inBox 0 nx g → S g = (S (g ∘ τ)).perm σ ∧ Fx g = Fx (g ∘ τ))
    {U : Cell → View Cell (Fields d n ℝ)} {up : Cell → View Cell (VelPres d ℝ)} (hi : InitOf nx ng A S Fx U up) (clock : ℕ → Bool) (m : ℕ) :
    ∃ z, progRun p nx (nghostOf d ng) (borderOf A.dims) A clock (progFresh p nx (nghostOf d ng) (borderOf A.dims) A X U up) m = some z ∧
      (∀ rank rank' c c', inBox 0 A.dims rank → inBox 0 A.dims rank' →
        inExt (localExt nx A.dims (nghostOf d ng) rank) c = true → inExt (localExt nx A.dims (nghostOf d ng) rank') c' = true →
        globalOf nx A.dims (nghostOf d ng) rank c = globalOf nx A.dims (nghostOf d ng) rank' c' ∘ τ →
        (z.s.h.val rank' c').rho = (z.s.h.val rank c).rho ∧ (∀ a, (z.s.h.val rank' c').rhou (σ a) = (z.s.h.val rank c).rhou a) ∧
        (z.s.h.val rank' c').E = (z.s.h.val rank c).E ∧ (z.s.h.val rank' c').fx = (z.s.h.val rank c).fx) ∧
      ∀ f ∈ z.files, ∀ g, inBox 0 nx g → f.h.rho.at g = f.h.rho.at (g ∘ τ) ∧ (∀ a, (f.h.u (σ a)).at g = (f.h.u a).at (g ∘ τ)) ∧
        f.h.P.at g = f.h.P.at (g ∘ τ) ∧ f.h.E.at g = f.h.E.at (g ∘ τ) ∧ f.h.T.at g = f.h.T.at (g ∘ τ) ∧ ∀ l, (f.h.fx l).at g = (f.h.fx l).at (g ∘ τ) := by
  obtain ⟨z, z', e, e', h⟩ := C81_exchange hd3 hτ hpos hn hng ho ho hall hall
    (p := p) (p' := p) ⟨rfl, rfl, rfl, rfl, rfl, hcart, hcart, hbc, rfl, rfl, rfl, rfl, rfl⟩ hA hA δ hx hg hS hi hi clock m
  obtain rfl : z = z' := Option.some.inj (e.symm.trans e')
  refine ⟨z, e, fun k k' c c' hk hk' hc hc' eg => ?_, fun f hf g hgb => ?_⟩
  · obtain ⟨h1, h2, h3, h4⟩ := h.fluid k k' c c' hk hk' hc hc' eg
    refine ⟨h1, fun a => ?_, h3, h4⟩
    rw [h2]
    simp [permVec]
  · have hs := forall₂_diag h.files f hf
    refine ⟨hs.rho g hgb, fun a => ?_, hs.P g hgb, hs.E g hgb, hs.T g hgb, hs.fx g hgb⟩
    refine (hs.u g hgb (σ a)).trans ?_
    simp [permVec, View.at]

/-- Two runs of a perfect gas with gravity, HLLC, van Leer slopes and the pressure fix, with a blast in a corner: on 8 x 6 cells and 2 x 3 ranks, and
on 6 x 8 cells and 1 x 4 ranks with exchanged axes. -/
example (p : ProgParams 2 1) (hb : p.hydro.bcs = ![![.periodic, .periodic], ![.reflexive, .nullGradient]])
    (hpo : p.hydro.order = [some 2, some 0, some 3, some 1]) (hge : p.hydro.geom = .cartesian) (hso : p.hydro.sol = .hllc)
    (hli : p.hydro.lim = .vanLeer) (hs : p.step = .off) (hf : p.fix = some (1 / 1000)) (ht : p.top = 10 ^ 308)
    {g : Gas} (he : p.hydro.eos = PerfectGas.toEoS g) (S : Cell → Prim 2 ℝ) (Fx : Cell → Fin 1 → ℝ) (clock : ℕ → Bool) (m : ℕ) :
    let p' : ProgParams 2 1 := { p with
      hydro := { p.hydro with bcs := ![![.reflexive, .nullGradient], ![.periodic, .periodic]], order := [some 1, some 0, some 3, some 2] } }
    ∃ (A B : Machine 2 1) (IA IB : (Cell → View Cell (Fields 2 1 ℝ)) × (Cell → View Cell (VelPres 2 ℝ))) (z z' : ProgState 2 1),
      A.dims = ![2, 3, 1] ∧ B.dims = ![1, 4, 1] ∧
      progRun p ![8, 6, 1] (nghostOf 2 2) (borderOf A.dims) A clock
        (progFresh p ![8, 6, 1] (nghostOf 2 2) (borderOf A.dims) A (fun x i => if x = 0 then i / 10 else i / 5) IA.1 IA.2) m = some z ∧
      progRun p' ![6, 8, 1] (nghostOf 2 2) (borderOf B.dims) B clock
        (progFresh p' ![6, 8, 1] (nghostOf 2 2) (borderOf B.dims) B (fun x i => if x = 1 then i / 10 else i / 5) IB.1 IB.2) m = some z' ∧
      SeenState (fun c => c ∘ Equiv.swap 0 1) (permVec (Equiv.swap 0 1)) ![8, 6, 1] ![6, 8, 1] 2 A.dims B.dims z z' := by
  intro p'
  have hN : ∀ a, 0 ≤ (![8, 6, 1] : Cell) a := by decide
  have hN' : ∀ a, 0 ≤ (![6, 8, 1] : Cell) a := by decide
  have hp : ParamsOk p [2, 0, 3, 1] := ⟨by rw [hb]; decide, by decide, hpo, fun _ => one_pos, by rw [ht]; norm_num⟩
  have hp' : ParamsOk p' [1, 0, 3, 2] := ⟨by show ∀ a f, (![![.reflexive, .nullGradient], ![.periodic, .periodic]] : Fin 2 → Fin 2 → BcKind) a f ≠ _; decide, by decide, rfl, hp.heat, hp.top⟩
  have hA := mkMachine_ok (d := 2) (n := 1) hN (dims := ![2, 3, 1]) (by decide) (-10) (by norm_num) (demo_size _ (.inl rfl))
  have hB := mkMachine_ok (d := 2) (n := 1) hN' (dims := ![1, 4, 1]) (by decide) (-10) (ng := 2) (by norm_num) (by
    intro a ha r h0 h1
    fin_cases a
    · rw [localSize_eq (by simp) (by simp)]; simp [not_lt.2 h0]
    · rw [localSize_eq (by simp) (by simp)]; simp [not_lt.2 h0]
    · simp at ha)
  obtain ⟨z, z', e, e', h⟩ := C81_exchange (p := p) (p' := p') (σ := Equiv.swap 0 1) (τ := Equiv.swap 0 1)
    (X := fun x i => if x = 0 then i / 10 else i / 5) (X' := fun x i => if x = 1 then i / 10 else i / 5)
    (S := S) (Fx := Fx) (by norm_num) (by decide) (nx := ![8, 6, 1]) (nx' := ![6, 8, 1]) (by decide) (by decide) (by norm_num) hp hp' (by decide) (by decide)
    ⟨rfl, rfl, rfl, rfl, rfl, hge, hge, by
      rw [hb]
      show ∀ a f, (![![.reflexive, .nullGradient], ![.periodic, .periodic]] : Fin 2 → Fin 2 → BcKind) (Equiv.swap 0 1 a) f = _
      decide, rfl, rfl, rfl, rfl, rfl⟩ hA hB 0
    (fun x i _ _ => by fin_cases x <;> simp [Equiv.swap_apply_def]) (fun W C a _ => rfl)
    (fun g _ => ⟨rfl, rfl⟩) (initArrays_ok S Fx) (initArrays_ok (fun g => (S (g ∘ Equiv.swap 0 1)).perm (Equiv.swap 0 1)) fun g => Fx (g ∘ Equiv.swap 0 1)) clock m
  exact ⟨_, _, _, _, z, z', rfl, rfl, e, e', h⟩

/-- A blast in the corner of a square of 6 x 6 cells with equal boundary conditions on both axes, on 2 x 3 ranks: density and pressure in the files
are symmetric, and exchanging the axes exchanges the velocity components. -/
example (p : ProgParams 2 1) (hb : p.hydro.bcs = ![![.reflexive, .nullGradient], ![.reflexive, .nullGradient]])
    (hpo : p.hydro.order = [some 2, some 0, some 3, some 1]) (hge : p.hydro.geom = .cartesian) (hso : p.hydro.sol = .hllc)
    (hli : p.hydro.lim = .vanLeer) (ht : p.top = 10 ^ 308) {g : Gas} (he : p.hydro.eos = PerfectGas.toEoS g) (clock : ℕ → Bool) (m : ℕ) :
    ∃ (A : Machine 2 1) (IA : (Cell → View Cell (Fields 2 1 ℝ)) × (Cell → View Cell (VelPres 2 ℝ))) (z : ProgState 2 1), A.dims = ![2, 3, 1] ∧
      progRun p ![6, 6, 1] (nghostOf 2 2) (borderOf A.dims) A clock
        (progFresh p ![6, 6, 1] (nghostOf 2 2) (borderOf A.dims) A (fun _ i => (i : ℝ) / 10) IA.1 IA.2) m = some z ∧
      ∀ f ∈ z.files, ∀ g, inBox 0 ![6, 6, 1] g →
        f.h.rho.at g = f.h.rho.at (g ∘ Equiv.swap 0 1) ∧ (f.h.u 1).at g = (f.h.u 0).at (g ∘ Equiv.swap 0 1) := by
  have hN : ∀ a, 0 ≤ (![6, 6, 1] : Cell) a := by decide
  have hp : ParamsOk p [2, 0, 3, 1] := ⟨by rw [hb]; decide, by decide, hpo, fun _ => one_pos, by rw [ht]; norm_num⟩
  have hA := mkMachine_ok (d := 2) (n := 1) hN (dims := ![2, 3, 1]) (by decide) (-10) (ng := 2) (by norm_num) (by
    intro a ha r h0 h1
    fin_cases a
    · rw [localSize_eq (by simp) (by simp)]; simp [not_lt.2 h0]
    · rw [localSize_eq (by simp) (by simp)]; simp [not_lt.2 h0]
    · simp at ha)
  obtain ⟨z, e, -, h⟩ := C81_symmetric (p := p) (σ := Equiv.swap 0 1) (τ := Equiv.swap 0 1) (X := fun _ i => (i : ℝ) / 10)
    (S := fun g => ⟨1, 0, if g 0 + g 1 < 3 then 10 else 1⟩) (Fx := fun _ _ => 0) (by norm_num) (by decide) (nx := ![6, 6, 1]) (by decide) (by decide) (by norm_num)
    hp (by decide) hge (by rw [hb]; decide) hA 0 (fun x i _ _ => by simp) (fun W C a _ => rfl)
    (fun g _ => ⟨Prim.ext rfl (funext fun i => by simp [Prim.perm]) (by simp [Prim.perm, add_comm]), rfl⟩) (initArrays_ok _ _) clock m
  refine ⟨_, _, z, rfl, e, fun f hf g hg => ⟨(h f hf g hg).1, ?_⟩⟩
  have := (h f hf g hg).2.1 0
  rwa [Equiv.swap_apply_left] at this

end Exchange

/-! ### A reversed axis -/

section Mirror
variable {b : Fin d}

/-- The turns of two runs of the global array, the second of which is the first seen in a mirror. -/
theorem mirror_run (hd3 : d ≤ 3) (hpos : ∀ a, 0 < nx a) (hng : 2 ≤ ng) (ho : ParamsOk p order) (ho' : ParamsOk p' order')
    (hall : order.Perm (List.range (2 * d))) (hall' : order'.Perm (List.range (2 * d))) (hp : p.Mirrored b p') (he : p.hydro.eos.Lawful)
    (hA : MachineOk nx ng Gr A) (hB : MachineOk nx ng Gr' B) (L : ℝ)
    (hx : ∀ i, 0 ≤ i → i ≤ nx (ax b) + 2 * ng → X' (ax b) i = L - X (ax b) (nx (ax b) + 2 * ng - i))
    (hx' : ∀ y, y ≠ ax b → ∀ i, 0 ≤ i → i ≤ nx y + 2 * nghostOf d ng y → X' y i = X y i)
    (hg : ∀ W C a, inExt (globExt nx (nghostOf d ng)) C = true →
      Gr' (fun C => (W (reflect (ax b) (nx (ax b) + 2 * ng) C)).flip b) C a = (if a = b then -1 else 1) * Gr W (reflect (ax b) (nx (ax b) + 2 * ng) C) a)
    (hS : ∀ g, inBox 0 nx g → S' g = (S (reflect (ax b) (nx (ax b)) g)).flip b ∧ Fx' g = Fx (reflect (ax b) (nx (ax b)) g))
    {U U' : Cell → View Cell (Fields d n ℝ)} {up up' : Cell → View Cell (VelPres d ℝ)} (hi : InitOf nx ng A S Fx U up)
    (hi' : InitOf nx ng B S' Fx' U' up') (clock : ℕ → Bool) (m : ℕ)
    (hrec : p.hydro.sol = .hllc → ∀ j < m, ∀ r, r = runN p.loop (globHydro p nx ng X Gr order) clock
        (freshRun p.loop p.tIni (bcGlob p.hydro.bcs nx (nghostOf d ng) order fun g => consFields p.hydro.eos (S g) (Fx g))) j → r.status = .running →
      ∀ D, decideStep p.loop ((globHydro p nx ng X Gr order).timeStep r.s.h) (clock j) r.s = .ok D → ∀ C, layer d (globExt nx (nghostOf d ng)) (ng - 1) C →
      ∀ side, (recVal p.hydro.lim p.hydro.eos p.hydro.tr .cartesian (globGrid p.hydro.tr .cartesian X (Gr r.s.h)) (D.dt / 2) r.s.h
        (primGlob p.hydro.eos r.s.h) C side b).cons.Adm p.hydro.eos) :
    ∃ z z', progRun p nx (nghostOf d ng) (borderOf A.dims) A clock (progFresh p nx (nghostOf d ng) (borderOf A.dims) A X U up) m = some z ∧
      progRun p' nx (nghostOf d ng) (borderOf B.dims) B clock (progFresh p' nx (nghostOf d ng) (borderOf B.dims) B X' U' up') m = some z' ∧
      SeenState (reflect (ax b) (nx (ax b))) (flipVec b) nx nx ng A.dims B.dims z z' := by
  have hb : nghostOf d ng (ax b) = ng := by unfold nghostOf; rw [ax_val hd3, if_pos b.isLt]
  have hm := domainMap_reflect hpos (ax b)
  have hk := withGhosts_reflect nx (nghostOf d ng) (ax b)
  have hE : nx (ax b) + 2 * ng = globExt nx (nghostOf d ng) (ax b) := by simp only [globExt, hb]
  have hN : ∀ a, 0 ≤ nx a := fun a => (hpos a).le
  obtain ⟨z0, e0, h0⟩ := progFresh_follows (X := X) hd3 hN hng ho hA hi
  obtain ⟨z0', e0', h0'⟩ := progFresh_follows (X := X') hd3 hN hng ho' hB hi'
  obtain ⟨z, e, hz⟩ := progRun_follows hd3 hN hng ho hA clock e0 h0 m
  obtain ⟨z', e', hz'⟩ := progRun_follows hd3 hN hng ho' hB clock e0' h0' m
  have hsz := hB.ghosts_le hd3 hN
  have hst : bcGlob p'.hydro.bcs nx (nghostOf d ng) order' (fun g => consFields p'.hydro.eos (S' g) (Fx' g)) =
      fun C => (bcGlob p.hydro.bcs nx (nghostOf d ng) order (fun g => consFields p.hydro.eos (S g) (Fx g)) (reflect (ax b) (nx (ax b) + 2 * ng) C)).flip b := by
    have := bcGlob_seen (n := n) (order := order) (order' := order') (act := Fields.flip b) (φ := fun a f => (a, revSide b a f)) hd3 (by omega) hsz hm
      (by rw [hk]; exact relabel_reflect hd3 b _ _) (revSide_bij b) (bcs := p.hydro.bcs) (bcs' := p'.hydro.bcs) hp.bcs' hall hall'
      (G := fun g => consFields p.hydro.eos (S g) (Fx g)) (G' := fun g => consFields p'.hydro.eos (S' g) (Fx' g)) (fun g hg => by
        rw [hp.eos, (hS g hg).1, (hS g hg).2, consFields_flip])
    rw [hk, ← hE] at this
    exact this
  have hrel := runN_related_along (p := p.loop) one_pos
    (freshRun_related (p := p.loop) (Rel := fun W W' : Cell → Fields d n ℝ => W' = fun C => (W (reflect (ax b) (nx (ax b) + 2 * ng) C)).flip b) one_pos hst p.tIni)
    clock m (hy := globHydro p nx ng X Gr order) (hy' := globHydro p' nx ng X' Gr' order') (fun j hj hr h' hR =>
      globHydro_mirror hd3 hpos hng hsz hp he L hx hx' hg hall hall' (fun hs D hD C hC side => hrec hs j hj _ rfl hr D hD C hC side) hR)
  rw [scaleTime_one, one_mul] at hrel
  rw [hp.loop, hp.tIni] at hz'
  have hfl : ∀ s : Fields d n ℝ, s.actVec (flipVec b) = s.flip b := fun s => s.flip_actVec b
  refine ⟨z, z', e, e', seenState hm hp.eos hp.temp (fun W C => ?_) hz hz' ?_⟩
  · simp only [hfl]
    rw [hk]
    exact congrFun (primGlob_mirror p.hydro.eos _ W) C
  · simp only [hfl]
    rw [hk, ← hE]
    exact hrel

/-- **C81**, mirrors. Two runs of the whole program without pressure fix, on any process grids: the second is the first with axis `b` reversed:
mesh, boundary conditions, force, initial densities, velocities, pressures and scalars; everything else is the same. With HLL and the low-Mach
solver always, with HLLC if in every turn of the first run the states extrapolated to the faces normal to `b` have positive density and
pressure, both runs make the same turns: after any number of turns they have the same status, time and counters, and every field of every cell (ghosts included) and every dataset of every
file of the second is that of the first seen in the mirror. -/
theorem C81_mirror_partial (hd3 : d ≤ 3) (hpos : ∀ a, 0 < nx a) (hng : 2 ≤ ng) (ho : ParamsOk p order) (ho' : ParamsOk p' order')
    (hall : order.Perm (List.range (2 * d))) (hall' : order'.Perm (List.range (2 * d))) (hp : p.Mirrored b p') (he : p.hydro.eos.Lawful)
    (hA : MachineOk nx ng Gr A) (hB : MachineOk nx ng Gr' B) (L : ℝ)
    (hx : ∀ i, 0 ≤ i → i ≤ nx (ax b) + 2 * ng → X' (ax b) i = L - X (ax b) (nx (ax b) + 2 * ng - i))
    (hx' : ∀ y, y ≠ ax b → ∀ i, 0 ≤ i → i ≤ nx y + 2 * nghostOf d ng y → X' y i = X y i)
    (hg : ∀ W C a, inExt (globExt nx (nghostOf d ng)) C = true →
      Gr' (fun C => (W (reflect (ax b) (nx (ax b) + 2 * ng) C)).flip b) C a = (if a = b then -1 else 1) * Gr W (reflect (ax b) (nx (ax b) + 2 * ng) C) a)
    (hS : ∀ g, inBox 0 nx g → S' g = (S (reflect (ax b) (nx (ax b)) g)).flip b ∧ Fx' g = Fx (reflect (ax b) (nx (ax b)) g))
    {U U' : Cell → View Cell (Fields d n ℝ)} {up up' : Cell → View Cell (VelPres d ℝ)} (hi : InitOf nx ng A S Fx U up)
    (hi' : InitOf nx ng B S' Fx' U' up') (clock : ℕ → Bool) (m : ℕ)
    (hrec : p.hydro.sol = .hllc → ∀ j < m, ∀ z, progRun p nx (nghostOf d ng) (borderOf A.dims) A clock (progFresh p nx (nghostOf d ng) (borderOf A.dims) A X U up) j = some z →
      z.status = .running → ∀ W, HoldsAll nx A.dims (nghostOf d ng) W z.s.h →
      ∀ D, decideStep p.loop ((globHydro p nx ng X Gr order).timeStep W) (clock j) z.s = .ok D → ∀ C, layer d (globExt nx (nghostOf d ng)) (ng - 1) C →
      ∀ side, (recVal p.hydro.lim p.hydro.eos p.hydro.tr .cartesian (globGrid p.hydro.tr .cartesian X (Gr W)) (D.dt / 2) W
        (primGlob p.hydro.eos W) C side b).cons.Adm p.hydro.eos) :
    ∃ z z', progRun p nx (nghostOf d ng) (borderOf A.dims) A clock (progFresh p nx (nghostOf d ng) (borderOf A.dims) A X U up) m = some z ∧
      progRun p' nx (nghostOf d ng) (borderOf B.dims) B clock (progFresh p' nx (nghostOf d ng) (borderOf B.dims) B X' U' up') m = some z' ∧
      SeenState (reflect (ax b) (nx (ax b))) (flipVec b) nx nx ng A.dims B.dims z z' := by
  refine mirror_run hd3 hpos hng ho ho' hall hall' hp he hA hB L hx hx' hg hS hi hi' clock m fun hh j hj r hr hrun D hD C hC side => ?_
  obtain ⟨z0, e0, h0⟩ := progFresh_follows (X := X) hd3 (fun a => (hpos a).le) hng ho hA hi
  obtain ⟨z, e, hz⟩ := progRun_follows hd3 (fun a => (hpos a).le) hng ho hA clock e0 h0 j
  rw [← hr] at hz
  exact hrec hh j hj z e (hz.status.trans hrun) r.s.h hz.h D (by rw [decideStep_fluid p.loop _ (clock j) hz.s]; exact hD) C hC side

/-- **C81**, mirrors, HLL and low-Mach solver. As `C81_mirror_partial`, with no assumption about the states of the run: every reconstruction, every
Courant number, gravity and heating, states of any sign. -/
theorem C81_mirror_any_partial (hd3 : d ≤ 3) (hpos : ∀ a, 0 < nx a) (hng : 2 ≤ ng) (ho : ParamsOk p order) (ho' : ParamsOk p' order')
    (hall : order.Perm (List.range (2 * d))) (hall' : order'.Perm (List.range (2 * d))) (hp : p.Mirrored b p') (he : p.hydro.eos.Lawful)
    (hsol : p.hydro.sol ≠ .hllc) (hA : MachineOk nx ng Gr A) (hB : MachineOk nx ng Gr' B) (L : ℝ)
    (hx : ∀ i, 0 ≤ i → i ≤ nx (ax b) + 2 * ng → X' (ax b) i = L - X (ax b) (nx (ax b) + 2 * ng - i))
    (hx' : ∀ y, y ≠ ax b → ∀ i, 0 ≤ i → i ≤ nx y + 2 * nghostOf d ng y → X' y i = X y i)
    (hg : ∀ W C a, inExt (globExt nx (nghostOf d ng)) C = true →
      Gr' (fun C => (W (reflect (ax b) (nx (ax b) + 2 * ng) C)).flip b) C a = (if a = b then -1 else 1) * Gr W (reflect (ax b) (nx (ax b) + 2 * ng) C) a)
    (hS : ∀ g, inBox 0 nx g → S' g = (S (reflect (ax b) (nx (ax b)) g)).flip b ∧ Fx' g = Fx (reflect (ax b) (nx (ax b)) g))
    {U U' : Cell → View Cell (Fields d n ℝ)} {up up' : Cell → View Cell (VelPres d ℝ)} (hi : InitOf nx ng A S Fx U up)
    (hi' : InitOf nx ng B S' Fx' U' up') (clock : ℕ → Bool) (m : ℕ) :
    ∃ z z', progRun p nx (nghostOf d ng) (borderOf A.dims) A clock (progFresh p nx (nghostOf d ng) (borderOf A.dims) A X U up) m = some z ∧
      progRun p' nx (nghostOf d ng) (borderOf B.dims) B clock (progFresh p' nx (nghostOf d ng) (borderOf B.dims) B X' U' up') m = some z' ∧
      SeenState (reflect (ax b) (nx (ax b))) (flipVec b) nx nx ng A.dims B.dims z z' :=
  mirror_run hd3 hpos hng ho ho' hall hall' hp he hA hB L hx hx' hg hS hi hi' clock m fun h => absurd h hsol

/-- A second-order run with the low-Mach solver on 8 x 6 cells, on 2 x 3 ranks, and the run with the first axis
reversed, on 4 ranks, from any initial state. -/
example (p : ProgParams 2 1) (hb : p.hydro.bcs = ![![.nullGradient, .reflexive], ![.reflexive, .reflexive]])
    (hpo : p.hydro.order = [some 2, some 0, some 3, some 1]) (hs : p.step = .off) (hf : p.fix = none) (ht : p.top = 10 ^ 308) {g : Gas} (hg : g.Physical)
    (he : p.hydro.eos = PerfectGas.toEoS g) (hge : p.hydro.geom = .cartesian) (hl : p.hydro.lim = .minmod) (hsol : p.hydro.sol = .splitting)
    (S : Cell → Prim 2 ℝ) (Fx : Cell → Fin 1 → ℝ) (clock : ℕ → Bool) (m : ℕ) :
    let p' : ProgParams 2 1 := { p with hydro := { p.hydro with bcs := ![![.reflexive, .nullGradient], ![.reflexive, .reflexive]] } }
    ∃ (A B : Machine 2 1) (IA IB : (Cell → View Cell (Fields 2 1 ℝ)) × (Cell → View Cell (VelPres 2 ℝ))) (z z' : ProgState 2 1),
      A.dims = ![2, 3, 1] ∧ B.dims = ![4, 1, 1] ∧
      progRun p ![8, 6, 1] (nghostOf 2 2) (borderOf A.dims) A clock
        (progFresh p ![8, 6, 1] (nghostOf 2 2) (borderOf A.dims) A (fun _ i => (i : ℝ) / 10) IA.1 IA.2) m = some z ∧
      progRun p' ![8, 6, 1] (nghostOf 2 2) (borderOf B.dims) B clock
        (progFresh p' ![8, 6, 1] (nghostOf 2 2) (borderOf B.dims) B (fun _ i => (i : ℝ) / 10) IB.1 IB.2) m = some z' ∧
      SeenState (reflect 0 8) (flipVec 0) ![8, 6, 1] ![8, 6, 1] 2 A.dims B.dims z z' := by
  intro p'
  have hpos : ∀ a, 0 < (![8, 6, 1] : Cell) a := by decide
  have hN : ∀ a, 0 ≤ (![8, 6, 1] : Cell) a := by decide
  have hp : ParamsOk p [2, 0, 3, 1] := ⟨by rw [hb]; decide, by decide, hpo, fun _ => one_pos, by rw [ht]; norm_num⟩
  have hp' : ParamsOk p' [2, 0, 3, 1] := ⟨by show ∀ a f, (![![.reflexive, .nullGradient], ![.reflexive, .reflexive]] : Fin 2 → Fin 2 → BcKind) a f ≠ _; decide, by decide, hpo, hp.heat, hp.top⟩
  have hA := mkMachine_ok (d := 2) (n := 1) hN (dims := ![2, 3, 1]) (by decide) 0 (by norm_num) (demo_size _ (.inl rfl))
  have hB := mkMachine_ok (d := 2) (n := 1) hN (dims := ![4, 1, 1]) (by decide) 0 (by norm_num) (demo_size _ (.inr rfl))
  obtain ⟨z, z', e, e', h⟩ := C81_mirror_any_partial (p := p) (p' := p') (b := (0 : Fin 2)) (S := S) (Fx := Fx) (X := fun _ i => (i : ℝ) / 10)
    (X' := fun _ i => (i : ℝ) / 10) (by norm_num) hpos (by norm_num) hp hp' (by decide) (by decide)
    ⟨rfl, rfl, rfl, rfl, rfl, hge, hge, by
      rw [hb]
      show ∀ a f, (![![.reflexive, .nullGradient], ![.reflexive, .reflexive]] : Fin 2 → Fin 2 → BcKind) a f = _
      decide, rfl, rfl, rfl, hf, hf, rfl⟩ (by rw [he]; exact PerfectGas.lawful hg) (by rw [hsol]; decide) hA hB (12 / 10)
    (fun i _ _ => by
      rw [show (![8, 6, 1] : Cell) (ax (0 : Fin 2)) = 8 from rfl]
      push_cast
      ring) (fun y _ i _ _ => rfl) (fun W C a _ => (mul_zero _).symm) (fun g _ => ⟨rfl, rfl⟩) (initArrays_ok S Fx)
    (initArrays_ok (fun g => (S (reflect 0 8 g)).flip 0) fun g => Fx (reflect 0 8 g)) clock m
  exact ⟨_, _, _, _, z, z', rfl, rfl, e, e', h⟩

/-- **C81**, mirrors, first order. With the constant reconstruction, HLL or HLLC, without gravity, pressure fix and heating, and a Courant number
at most `1 / (2 d κ)` (`κ` bounds the ratio of the lengths of neighbouring cells), the run seen in a mirror is the run of the mirrored problem,
from any initial state of positive density and pressure, with no assumption about later states. -/
theorem C81_mirror_first_order_partial (hd3 : d ≤ 3) (hpos : ∀ a, 0 < nx a) (hng : 2 ≤ ng) (ho : ParamsOk p order) (ho' : ParamsOk p' order')
    (hall : order.Perm (List.range (2 * d))) (hall' : order'.Perm (List.range (2 * d))) (hp : p.Mirrored b p') (he : p.hydro.eos.Lawful)
    (hf : p.hydro.eos.Fast) (hpe : p.hydro.eos.Positive) (hlim : p.hydro.lim = .constant) (hsol : p.hydro.sol = .hll ∨ p.hydro.sol = .hllc)
    (h0 : ∀ W C a, Gr W C a = 0) (h0' : ∀ W C a, Gr' W C a = 0) (hs : p.step ≠ .heatNickel) {κ : ℝ} (hκ : 0 ≤ κ)
    (hX : SmoothMesh d nx ng κ X) (hc0 : 0 ≤ p.loop.cfl) (hcfl : 2 * d * κ * p.loop.cfl ≤ 1) (ht : p.tIni ≤ p.loop.tEnd)
    (hA : MachineOk nx ng Gr A) (hB : MachineOk nx ng Gr' B) (L : ℝ)
    (hx : ∀ i, 0 ≤ i → i ≤ nx (ax b) + 2 * ng → X' (ax b) i = L - X (ax b) (nx (ax b) + 2 * ng - i))
    (hx' : ∀ y, y ≠ ax b → ∀ i, 0 ≤ i → i ≤ nx y + 2 * nghostOf d ng y → X' y i = X y i)
    (hS0 : ∀ g, inBox 0 nx g → 0 < (S g).rho ∧ 0 < (S g).P)
    (hS : ∀ g, inBox 0 nx g → S' g = (S (reflect (ax b) (nx (ax b)) g)).flip b ∧ Fx' g = Fx (reflect (ax b) (nx (ax b)) g))
    {U U' : Cell → View Cell (Fields d n ℝ)} {up up' : Cell → View Cell (VelPres d ℝ)} (hi : InitOf nx ng A S Fx U up)
    (hi' : InitOf nx ng B S' Fx' U' up') (clock : ℕ → Bool) (m : ℕ) :
    ∃ z z', progRun p nx (nghostOf d ng) (borderOf A.dims) A clock (progFresh p nx (nghostOf d ng) (borderOf A.dims) A X U up) m = some z ∧
      progRun p' nx (nghostOf d ng) (borderOf B.dims) B clock (progFresh p' nx (nghostOf d ng) (borderOf B.dims) B X' U' up') m = some z' ∧
      SeenState (reflect (ax b) (nx (ax b))) (flipVec b) nx nx ng A.dims B.dims z z' := by
  have hd : 0 < d := lt_of_le_of_lt (Nat.zero_le _) b.isLt
  refine mirror_run hd3 hpos hng ho ho' hall hall' hp he hA hB L hx hx' (fun W C a _ => by rw [h0, h0', mul_zero]) hS hi hi' clock m
    fun _ j hj r hr hrun D hD C hC side => ?_
  set W0 := bcGlob p.hydro.bcs nx (nghostOf d ng) order fun g => consFields p.hydro.eos (S g) (Fx g) with hW0
  have htt : ∀ W, (freshRun p.loop p.tIni W : RunState (Cell → Fields d n ℝ) ℝ).s.t = p.tIni := fun W => by unfold freshRun; split <;> rfl
  have hinit : ∀ C, (W0 C).cons.Adm p.hydro.eos := fun C => by
    refine bcGlob_forall (I := fun s => s.cons.Adm p.hydro.eos) hpos (fun s a h => Fields.flip_adm s a h) (fun g hg => ?_) C
    have e1 : toPrim p.hydro.eos (consFields p.hydro.eos (S g) (Fx g)).cons = S g := toPrim_toCons he (hS0 g hg).1
    refine ⟨(hS0 g hg).1, ?_⟩
    have := congrArg Prim.P e1
    rw [toPrim_eq] at this
    dsimp only at this
    rw [this]
    exact (hS0 g hg).2
  have h1 := freshRun_invariant (q := p.loop) (t := p.tIni) (I := fun (W : Cell → Fields d n ℝ) => ∀ C, (W C).cons.Adm p.hydro.eos) hinit
  have key := runN_invariant_dt (q := p.loop) (hy := globHydro p nx ng X Gr order) (clock := clock)
    (I := fun (W : Cell → Fields d n ℝ) => ∀ C, (W C).cons.Adm p.hydro.eos) h1.1 h1.2 (by rw [htt]; exact ht)
    (fun W hW => mul_nonneg hc0 (glob_dt (Gr := Gr) (order := order) hd hd3 hpos hng he hp.cart hκ hX hc0 hcfl hW).1.le)
    (fun W t dt hW q1 q2 => advance_adm hd hd3 hpos hng he hf hpe hlim hsol hp.cart h0 hp.fix hs hκ hX hc0 hcfl hW t q1 q2) j
  rw [← hr] at key
  have hW := key.1
  rw [hlim]
  have hpr : ∀ C, primGlob p.hydro.eos r.s.h C = ⟨(toPrim p.hydro.eos (r.s.h C).cons).u, (toPrim p.hydro.eos (r.s.h C).cons).P⟩ := fun C => primGlob_toPrim ..
  rw [recVal_constant he p.hydro.tr _ _ (hW C).1 (hpr C) (fun a => h0 _ _ a) (fun a => dsFun_nb p.hydro.tr X (fun a i => X a (i + 1) - X a i) C a)]
  exact hW C

/-- **C81**, symmetric problems, first order. Under the conditions of `C81_mirror_first_order_partial`, if mesh, boundary conditions and initial state
are those of their mirror image along `b`, then so are all later states and all files: in two cells that are mirror images of each other
densities, energies and scalars are the same, and so are the momenta but for the component along `b`, which is opposite. -/
theorem C81_mirror_symmetric_partial (hd3 : d ≤ 3) (hpos : ∀ a, 0 < nx a) (hng : 2 ≤ ng) (ho : ParamsOk p order)
    (hall : order.Perm (List.range (2 * d))) (hcart : p.hydro.geom = .cartesian) (hfix : p.fix = none)
    (hbc : p.hydro.bcs b 1 = p.hydro.bcs b 0) (he : p.hydro.eos.Lawful)
    (hf : p.hydro.eos.Fast) (hpe : p.hydro.eos.Positive) (hlim : p.hydro.lim = .constant) (hsol : p.hydro.sol = .hll ∨ p.hydro.sol = .hllc)
    (h0 : ∀ W C a, Gr W C a = 0) (hs : p.step ≠ .heatNickel) {κ : ℝ} (hκ : 0 ≤ κ)
    (hX : SmoothMesh d nx ng κ X) (hc0 : 0 ≤ p.loop.cfl) (hcfl : 2 * d * κ * p.loop.cfl ≤ 1) (ht : p.tIni ≤ p.loop.tEnd)
    (hA : MachineOk nx ng Gr A) (L : ℝ)
    (hx : ∀ i, 0 ≤ i → i ≤ nx (ax b) + 2 * ng → X (ax b) i = L - X (ax b) (nx (ax b) + 2 * ng - i))
    (hS0 : ∀ g, inBox 0 nx g → 0 < (S g).rho ∧ 0 < (S g).P)
    (hS : ∀ g, inBox 0 nx g → S g = (S (reflect (ax b) (nx (ax b)) g)).flip b ∧ Fx g = Fx (reflect (ax b) (nx (ax b)) g))
    {U : Cell → View Cell (Fields d n ℝ)} {up : Cell → View Cell (VelPres d ℝ)} (hi : InitOf nx ng A S Fx U up) (clock : ℕ → Bool) (m : ℕ) :
    ∃ z, progRun p nx (nghostOf d ng) (borderOf A.dims) A clock (progFresh p nx (nghostOf d ng) (borderOf A.dims) A X U up) m = some z ∧
      (∀ rank rank' c c', inBox 0 A.dims rank → inBox 0 A.dims rank' →
        inExt (localExt nx A.dims (nghostOf d ng) rank) c = true → inExt (localExt nx A.dims (nghostOf d ng) rank') c' = true →
        globalOf nx A.dims (nghostOf d ng) rank c = reflect (ax b) (nx (ax b)) (globalOf nx A.dims (nghostOf d ng) rank' c') →
        (z.s.h.val rank' c').rho = (z.s.h.val rank c).rho ∧ (z.s.h.val rank' c').rhou b = -(z.s.h.val rank c).rhou b ∧
        (∀ a, a ≠ b → (z.s.h.val rank' c').rhou a = (z.s.h.val rank c).rhou a) ∧
        (z.s.h.val rank' c').E = (z.s.h.val rank c).E ∧ (z.s.h.val rank' c').fx = (z.s.h.val rank c).fx) ∧
      ∀ f ∈ z.files, ∀ g, inBox 0 nx g → let g' := reflect (ax b) (nx (ax b)) g
        f.h.rho.at g = f.h.rho.at g' ∧ (f.h.u b).at g = -(f.h.u b).at g' ∧ (∀ a, a ≠ b → (f.h.u a).at g = (f.h.u a).at g') ∧
        f.h.P.at g = f.h.P.at g' ∧ f.h.E.at g = f.h.E.at g' ∧ f.h.T.at g = f.h.T.at g' ∧ ∀ l, (f.h.fx l).at g = (f.h.fx l).at g' := by
  obtain ⟨z, z', e, e', h⟩ := C81_mirror_first_order_partial hd3 hpos hng ho ho hall hall
    (p := p) (p' := p) (b := b) ⟨rfl, rfl, rfl, rfl, rfl, hcart, hcart, fun a f => by
      split_ifs with hab
      · subst hab
        fin_cases f
        · exact hbc.symm
        · exact hbc
      · rfl, rfl, rfl, rfl, hfix, hfix, rfl⟩ he hf hpe hlim hsol h0 h0 hs hκ hX hc0 hcfl ht hA hA L hx (fun _ _ _ _ _ => rfl) hS0 hS hi hi clock m
  obtain rfl : z = z' := Option.some.inj (e.symm.trans e')
  refine ⟨z, e, fun k k' c c' hk hk' hc hc' eg => ?_, fun f hf g hgb => ?_⟩
  · obtain ⟨h1, h2, h3, h4⟩ := h.fluid k k' c c' hk hk' hc hc' eg
    refine ⟨h1, ?_, fun a ha => ?_, h3, h4⟩
    · rw [h2]
      simp [flipVec]
    · rw [h2]
      simp [flipVec, ha]
  · have hs := forall₂_diag h.files f hf
    refine ⟨hs.rho g hgb, ?_, fun a ha => ?_, hs.P g hgb, hs.E g hgb, hs.T g hgb, hs.fx g hgb⟩
    · refine (hs.u g hgb b).trans ?_
      simp [flipVec, View.at]
    · refine (hs.u g hgb a).trans ?_
      simp [flipVec, View.at, ha]

/-- A perfect gas with the constant reconstruction and HLLC between an inflow and a wall, on 8 x 6 cells: the run on 2 x 3 ranks and the
mirrored run, the wall first, on 4 ranks. -/
example (p : ProgParams 2 1) (hb : p.hydro.bcs = ![![.nullGradient, .reflexive], ![.periodic, .periodic]])
    (hpo : p.hydro.order = [some 2, some 0, some 3, some 1]) (hs : p.step = .off) (hf : p.fix = none) (ht : p.top = 10 ^ 308) {g : Gas} (hg : g.Physical)
    (he : p.hydro.eos = PerfectGas.toEoS g) (hge : p.hydro.geom = .cartesian) (hl : p.hydro.lim = .constant) (hsol : p.hydro.sol = .hllc)
    (hc : p.loop.cfl = 1 / 4) (h0 : p.tIni = 0) (h1 : p.loop.tEnd = 1) (S : Cell → Prim 2 ℝ)
    (hS : ∀ g, inBox 0 ![8, 6, 1] g → 0 < (S g).rho ∧ 0 < (S g).P) (Fx : Cell → Fin 1 → ℝ) (clock : ℕ → Bool) (m : ℕ) :
    let p' : ProgParams 2 1 := { p with hydro := { p.hydro with bcs := ![![.reflexive, .nullGradient], ![.periodic, .periodic]] } }
    ∃ (A B : Machine 2 1) (IA IB : (Cell → View Cell (Fields 2 1 ℝ)) × (Cell → View Cell (VelPres 2 ℝ))) (z z' : ProgState 2 1),
      A.dims = ![2, 3, 1] ∧ B.dims = ![4, 1, 1] ∧
      progRun p ![8, 6, 1] (nghostOf 2 2) (borderOf A.dims) A clock
        (progFresh p ![8, 6, 1] (nghostOf 2 2) (borderOf A.dims) A (fun _ i => (i : ℝ) / 10) IA.1 IA.2) m = some z ∧
      progRun p' ![8, 6, 1] (nghostOf 2 2) (borderOf B.dims) B clock
        (progFresh p' ![8, 6, 1] (nghostOf 2 2) (borderOf B.dims) B (fun _ i => (i : ℝ) / 10) IB.1 IB.2) m = some z' ∧
      SeenState (reflect 0 8) (flipVec 0) ![8, 6, 1] ![8, 6, 1] 2 A.dims B.dims z z' := by
  intro p'
  have hpos : ∀ a, 0 < (![8, 6, 1] : Cell) a := by decide
  have hN : ∀ a, 0 ≤ (![8, 6, 1] : Cell) a := by decide
  have hp : ParamsOk p [2, 0, 3, 1] := ⟨by rw [hb]; decide, by decide, hpo, fun _ => one_pos, by rw [ht]; norm_num⟩
  have hp' : ParamsOk p' [2, 0, 3, 1] := ⟨by show ∀ a f, (![![.reflexive, .nullGradient], ![.periodic, .periodic]] : Fin 2 → Fin 2 → BcKind) a f ≠ _; decide, by decide, hpo, hp.heat, hp.top⟩
  have hA := mkMachine_ok (d := 2) (n := 1) hN (dims := ![2, 3, 1]) (by decide) 0 (by norm_num) (demo_size _ (.inl rfl))
  have hB := mkMachine_ok (d := 2) (n := 1) hN (dims := ![4, 1, 1]) (by decide) 0 (by norm_num) (demo_size _ (.inr rfl))
  have hX : SmoothMesh 2 ![8, 6, 1] 2 1 fun _ i => (i : ℝ) / 10 :=
    ⟨fun a i _ _ => by push_cast; linarith, fun a i j _ _ _ _ _ _ => by push_cast; linarith⟩
  obtain ⟨z, z', e, e', h⟩ := C81_mirror_first_order_partial (p := p) (p' := p') (b := (0 : Fin 2)) (S := S) (Fx := Fx) (X := fun _ i => (i : ℝ) / 10)
    (X' := fun _ i => (i : ℝ) / 10) (by norm_num) hpos (by norm_num) hp hp' (by decide) (by decide)
    ⟨rfl, rfl, rfl, rfl, rfl, hge, hge, by
      rw [hb]
      show ∀ a f, (![![.reflexive, .nullGradient], ![.periodic, .periodic]] : Fin 2 → Fin 2 → BcKind) a f = _
      decide, rfl, rfl, rfl, hf, hf, rfl⟩ (by rw [he]; exact PerfectGas.lawful hg)
    (by rw [he]; exact PerfectGas.fast hg) (by rw [he]; exact PerfectGas.positive hg) hl (.inr hsol) (fun _ _ _ => rfl) (fun _ _ _ => rfl) (by rw [hs]; simp)
    (by norm_num : (0 : ℝ) ≤ 1) hX (by rw [hc]; norm_num) (by rw [hc]; norm_num) (by rw [h0, h1]; norm_num) hA hB (12 / 10)
    (fun i _ _ => by
      rw [show (![8, 6, 1] : Cell) (ax (0 : Fin 2)) = 8 from rfl]
      push_cast
      ring) (fun y _ i _ _ => rfl) hS (fun g _ => ⟨rfl, rfl⟩) (initArrays_ok S Fx)
    (initArrays_ok (fun g => (S (reflect 0 8 g)).flip 0) fun g => Fx (reflect 0 8 g)) clock m
  exact ⟨_, _, _, _, z, z', rfl, rfl, e, e', h⟩

/-- An explosion in the middle of a box of 8 x 6 cells on 2 x 3 ranks: the velocities of the files are opposite on the two sides. -/
example (p : ProgParams 2 1) (hb : p.hydro.bcs = ![![.reflexive, .reflexive], ![.periodic, .periodic]])
    (hpo : p.hydro.order = [some 2, some 0, some 3, some 1]) (hs : p.step = .off) (hf : p.fix = none) (ht : p.top = 10 ^ 308) {g : Gas} (hg : g.Physical)
    (he : p.hydro.eos = PerfectGas.toEoS g) (hge : p.hydro.geom = .cartesian) (hl : p.hydro.lim = .constant) (hsol : p.hydro.sol = .hllc)
    (hc : p.loop.cfl = 1 / 4) (h0 : p.tIni = 0) (h1 : p.loop.tEnd = 1) (clock : ℕ → Bool) (m : ℕ) :
    ∃ (A : Machine 2 1) (IA : (Cell → View Cell (Fields 2 1 ℝ)) × (Cell → View Cell (VelPres 2 ℝ))) (z : ProgState 2 1), A.dims = ![2, 3, 1] ∧
      progRun p ![8, 6, 1] (nghostOf 2 2) (borderOf A.dims) A clock
        (progFresh p ![8, 6, 1] (nghostOf 2 2) (borderOf A.dims) A (fun _ i => (i : ℝ) / 10) IA.1 IA.2) m = some z ∧
      ∀ f ∈ z.files, ∀ g, inBox 0 ![8, 6, 1] g → (f.h.u 0).at g = -(f.h.u 0).at (reflect 0 8 g) := by
  have hpos : ∀ a, 0 < (![8, 6, 1] : Cell) a := by decide
  have hN : ∀ a, 0 ≤ (![8, 6, 1] : Cell) a := by decide
  have hp : ParamsOk p [2, 0, 3, 1] := ⟨by rw [hb]; decide, by decide, hpo, fun _ => one_pos, by rw [ht]; norm_num⟩
  have hA := mkMachine_ok (d := 2) (n := 1) hN (dims := ![2, 3, 1]) (by decide) 0 (by norm_num) (demo_size _ (.inl rfl))
  have hX : SmoothMesh 2 ![8, 6, 1] 2 1 fun _ i => (i : ℝ) / 10 :=
    ⟨fun a i _ _ => by push_cast; linarith, fun a i j _ _ _ _ _ _ => by push_cast; linarith⟩
  obtain ⟨z, e, -, h⟩ := C81_mirror_symmetric_partial (p := p) (b := (0 : Fin 2)) (S := fun g => ⟨1, 0, if 3 ≤ g 0 ∧ g 0 ≤ 4 then 10 else 1⟩)
    (Fx := fun _ _ => 0) (X := fun _ i => (i : ℝ) / 10) (by norm_num) hpos (by norm_num) hp (by decide) hge hf (by rw [hb]; rfl)
    (by rw [he]; exact PerfectGas.lawful hg) (by rw [he]; exact PerfectGas.fast hg) (by rw [he]; exact PerfectGas.positive hg) hl (.inr hsol)
    (fun _ _ _ => rfl) (by rw [hs]; simp) (by norm_num : (0 : ℝ) ≤ 1) hX (by rw [hc]; norm_num) (by rw [hc]; norm_num) (by rw [h0, h1]; norm_num) hA (12 / 10)
    (fun i _ _ => by
      rw [show (![8, 6, 1] : Cell) (ax (0 : Fin 2)) = 8 from rfl]
      push_cast
      ring) (fun g _ => ⟨one_pos, by dsimp only; split <;> norm_num⟩) (fun g _ => ⟨Prim.ext rfl (funext fun i => by simp [Prim.flip]) (by
        show (if 3 ≤ g 0 ∧ g 0 ≤ 4 then (10 : ℝ) else 1) = if 3 ≤ reflect 0 8 g 0 ∧ reflect 0 8 g 0 ≤ 4 then 10 else 1
        have : reflect 0 8 g 0 = 7 - g 0 := by simp [reflect]
        rw [this]
        refine if_congr ?_ rfl rfl
        omega), rfl⟩) (initArrays_ok _ _) clock m
  exact ⟨_, _, z, rfl, e, fun f hf g hg => (h f hf g hg).2.1⟩

end Mirror

/-! ### The pressure fix -/

/-- The fluid of an array seen in a mirror across the middle of direction 1. -/
def mirrorY {n : ℕ} (U : Cell → Fields 2 n ℚ) (c : Cell) : Fields 2 n ℚ := (U (reflect 1 5 c)).flip 1

theorem lindex_two (c : Cell) : lindex ((0 : Fin 2) : ℕ) c = ![c 0 - 1, c 1, c 2] ∧ lindex ((1 : Fin 2) : ℕ) c = ![c 0, c 1 - 1, c 2] := by
  constructor <;> funext b <;> fin_cases b <;> simp [lindex, kron]

theorem rindex_two (c : Cell) : rindex ((0 : Fin 2) : ℕ) c = ![c 0 + 1, c 1, c 2] ∧ rindex ((1 : Fin 2) : ℕ) c = ![c 0, c 1 + 1, c 2] := by
  constructor <;> funext b <;> fin_cases b <;> simp [rindex, kron]

/-- C81 is violated by the pressure fix. On an array of 5 x 5 unit cells with a shear flow, velocity `(0, x)`, density 1, internal energy 1/100,
equal reconstructed states, the fix triggers in the middle cell. Applied to the flow seen in a mirror across direction 1 (and to the mirrored
result of the Godunov update), it gives this cell, its own mirror image, another energy. -/
theorem C81_fix_mirror_violated (g : GridData ℚ) (l : List Cell) (new : Cell → Fields 2 0 ℚ)
    (hf : FixFits g ![1, 1, 0] ![4, 4, 1] l ⟨inExt ![5, 5, 1], fun c => shear (c 0)⟩ ⟨inExt ![5, 5, 1], fun c _ _ => shear (c 0)⟩ ⟨inExt ![5, 5, 1], new⟩)
    (hds : ∀ c x, g.ds.val c x = 1) (hdv : ∀ c, g.dv.val c = 1) :
    ∃ out out', pressureFix gasQ g (1 / 10) (1 / 10) l ⟨inExt ![5, 5, 1], fun c => shear (c 0)⟩ ⟨inExt ![5, 5, 1], fun c _ _ => shear (c 0)⟩
        ⟨inExt ![5, 5, 1], new⟩ = some out ∧
      pressureFix gasQ g (1 / 10) (1 / 10) l ⟨inExt ![5, 5, 1], mirrorY fun c => shear (c 0)⟩ ⟨inExt ![5, 5, 1], fun c _ _ => mirrorY (fun c => shear (c 0)) c⟩
        ⟨inExt ![5, 5, 1], mirrorY new⟩ = some out' ∧
      reflect 1 5 ![2, 2, 0] = ![2, 2, 0] ∧ (mirrorY new ![2, 2, 0]).E = (new ![2, 2, 0]).E ∧
      (out'.val ![2, 2, 0]).E = (out.val ![2, 2, 0]).E + 1 / 300 := by
  have hc : reflect 1 5 ![2, 2, 0] = ![2, 2, 0] := by
    funext x; fin_cases x <;> simp [reflect]
  have hM : ∀ c, mirrorY (fun c => shear (c 0)) c = shear (-(c 0 : ℚ)) := fun c => by
    refine Fields.ext rfl (funext fun i => ?_) ?_ rfl
    · fin_cases i <;> simp [mirrorY, Fields.flip, shear, reflect]
    · simp [mirrorY, Fields.flip, shear, reflect]
  have hb : inBox ![1, 1, 0] ![4, 4, 1] ![2, 2, 0] := fun x => by fin_cases x <;> simp
  refine ⟨_, _, pressureFix_eq gasQ g _ _ hf, pressureFix_eq gasQ g _ _ ⟨hf.sched, hf.new, hf.own, hf.left, hf.right⟩, hc, ?_, ?_⟩
  · unfold mirrorY
    rw [hc]
    rfl
  · simp only [if_pos hb]
    unfold fixVal
    have hl := lindex_two ![2, 2, 0]
    have hr := rindex_two ![2, 2, 0]
    simp only [hM]
    rw [if_pos (by norm_num [internal, kinetic, shear, Fin.sum_univ_two]), if_pos (by norm_num [internal, kinetic, shear, Fin.sum_univ_two])]
    simp only [pressureFixEnergy, Fin.sum_univ_two, hl, hr, hds, hdv, toPrim, gasQ, Cons.ek, Cons.evol, Fields.cons, shear]
    norm_num

/-- Arrays and loop order of the theorem above. -/
example (new : Cell → Fields 2 0 ℚ) := C81_fix_mirror_violated
  ⟨fun _ => View.line 6 fun i => i, fun _ => View.line 5 fun _ => 1, fun _ => View.line 5 fun _ => 1, ⟨inExt ![5, 5, 1], fun _ _ => 1⟩,
    ⟨inExt ![5, 5, 1], fun _ => 1⟩⟩ (boxList ![1, 1, 0] ![4, 4, 1]) new
  (by
    have hd : ∀ c : Cell, inBox ![1, 1, 0] ![4, 4, 1] c → ∀ i j : ℤ, -1 ≤ i → i ≤ 1 → -1 ≤ j → j ≤ 1 → inExt ![5, 5, 1] ![c 0 + i, c 1 + j, c 2] = true := by
      intro c hc i j _ _ _ _
      have h0 : 1 ≤ c 0 ∧ c 0 < 4 := hc 0
      have h1 : 1 ≤ c 1 ∧ c 1 < 4 := hc 1
      have h2 : 0 ≤ c 2 ∧ c 2 < 1 := hc 2
      rw [inExt_iff]
      intro x
      fin_cases x <;> simp <;> omega
    have own : ∀ c : Cell, inBox ![1, 1, 0] ![4, 4, 1] c → inExt ![5, 5, 1] c = true := fun c hc => by
      have := hd c hc 0 0 (by norm_num) (by norm_num) (by norm_num) (by norm_num)
      rwa [show ![c 0 + 0, c 1 + 0, c 2] = c from funext fun x => by fin_cases x <;> simp] at this
    have left : ∀ c : Cell, inBox ![1, 1, 0] ![4, 4, 1] c → ∀ a : Fin 2, inExt ![5, 5, 1] (lindex a.val c) = true := fun c hc a => by
      fin_cases a
      · rw [show ((⟨0, by norm_num⟩ : Fin 2).val) = ((0 : Fin 2) : ℕ) from rfl, (lindex_two c).1]
        simpa [sub_eq_add_neg] using hd c hc (-1) 0 (by norm_num) (by norm_num) (by norm_num) (by norm_num)
      · rw [show ((⟨1, by norm_num⟩ : Fin 2).val) = ((1 : Fin 2) : ℕ) from rfl, (lindex_two c).2]
        simpa [sub_eq_add_neg] using hd c hc 0 (-1) (by norm_num) (by norm_num) (by norm_num) (by norm_num)
    have right : ∀ c : Cell, inBox ![1, 1, 0] ![4, 4, 1] c → ∀ a : Fin 2, inExt ![5, 5, 1] (rindex a.val c) = true := fun c hc a => by
      fin_cases a
      · rw [show ((⟨0, by norm_num⟩ : Fin 2).val) = ((0 : Fin 2) : ℕ) from rfl, (rindex_two c).1]
        simpa using hd c hc 1 0 (by norm_num) (by norm_num) (by norm_num) (by norm_num)
      · rw [show ((⟨1, by norm_num⟩ : Fin 2).val) = ((1 : Fin 2) : ℕ) from rfl, (rindex_two c).2]
        simpa using hd c hc 0 1 (by norm_num) (by norm_num) (by norm_num) (by norm_num)
    exact ⟨boxList_isSchedule _ _, own, fun c hc => ⟨own c hc, own c hc, own c hc, own c hc⟩, fun c hc a => ⟨left c hc a, left c hc a⟩,
      fun c hc a => ⟨right c hc a, right c hc a, right c hc a⟩⟩)
  (fun _ _ => rfl) fun _ => rfl

end Heracles

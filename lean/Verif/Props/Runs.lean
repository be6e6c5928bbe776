import Verif.Props.Program
import Verif.Props.Uniform
import Verif.Props.Transport

/-!
# Whole runs

C69: what holds in every file of a run, on every process grid: conserved totals on a periodic Cartesian box, fractions in `[0, 1]`, a fluid
at rest that stays at rest.
-/

namespace Heracles

variable {d n : ℕ}

/-- Volume of cell `g` of the domain in Cartesian coordinates, nodes `X` with `ng` ghosts in the `d` active directions. -/
def boxCellVol (d : ℕ) (ng : ℤ) (X : Fin 3 → ℤ → ℝ) (g : Cell) : ℝ :=
  ∏ a : Fin 3, (X a (g a + (if a.val < d then ng else 0) + 1) - X a (g a + if a.val < d then ng else 0))

/-- The cells of the domain. -/
noncomputable def domain (nx : Cell) : Finset Cell := Fintype.piFinset fun a => Finset.Ico 0 (nx a)

theorem mem_domain {nx g : Cell} : g ∈ domain nx ↔ inBox 0 nx g := by simp [domain, inBox, Fintype.mem_piFinset]

/-- Contents of a dataset for cell `g`: the last index of the file is the first direction. -/
def View.at (v : View (List ℤ) ℝ) (g : Cell) : ℝ := v.val [g 2, g 1, g 0]

section Lemmas

/-- An invariant of the advance holds for the fluid and for all outputs of a run. -/
theorem runN_invariant {H : Type} {q : LoopParams ℝ} {hy : Hydro H ℝ} {clock : ℕ → Bool} {I : H → Prop} {r : RunState H ℝ} (h0 : I r.s.h)
    (hout : ∀ o ∈ r.outs, I o.h) (hadv : ∀ W t dt, I W → I (hy.advance W t dt)) (k : ℕ) :
    I (runN q hy clock r k).s.h ∧ ∀ o ∈ (runN q hy clock r k).outs, I o.h := by
  induction k with
  | zero => exact ⟨h0, hout⟩
  | succ k ih =>
    rw [runN]
    unfold runStep
    split
    · unfold iteration
      split
      · rename_i s out exit e
        split at e
        · cases e
        · split at e
          · cases e
          · cases e
            refine ⟨hadv _ _ _ ih.1, fun o ho => ?_⟩
            dsimp only at ho
            split at ho
            · rcases List.mem_append.1 ho with ho | ho
              · exact ih.2 o ho
              · rw [List.mem_singleton.1 ho]
                exact hadv _ _ _ ih.1
            · exact ih.2 o ho
      · rename_i f e
        split at e
        · cases e
        · split at e
          · cases e
            refine ⟨ih.1, fun o ho => ?_⟩
            rcases List.mem_append.1 ho with ho | ho
            · exact ih.2 o ho
            · rw [List.mem_singleton.1 ho]
              exact ih.1
          · cases e
      · exact ih
    · exact ih

/-- No run fails when the advance preserves an invariant under which the energy test succeeds, without outputs at given times. -/
theorem runN_not_failed {H : Type} {q : LoopParams ℝ} {hy : Hydro H ℝ} {clock : ℕ → Bool} {I : H → Prop} {r : RunState H ℝ} (h0 : I r.s.h)
    (hst : r.status ≠ .failed) (hadv : ∀ W t dt, I W → I (hy.advance W t dt)) (hbad : ∀ W, I W → hy.bad W = false) (hq : q.timeFreq ≤ 0) (k : ℕ) :
    I (runN q hy clock r k).s.h ∧ (runN q hy clock r k).status ≠ .failed := by
  induction k with
  | zero => exact ⟨h0, hst⟩
  | succ k ih =>
    rw [runN]
    unfold runStep
    split
    · have htt : ∀ dt, timeTrigger q (runN q hy clock r k).s dt = false := fun dt => by simp [timeTrigger, not_lt.2 hq]
      unfold iteration decideStep
      simp only [htt, hbad _ ih.1, Bool.false_eq_true, false_and, if_false, bind, Except.bind, pure, Except.pure]
      refine ⟨hadv _ _ _ ih.1, ?_⟩
      split <;> simp
    · exact ih

/-- A run that does not fail has done one iteration per turn as long as it is not finished, and less than the limit. -/
theorem runN_count {H : Type} {q : LoopParams ℝ} {hy : Hydro H ℝ} {clock : ℕ → Bool} {r : RunState H ℝ} (hst : r.status = .running)
    (hit : r.s.iter = 0) (hq : q.timeFreq ≤ 0) (hnf : ∀ k, (runN q hy clock r k).status ≠ .failed) (k : ℕ) :
    (runN q hy clock r k).status = .finished ∨ (runN q hy clock r k).status = .running ∧ (runN q hy clock r k).s.iter = k ∧
      (0 < k → (k : ℤ) < q.maxIter) := by
  induction k with
  | zero => exact Or.inr ⟨hst, hit, fun h => absurd h (lt_irrefl _)⟩
  | succ k ih =>
    have h1 := hnf (k + 1)
    rw [runN] at h1 ⊢
    generalize runN q hy clock r k = u at ih h1
    have htt : ∀ dt, timeTrigger q u.s dt = false := fun dt => by simp [timeTrigger, not_lt.2 hq]
    rcases ih with ih | ⟨i1, i2, -⟩
    · left
      unfold runStep
      rw [ih]
      exact ih
    · unfold runStep at h1 ⊢
      rw [i1] at h1 ⊢
      unfold iteration decideStep at h1 ⊢
      simp only [htt, Bool.false_eq_true, false_and, if_false, bind, Except.bind, pure, Except.pure] at h1 ⊢
      by_cases hb : hy.bad u.s.h = true
      · rw [if_pos hb] at h1
        exact absurd rfl h1
      · rw [if_neg hb]
        simp only
        by_cases hx : (decide (u.s.t + q.cfl * hy.timeStep u.s.h ≥ q.tEnd) || decide (u.s.iter + 1 ≥ q.maxIter) || clock k) = true
        · left; rw [if_pos hx]
        · right
          rw [if_neg hx]
          refine ⟨rfl, by rw [i2]; push_cast; ring, fun _ => ?_⟩
          simp only [Bool.or_eq_true, decide_eq_true_eq, not_or, i2] at hx
          push_cast
          omega

/-- A turn that is the last one because of the limit on the number of iterations, and the file it leaves. -/
theorem runN_last {H : Type} {q : LoopParams ℝ} {hy : Hydro H ℝ} {clock : ℕ → Bool} {r : RunState H ℝ} (hst : r.status = .running)
    (hit : q.maxIter ≤ r.s.iter + 1) (hq : q.timeFreq ≤ 0) (hbad : hy.bad r.s.h = false) (ht : r.s.t + q.cfl * hy.timeStep r.s.h < q.tEnd) :
    (runN q hy clock r 1).s.t < q.tEnd ∧ (runN q hy clock r 1).s.iter = r.s.iter + 1 ∧ (runN q hy clock r 1).s ∈ (runN q hy clock r 1).outs := by
  have htt : ∀ dt, timeTrigger q r.s dt = false := fun dt => by simp [timeTrigger, not_lt.2 hq]
  show (runStep q hy (clock 0) r).s.t < q.tEnd ∧ (runStep q hy (clock 0) r).s.iter = r.s.iter + 1 ∧
    (runStep q hy (clock 0) r).s ∈ (runStep q hy (clock 0) r).outs
  unfold runStep iteration decideStep
  rw [hst]
  simp [htt, hbad, bind, Except.bind, pure, Except.pure, hit, not_le.2 ht, ht]

theorem freshRun_invariant {H : Type} {q : LoopParams ℝ} {I : H → Prop} {t : ℝ} {h : H} (hI : I h) :
    I (freshRun q t h).s.h ∧ ∀ o ∈ (freshRun q t h).outs, I o.h := by
  unfold freshRun
  split
  · refine ⟨hI, fun o ho => ?_⟩
    rw [List.mem_singleton.1 ho]
    exact hI
  · exact ⟨hI, fun o ho => by simp at ho⟩

variable {p : ProgParams d n} {nx : Cell} {ng : ℤ} {X : Fin 3 → ℤ → ℝ} {Gr : (Cell → Fields d n ℝ) → Cell → Fin d → ℝ} {A : Machine d n}
  {order : List ℕ}

theorem forall₂_mem {α β : Type} {R : α → β → Prop} {l : List α} {m : List β} (h : List.Forall₂ R l m) {a : α} (ha : a ∈ l) : ∃ b ∈ m, R a b := by
  induction h with
  | nil => simp at ha
  | cons hab _ ih =>
    rcases List.mem_cons.1 ha with rfl | ha
    · exact ⟨_, by simp, hab⟩
    · obtain ⟨b, h1, h2⟩ := ih ha
      exact ⟨b, by simp [h1], h2⟩

/-- An invariant of the global array holds in the arrays and in all files of a run. -/
theorem run_invariant (hd3 : d ≤ 3) (hN : ∀ a, 0 ≤ nx a) (hng : 2 ≤ ng) (hp : ParamsOk p order) (hA : MachineOk nx ng Gr A)
    {S : Cell → Prim d ℝ} {Fx : Cell → Fin n → ℝ} {U : Cell → View Cell (Fields d n ℝ)} {up : Cell → View Cell (VelPres d ℝ)}
    (hi : InitOf nx ng A S Fx U up) (clock : ℕ → Bool) {I : (Cell → Fields d n ℝ) → Prop}
    (h0 : I (bcGlob p.hydro.bcs nx (nghostOf d ng) order fun g => consFields p.hydro.eos (S g) (Fx g)))
    (hadv : ∀ W t dt, I W → I ((globHydro p nx ng X Gr order).advance W t dt)) (k : ℕ) :
    ∃ z W, progRun p nx (nghostOf d ng) (borderOf A.dims) A clock (progFresh p nx (nghostOf d ng) (borderOf A.dims) A X U up) k = some z ∧
      I W ∧ HoldsAll nx A.dims (nghostOf d ng) W z.s.h ∧ ∀ f ∈ z.files, ∃ W', I W' ∧ FileOf p nx ng X W' f.h := by
  obtain ⟨z0, e0, f0⟩ := progFresh_follows (X := X) hd3 hN hng hp hA hi
  obtain ⟨z, e, h⟩ := progRun_follows hd3 hN hng hp hA clock e0 f0 k
  have h1 := freshRun_invariant (q := p.loop) (t := p.tIni) h0
  have h2 := runN_invariant (q := p.loop) (hy := globHydro p nx ng X Gr order) (clock := clock) h1.1 h1.2 hadv k
  refine ⟨z, _, e, h2.1, h.h, fun f hf => ?_⟩
  have hfiles := h.files
  obtain ⟨o, ho, hfo⟩ : ∃ o ∈ (runN p.loop (globHydro p nx ng X Gr order) clock (freshRun p.loop p.tIni
      (bcGlob p.hydro.bcs nx (nghostOf d ng) order fun g => consFields p.hydro.eos (S g) (Fx g))) k).outs, FileOf p nx ng X o.h f.h := by
    generalize (runN p.loop (globHydro p nx ng X Gr order) clock _ k).outs = M at hfiles
    revert hf
    generalize z.files = L at hfiles
    induction hfiles with
    | nil => intro hf; simp at hf
    | cons hab _ ih =>
      intro hf
      rcases List.mem_cons.1 hf with rfl | hf
      · exact ⟨_, by simp, hab.1⟩
      · obtain ⟨o, h1, h2⟩ := ih hf
        exact ⟨o, by simp [h1], h2⟩
  exact ⟨o.h, h2.2 o ho, hfo⟩

theorem FileOf.at {v : View (List ℤ) ℝ} {G : Cell → ℝ} (h : Dataset nx v G) {g : Cell} (hg : inBox 0 nx g) : v.at g = G g := h.2 g hg

theorem ax_nghost (hd3 : d ≤ 3) (ng : ℤ) (a : Fin d) : nghostOf d ng (ax a) = ng := by simp [nghostOf, ax_val hd3]

/-- Periodic conditions change nothing after the exchange. -/
theorem bcGlob_periodic {bcs : Fin d → Fin 2 → BcKind} (hb : ∀ a f, bcs a f = .periodic) (ho : ∀ id ∈ order, id < 2 * d) (nx nghost : Cell)
    (G : Cell → Fields d n ℝ) : bcGlob bcs nx nghost order G = fun C => G (wrap nx (C - nghost)) := by
  unfold bcGlob
  generalize (fun C => G (wrap nx (C - nghost))) = V
  revert ho V
  induction order with
  | nil => intro _ V; rfl
  | cons id l ih =>
    intro ho V
    rw [List.foldl_cons, ih (fun i hi => ho i (by simp [hi]))]
    obtain ⟨a, f, rfl⟩ := faceId_surj (ho id (by simp))
    rw [bcPure_faceId, if_pos rfl, hb]
    funext C
    unfold condPure
    split <;> rfl

/-- The whole domain as one array. -/
theorem globStepOk (hd3 : d ≤ 3) (hng : 2 ≤ ng) (G : PGrid d ℝ) (ext : Cell) :
    StepOk (gridOf ext G) (fun c a => some (G.grav c a)) ext G ng
      (RecScheds.box (d := d) (n := n) (nghostOf d (ng - 1)) (fun a => ext a - nghostOf d (ng - 1) a))
      (boxList (nghostOf d ng) (fun a => ext a - nghostOf d ng a)) (boxList (nghostOf d ng) (fun a => ext a - nghostOf d ng a)) :=
  ⟨hd3, hng, gridOf_fits _ _, RecScheds.box_ok _ _, boxList_isSchedule _ _, boxList_isSchedule _ _⟩

theorem globGeoOf (tr : Trig ℝ) (geom : Geom) (ext : Cell) (X : Fin 3 → ℤ → ℝ) (Gr : Cell → Fin d → ℝ) :
    GeoOf tr geom ext (globGrid (d := d) tr geom X Gr) := ⟨fun _ _ _ _ => rfl, fun _ _ => rfl, fun _ _ => rfl⟩

theorem layer_glob {C : Cell} : layer d (globExt nx (nghostOf d ng)) ng C ↔ inBox 0 nx (C - nghostOf d ng) := by
  constructor
  · intro h a
    have := h a
    simp only [globExt] at this
    simp only [Pi.zero_apply, Pi.sub_apply]
    omega
  · intro h a
    have := h a
    simp only [Pi.zero_apply, Pi.sub_apply] at this
    simp only [globExt]
    omega

/-- Sums over the interior of the global array are sums over the domain. -/
theorem sum_interior (φ : Cell → ℝ) :
    ∑ c ∈ interior d (globExt nx (nghostOf d ng)) ng, φ c = ∑ g ∈ domain nx, φ (g + nghostOf d ng) := by
  refine Finset.sum_nbij' (fun c => c - nghostOf d ng) (fun g => g + nghostOf d ng) ?_ ?_ ?_ ?_ ?_
  · intro c hc
    exact mem_domain.2 (layer_glob.1 (mem_interior.1 hc))
  · intro g hg
    refine mem_interior.2 (layer_glob.2 ?_)
    rw [add_sub_cancel_right]
    exact mem_domain.1 hg
  · intro c _; exact sub_add_cancel _ _
  · intro g _; exact add_sub_cancel_right _ _
  · intro c _; rw [sub_add_cancel]

theorem progVal_rho (G : PGrid d ℝ) (t dt : ℝ) (U : Cell → Fields d n ℝ) (up : Cell → VelPres d ℝ) (c : Cell) :
    (progVal p G t dt U up c).rho = (stepVal p.hydro.lim p.hydro.sol p.hydro.eos p.hydro.tr p.hydro.geom G dt U up c).rho ∧
    (progVal p G t dt U up c).rhou = (stepVal p.hydro.lim p.hydro.sol p.hydro.eos p.hydro.tr p.hydro.geom G dt U up c).rhou ∧
    (progVal p G t dt U up c).fx = (stepVal p.hydro.lim p.hydro.sol p.hydro.eos p.hydro.tr p.hydro.geom G dt U up c).fx := by
  unfold progVal heatVal
  cases p.fix <;> cases p.step <;> simp only [and_self] <;> split <;> simp

theorem progVal_plain (hf : p.fix = none) (hs : p.step ≠ .heatNickel) (G : PGrid d ℝ) (t dt : ℝ) (U : Cell → Fields d n ℝ)
    (up : Cell → VelPres d ℝ) (c : Cell) :
    progVal p G t dt U up c = stepVal p.hydro.lim p.hydro.sol p.hydro.eos p.hydro.tr p.hydro.geom G dt U up c := by
  unfold progVal heatVal
  rw [hf]
  cases h : p.step <;> simp_all

theorem globHydro_advance (W : Cell → Fields d n ℝ) (t dt : ℝ) : (globHydro p nx ng X Gr order).advance W t dt =
    bcGlob p.hydro.bcs nx (nghostOf d ng) order fun g =>
      progVal p (globGrid p.hydro.tr p.hydro.geom X (Gr W)) t dt W (primGlob p.hydro.eos W) (g + nghostOf d ng) := rfl

/-- The state after a step of the global array, cell by cell. -/
theorem glob_out {lim : Limiter} {sol : Solver} {eos : EoS ℝ} {tr : Trig ℝ} {geom : Geom} (hd3 : d ≤ 3) (hng : 2 ≤ ng) (G : PGrid d ℝ) (ext : Cell) {dt : ℝ}
    {U : Cell → Fields d n ℝ} {up : Cell → VelPres d ℝ} {upRec : Cell → Fin 2 → Fin d → VelPres d ℝ}
    {faces : Cell → Fin 2 → Fin d → Fields d n ℝ} {new out : Cell → Fields d n ℝ}
    (h : hydroStep lim sol eos tr geom (gridOf ext G) (fun c a => some (G.grav c a)) dt
      (RecScheds.box (d := d) (n := n) (nghostOf d (ng - 1)) (fun a => ext a - nghostOf d (ng - 1) a))
      (boxList (nghostOf d ng) (fun a => ext a - nghostOf d ng a)) (boxList (nghostOf d ng) (fun a => ext a - nghostOf d ng a))
      ⟨inExt ext, U⟩ ⟨inExt ext, up⟩ ⟨inExt ext, upRec⟩ ⟨inExt ext, faces⟩ ⟨inExt ext, new⟩ = some ⟨inExt ext, out⟩) {c : Cell}
    (hc : layer d ext ng c) : out c = stepVal lim sol eos tr geom G dt U up c := by
  have h2 := (globStepOk (n := n) hd3 hng G ext).step lim sol eos tr geom dt U up upRec faces new
  have h3 := congrArg View.val (Option.some.inj (h.symm.trans h2))
  exact (congrFun h3 c).trans (if_pos hc)

/-- One period apart. -/
def Periodic (d : ℕ) {V : Type} (nx : Cell) (W : Cell → V) : Prop := ∀ (a : Fin d) C, W (nb C (ax a) (nx (ax a))) = W C

/-- A mesh of the periodic box: increasing nodes, and the ghost cells of each active direction as wide as the cells they continue. -/
structure PeriodicMesh (d : ℕ) (nx : Cell) (ng : ℤ) (X : Fin 3 → ℤ → ℝ) : Prop where
  incr : ∀ a i, 0 ≤ i → i < nx a + 2 * nghostOf d ng a → X a i < X a (i + 1)
  per : ∀ a : Fin 3, a.val < d → ∀ i, 0 ≤ i → i < 2 * ng → X a (i + nx a + 1) - X a (i + nx a) = X a (i + 1) - X a i

theorem periodic_wrap {V : Type} (G : Cell → V) (nghost : Cell) : Periodic d nx fun C => G (wrap nx (C - nghost)) := by
  intro a C
  have : wrap nx (nb C (ax a) (nx (ax a)) - nghost) = wrap nx (C - nghost) := by
    funext b
    by_cases h : b = ax a
    · subst h
      simp only [wrap, Pi.sub_apply, nb_self]
      rw [show C (ax a) + nx (ax a) - nghost (ax a) = C (ax a) - nghost (ax a) + nx (ax a) by ring, Int.add_emod_right]
    · simp only [wrap, Pi.sub_apply, nb_ne _ h]
  exact congrArg G this

theorem globDv (tr : Trig ℝ) (Gr : Cell → Fin d → ℝ) (g : Cell) :
    (globGrid (d := d) tr .cartesian X Gr).dv (g + nghostOf d ng) = boxCellVol d ng X g := by
  unfold boxCellVol
  rw [Fin.prod_univ_three]
  rfl

/-- Totals over the domain after one iteration on a periodic Cartesian box. -/
theorem glob_totals (hd3 : d ≤ 3) (hpos : ∀ a, 0 < nx a) (hng : 2 ≤ ng) (hX : PeriodicMesh d nx ng X) (hgeom : p.hydro.geom = .cartesian)
    {W : Cell → Fields d n ℝ} (hW : Periodic d nx W) (hGr : Periodic d nx (Gr W)) (t dt : ℝ) :
    let W' := fun g => progVal p (globGrid p.hydro.tr p.hydro.geom X (Gr W)) t dt W (primGlob p.hydro.eos W) (g + nghostOf d ng)
    ∑ g ∈ domain nx, boxCellVol d ng X g * (W' g).rho = ∑ g ∈ domain nx, boxCellVol d ng X g * (W (g + nghostOf d ng)).rho ∧
    (∀ i, ∑ g ∈ domain nx, boxCellVol d ng X g * (W' g).rhou i = ∑ g ∈ domain nx, boxCellVol d ng X g * (W (g + nghostOf d ng)).rhou i +
      dt * ∑ g ∈ domain nx, boxCellVol d ng X g * (Gr W (g + nghostOf d ng) i * (W (g + nghostOf d ng)).rho)) ∧
    (p.fix = none → p.step ≠ .heatNickel → ∑ g ∈ domain nx, boxCellVol d ng X g * (W' g).E =
      ∑ g ∈ domain nx, boxCellVol d ng X g * (W (g + nghostOf d ng)).E +
      dt * ∑ g ∈ domain nx, boxCellVol d ng X g * ∑ a, Gr W (g + nghostOf d ng) a * (W (g + nghostOf d ng)).rhou a) := by
  intro W'
  set ext := globExt nx (nghostOf d ng) with hext
  set G := globGrid (d := d) p.hydro.tr .cartesian X (Gr W) with hG
  have hper : ∀ a : Fin d, ext (ax a) - 2 * ng = nx (ax a) := fun a => by
    rw [hext]; simp only [globExt, ax_nghost hd3]; omega
  have hP : PeriodicBox d ext ng G W (primGlob p.hydro.eos W) := by
    constructor
    · intro a c _ _; rw [hper]; exact hW a c
    · intro a c _ _; rw [hper]; unfold primGlob; rw [hW a c]
    · intro a c _ _; rw [hper]; exact hGr a c
    · intro a i h1 h2
      rw [hper] at h2 ⊢
      have : ext (ax a) = nx (ax a) + 2 * ng := by rw [hext]; simp only [globExt, ax_nghost hd3]
      exact hX.per (ax a) (by rw [ax_val hd3]; exact a.2) i h1 (by omega)
  have hdv : ∀ c, layer d ext ng c → G.dv c ≠ 0 := by
    intro c hc
    have hg := layer_glob.1 hc
    rw [show c = (c - nghostOf d ng) + nghostOf d ng by rw [sub_add_cancel], globDv]
    unfold boxCellVol
    refine (Finset.prod_pos fun a _ => sub_pos.2 ?_).ne'
    have h1 := hg a
    have h2 := hX.incr a (c a) 
    have h3 : 0 ≤ nghostOf d ng a := by unfold nghostOf; split <;> omega
    simp only [Pi.zero_apply, Pi.sub_apply] at h1
    have h4 : (c - nghostOf d ng) a + (if a.val < d then ng else 0) = c a := by
      show c a - nghostOf d ng a + nghostOf d ng a = c a
      ring
    rw [h4]
    exact h2 (by omega) (by omega)
  have hsz : ∀ a : Fin d, firstIdx d ng (ax a) ≤ lastIdx d ext ng (ax a) := by
    intro a
    have h1 := hpos (ax a)
    have h2 := hper a
    have h3 : (ax a).val < d := by rw [ax_val hd3]; exact a.2
    have h4 : nghostOf d ng (ax a) = ng := ax_nghost hd3 ng a
    unfold firstIdx lastIdx
    rw [h4]
    omega
  obtain ⟨out, e, h1, h2, h3⟩ := C30_periodic_box p.hydro.lim p.hydro.sol p.hydro.eos p.hydro.tr dt W (primGlob p.hydro.eos W)
    (fun _ _ _ => ⟨fun _ => 0, 0⟩) (fun _ _ _ => ⟨0, 0, 0, 0⟩) W (globStepOk hd3 hng G ext) (globGeoOf _ _ _ _ _) hP hdv hsz
  have ho := fun {c} hc => glob_out (c := c) hd3 hng G ext e hc
  have hW' : ∀ g, g ∈ domain nx → out (g + nghostOf d ng) =
      stepVal p.hydro.lim p.hydro.sol p.hydro.eos p.hydro.tr p.hydro.geom (globGrid p.hydro.tr p.hydro.geom X (Gr W)) dt W
        (primGlob p.hydro.eos W) (g + nghostOf d ng) := by
    intro g hg
    rw [ho (layer_glob.2 (by rw [add_sub_cancel_right]; exact mem_domain.1 hg)), hgeom]
  rw [sum_interior, sum_interior] at h1
  rw [sum_interior, sum_interior, sum_interior] at h3
  have h2' := fun i => by
    have := h2 i
    rw [sum_interior, sum_interior, sum_interior] at this
    exact this
  clear h2
  have h2 := h2'
  have hvol := fun g => globDv (ng := ng) (X := X) p.hydro.tr (Gr W) g
  rw [← hG] at hvol
  simp only [hvol] at h1 h2 h3
  refine ⟨?_, fun i => ?_, fun hf hs => ?_⟩
  · rw [← h1]
    exact Finset.sum_congr rfl fun g hg => by rw [hW' g hg, (progVal_rho _ _ _ _ _ _).1]
  · rw [show G.grav = Gr W from rfl] at h2
    rw [← h2 i]
    exact Finset.sum_congr rfl fun g hg => by rw [hW' g hg, (progVal_rho _ _ _ _ _ _).2.1]
  · rw [show G.grav = Gr W from rfl] at h3
    rw [← h3]
    exact Finset.sum_congr rfl fun g hg => by rw [hW' g hg, ← progVal_plain hf hs _ t]

end Lemmas

/-! ### Conserved totals -/

section Conserved
variable {p : ProgParams d n} {nx : Cell} {ng : ℤ} {X : Fin 3 → ℤ → ℝ} {Gr : (Cell → Fields d n ℝ) → Cell → Fin d → ℝ} {A : Machine d n}
  {order : List ℕ} {S : Cell → Prim d ℝ} {Fx : Cell → Fin n → ℝ} {U : Cell → View Cell (Fields d n ℝ)} {up : Cell → View Cell (VelPres d ℝ)}

theorem total_invariant (hd3 : d ≤ 3) (hpos : ∀ a, 0 < nx a) (hng : 2 ≤ ng) (hp : ParamsOk p order) (hA : MachineOk nx ng Gr A)
    (hi : InitOf nx ng A S Fx U up) (clock : ℕ → Bool) (hb : ∀ a f, p.hydro.bcs a f = .periodic) (φ : Fields d n ℝ → ℝ)
    (hadv : ∀ W, Periodic d nx W → ∀ t dt,
      ∑ g ∈ domain nx, boxCellVol d ng X g * φ (progVal p (globGrid p.hydro.tr p.hydro.geom X (Gr W)) t dt W (primGlob p.hydro.eos W) (g + nghostOf d ng))
        = ∑ g ∈ domain nx, boxCellVol d ng X g * φ (W (g + nghostOf d ng))) (k : ℕ) :
    ∃ z, progRun p nx (nghostOf d ng) (borderOf A.dims) A clock (progFresh p nx (nghostOf d ng) (borderOf A.dims) A X U up) k = some z ∧
      ∀ f ∈ z.files, ∃ W, FileOf p nx ng X W f.h ∧ ∑ g ∈ domain nx, boxCellVol d ng X g * φ (W (g + nghostOf d ng)) =
        ∑ g ∈ domain nx, boxCellVol d ng X g * φ (consFields p.hydro.eos (S g) (Fx g)) := by
  have hbi := fun (G : Cell → Fields d n ℝ) g (hg : g ∈ domain nx) =>
    bcGlob_interior (order := order) (ng := ng) p.hydro.bcs hd3 (by omega) hp.ids G (mem_domain.1 hg)
  obtain ⟨z, W, e, -, -, h⟩ := run_invariant (X := X) hd3 (fun a => (hpos a).le) hng hp hA hi clock
    (I := fun W => Periodic d nx W ∧ ∑ g ∈ domain nx, boxCellVol d ng X g * φ (W (g + nghostOf d ng)) =
        ∑ g ∈ domain nx, boxCellVol d ng X g * φ (consFields p.hydro.eos (S g) (Fx g)))
    ⟨by rw [bcGlob_periodic hb hp.ids]; exact periodic_wrap (fun g => consFields p.hydro.eos (S g) (Fx g)) _, Finset.sum_congr rfl fun g hg => by rw [hbi _ g hg]⟩
    (fun W t dt hW => ⟨by
      rw [globHydro_advance, bcGlob_periodic hb hp.ids]
      exact periodic_wrap (fun g => progVal p (globGrid p.hydro.tr p.hydro.geom X (Gr W)) t dt W (primGlob p.hydro.eos W) (g + nghostOf d ng)) _, by
      refine Eq.trans ?_ hW.2
      rw [← hadv W hW.1 t dt]
      exact Finset.sum_congr rfl fun g hg => by
        rw [globHydro_advance, hbi _ g hg]⟩) k
  exact ⟨z, e, fun f hf => by
    obtain ⟨W, hW, hF⟩ := h f hf
    exact ⟨W, hF, hW.2⟩⟩

/-- **C69**, mass. Periodic Cartesian box with a periodic mesh, any process grid and loop orders, any limiter, Riemann solver, equation of
state, gravity that is periodic for a periodic fluid, with or without pressure fix and heating: the total mass in every file the run has
written after `k` turns, a crash dump included, is that of the initial state. -/
theorem C69_mass (hd3 : d ≤ 3) (hpos : ∀ a, 0 < nx a) (hng : 2 ≤ ng) (hp : ParamsOk p order) (hA : MachineOk nx ng Gr A)
    (hi : InitOf nx ng A S Fx U up) (clock : ℕ → Bool) (hb : ∀ a f, p.hydro.bcs a f = .periodic) (hgeom : p.hydro.geom = .cartesian)
    (hX : PeriodicMesh d nx ng X) (hGr : ∀ W, Periodic d nx W → Periodic d nx (Gr W)) (k : ℕ) :
    ∃ z, progRun p nx (nghostOf d ng) (borderOf A.dims) A clock (progFresh p nx (nghostOf d ng) (borderOf A.dims) A X U up) k = some z ∧
      ∀ f ∈ z.files, ∑ g ∈ domain nx, boxCellVol d ng X g * f.h.rho.at g = ∑ g ∈ domain nx, boxCellVol d ng X g * (S g).rho := by
  obtain ⟨z, e, h⟩ := total_invariant (X := X) hd3 hpos hng hp hA hi clock hb Fields.rho
    (fun W hW t dt => (glob_totals hd3 hpos hng hX hgeom hW (hGr W hW) t dt).1) k
  refine ⟨z, e, fun f hf => ?_⟩
  obtain ⟨W, hF, hs⟩ := h f hf
  refine Eq.trans (Finset.sum_congr rfl fun g hg => ?_) hs
  rw [FileOf.at hF.rho (mem_domain.1 hg)]

/-- **C69**, momentum. As `C69_mass`, with no gravity along direction `i`: the total of density times velocity in every file with no zero density
is that of the initial state. -/
theorem C69_momentum (hd3 : d ≤ 3) (hpos : ∀ a, 0 < nx a) (hng : 2 ≤ ng) (hp : ParamsOk p order) (hA : MachineOk nx ng Gr A)
    (hi : InitOf nx ng A S Fx U up) (clock : ℕ → Bool) (hb : ∀ a f, p.hydro.bcs a f = .periodic) (hgeom : p.hydro.geom = .cartesian)
    (hX : PeriodicMesh d nx ng X) (hGr : ∀ W, Periodic d nx W → Periodic d nx (Gr W)) {i : Fin d} (h0 : ∀ W C, Gr W C i = 0) (k : ℕ) :
    ∃ z, progRun p nx (nghostOf d ng) (borderOf A.dims) A clock (progFresh p nx (nghostOf d ng) (borderOf A.dims) A X U up) k = some z ∧
      ∀ f ∈ z.files, (∀ g, inBox 0 nx g → f.h.rho.at g ≠ 0) →
        ∑ g ∈ domain nx, boxCellVol d ng X g * (f.h.rho.at g * (f.h.u i).at g) =
          ∑ g ∈ domain nx, boxCellVol d ng X g * ((S g).rho * (S g).u i) := by
  obtain ⟨z, e, h⟩ := total_invariant (X := X) hd3 hpos hng hp hA hi clock hb (fun s => s.rhou i)
    (fun W hW t dt => by
      have := (glob_totals (p := p) hd3 hpos hng hX hgeom hW (hGr W hW) t dt).2.1 i
      simpa only [h0, zero_mul, mul_zero, Finset.sum_const_zero, add_zero] using this) k
  refine ⟨z, e, fun f hf hr => ?_⟩
  obtain ⟨W, hF, hs⟩ := h f hf
  refine Eq.trans (Finset.sum_congr rfl fun g hg => ?_) hs
  have hg' := mem_domain.1 hg
  have := hr g hg'
  rw [FileOf.at hF.rho hg'] at this
  rw [FileOf.at hF.rho hg', FileOf.at (hF.u i) hg']
  simp only [primGlob]
  rw [mul_div_cancel₀ _ this]

/-- **C69**, energy. As `C69_mass`, with no gravity, no pressure fix and no heating: the total energy in every file is that of the initial
state, the internal energy given by the equation of state plus the kinetic energy. -/
theorem C69_energy (hd3 : d ≤ 3) (hpos : ∀ a, 0 < nx a) (hng : 2 ≤ ng) (hp : ParamsOk p order) (hA : MachineOk nx ng Gr A)
    (hi : InitOf nx ng A S Fx U up) (clock : ℕ → Bool) (hb : ∀ a f, p.hydro.bcs a f = .periodic) (hgeom : p.hydro.geom = .cartesian)
    (hX : PeriodicMesh d nx ng X) (h0 : ∀ W C a, Gr W C a = 0) (hf : p.fix = none) (hs : p.step ≠ .heatNickel) (k : ℕ) :
    ∃ z, progRun p nx (nghostOf d ng) (borderOf A.dims) A clock (progFresh p nx (nghostOf d ng) (borderOf A.dims) A X U up) k = some z ∧
      ∀ f ∈ z.files, ∑ g ∈ domain nx, boxCellVol d ng X g * f.h.E.at g = ∑ g ∈ domain nx, boxCellVol d ng X g *
        (p.hydro.eos.evolFromPres (S g).rho (S g).P + (S g).rho * (∑ i, (S g).u i ^ 2) / 2) := by
  have hGr : ∀ W, Periodic d nx W → Periodic d nx (Gr W) := fun W _ a C => funext fun b => by rw [h0, h0]
  obtain ⟨z, e, h⟩ := total_invariant (X := X) hd3 hpos hng hp hA hi clock hb (fun s => s.E)
    (fun W hW t dt => by
      have := (glob_totals (p := p) hd3 hpos hng hX hgeom hW (hGr W hW) t dt).2.2 hf hs
      simpa only [h0, zero_mul, mul_zero, Finset.sum_const_zero, add_zero] using this) k
  refine ⟨z, e, fun f hf => ?_⟩
  obtain ⟨W, hF, hs⟩ := h f hf
  refine Eq.trans (Finset.sum_congr rfl fun g hg => ?_) (hs.trans (Finset.sum_congr rfl fun g _ => ?_))
  · rw [FileOf.at hF.E (mem_domain.1 hg)]
  · have : ∀ i, (S g).u i * (S g).u i = (S g).u i ^ 2 := fun i => by ring
    simp only [consFields, toCons, Prim.ek, this]
    try ring

end Conserved

/-! ### Fractions -/

section Fractions
variable {p : ProgParams d n} {nx : Cell} {ng : ℤ} {X : Fin 3 → ℤ → ℝ} {Gr : (Cell → Fields d n ℝ) → Cell → Fin d → ℝ} {A : Machine d n}
  {order : List ℕ} {S : Cell → Prim d ℝ} {Fx : Cell → Fin n → ℝ} {U : Cell → View Cell (Fields d n ℝ)} {up : Cell → View Cell (VelPres d ℝ)}

/-- **C69**, fractions. Any geometry, mesh, boundary conditions other than user ones, gravity, pressure fix, heating, process grid: if the
initial fractions are in `[0, 1]`, so are the fractions in every file. -/
theorem C69_fractions (hd3 : d ≤ 3) (hN : ∀ a, 0 ≤ nx a) (hng : 2 ≤ ng) (hp : ParamsOk p order) (hA : MachineOk nx ng Gr A)
    (hi : InitOf nx ng A S Fx U up) (clock : ℕ → Bool) (h01 : ∀ g, inBox 0 nx g → ∀ i, 0 ≤ Fx g i ∧ Fx g i ≤ 1) (k : ℕ) :
    ∃ z, progRun p nx (nghostOf d ng) (borderOf A.dims) A clock (progFresh p nx (nghostOf d ng) (borderOf A.dims) A X U up) k = some z ∧
      ∀ f ∈ z.files, ∀ g, inBox 0 nx g → ∀ i, 0 ≤ (f.h.fx i).at g ∧ (f.h.fx i).at g ≤ 1 := by
  have hbi := fun (G : Cell → Fields d n ℝ) g (hg : inBox 0 nx g) =>
    bcGlob_interior (order := order) (ng := ng) p.hydro.bcs hd3 (by omega) hp.ids G hg
  obtain ⟨z, W, e, -, -, h⟩ := run_invariant (X := X) hd3 hN hng hp hA hi clock
    (I := fun W => ∀ g, inBox 0 nx g → ∀ i, 0 ≤ (W (g + nghostOf d ng)).fx i ∧ (W (g + nghostOf d ng)).fx i ≤ 1)
    (fun g hg i => by rw [hbi _ g hg]; exact h01 g hg i)
    (fun W t dt _ g hg i => by
      rw [globHydro_advance, hbi _ g hg, (progVal_rho _ _ _ _ _ _).2.2]
      obtain ⟨out, e, h⟩ := C34_fractions_bounded p.hydro.lim p.hydro.sol p.hydro.eos p.hydro.tr p.hydro.geom dt W (primGlob p.hydro.eos W)
        (fun _ _ _ => ⟨fun _ => 0, 0⟩) (fun _ _ _ => ⟨0, 0, 0, 0⟩) W (globStepOk hd3 hng (globGrid p.hydro.tr p.hydro.geom X (Gr W)) (globExt nx (nghostOf d ng)))
      have hl : layer d (globExt nx (nghostOf d ng)) ng (g + nghostOf d ng) := layer_glob.2 (by rw [add_sub_cancel_right]; exact hg)
      have := h _ hl i
      rwa [glob_out hd3 hng _ _ e hl] at this) k
  refine ⟨z, e, fun f hf g hg i => ?_⟩
  obtain ⟨W, hW, hF⟩ := h f hf
  rw [FileOf.at (hF.fx i) hg]
  exact hW g hg i

end Fractions

/-! ### Rest -/

section Rest
variable {p : ProgParams d n} {nx : Cell} {ng : ℤ} {X : Fin 3 → ℤ → ℝ} {Gr : (Cell → Fields d n ℝ) → Cell → Fin d → ℝ} {A : Machine d n}
  {order : List ℕ} {S : Cell → Prim d ℝ} {Fx : Cell → Fin n → ℝ} {U : Cell → View Cell (Fields d n ℝ)} {up : Cell → View Cell (VelPres d ℝ)}

theorem bcGlob_rest (bcs : Fin d → Fin 2 → BcKind) (nghost : Cell) {s : Fields d n ℝ} (h0 : s.rhou = fun _ => 0) :
    bcGlob bcs nx nghost order (fun _ => s) = fun _ => s := by
  unfold bcGlob
  induction order with
  | nil => rfl
  | cons id l ih =>
    rw [List.foldl_cons]
    have : bcPure bcs (fun _ _ => true) (globExt nx nghost) nghost (fun _ => s) id = fun _ => s := by
      unfold bcPure
      split
      · simp only [if_true]
        funext C
        unfold condPure
        split
        · split
          · rfl
          · unfold Fields.flip
            rw [h0]
            cases s
            simp only at h0
            subst h0
            simp
          · rfl
        · rfl
      · rfl
    rw [this]
    exact ih

/-- The advance of a uniform fluid at rest. -/
theorem advance_rest (hd3 : d ≤ 3) (hpos : ∀ a, 0 < nx a) (hng : 2 ≤ ng) (he : p.hydro.eos.Lawful) (h0 : ∀ W C a, Gr W C a = 0)
    (hs : p.step ≠ .heatNickel) {rho P : ℝ} {fx : Fin n → ℝ} (hr : 0 < rho) (hP : 0 < P) (hev : 0 ≤ p.hydro.eos.evolFromPres rho P)
    (hfx : ∀ i, 0 ≤ fx i ∧ fx i ≤ 1) {s : Fields d n ℝ} (hsdef : s = uniformFields p.hydro.eos rho ⟨fun _ => 0, P⟩ fx) :
    s.rhou = (fun _ => 0) ∧ (∀ C, primGlob p.hydro.eos (fun _ => s) C = ⟨fun _ => 0, P⟩) ∧ 0 ≤ internal s ∧
      ∀ t dt, (globHydro p nx ng X Gr order).advance (fun _ => s) t dt = fun _ => s := by
  have hs0 : s.rhou = fun _ => 0 := by rw [hsdef]; funext i; simp [uniformFields, toCons]
  have hprim : toPrim p.hydro.eos s.cons = (⟨rho, fun _ => 0, P⟩ : Prim d ℝ) := by
    rw [show s.cons = toCons p.hydro.eos (⟨rho, fun _ => 0, P⟩ : Prim d ℝ) by rw [hsdef]; rfl]
    exact toPrim_toCons he hr
  have hup : ∀ C, primGlob p.hydro.eos (fun _ => s) C = ⟨fun _ => 0, P⟩ := fun C => by rw [primGlob_toPrim, hprim]
  have hkin : kinetic s = 0 := by unfold kinetic; rw [hs0]; simp
  have hint : 0 ≤ internal s := by
    unfold internal
    rw [hkin, sub_zero, hsdef]
    simpa [uniformFields, toCons, Prim.ek] using hev
  have hadv : ∀ t dt, (globHydro p nx ng X Gr order).advance (fun _ => s) t dt = fun _ => s := by
    intro t dt
    rw [globHydro_advance]
    refine (bcGlob_congr p.hydro.bcs hpos (G' := fun _ => s) fun g hg => ?_).trans (bcGlob_rest _ _ hs0)
    have hl : layer d (globExt nx (nghostOf d ng)) ng (g + nghostOf d ng) := layer_glob.2 (by rw [add_sub_cancel_right]; exact hg)
    obtain ⟨out, e, h⟩ := C33_rest_state (lim := p.hydro.lim) (sol := p.hydro.sol) (eos := p.hydro.eos) (tr := p.hydro.tr) (geom := p.hydro.geom)
      (dt := dt) (U := fun _ => s) (up := primGlob p.hydro.eos fun _ => s) (upRec := fun _ _ _ => ⟨fun _ => 0, 0⟩) (rec := fun _ _ _ => s)
      (new := fun _ => s) (globStepOk hd3 hng (globGrid p.hydro.tr p.hydro.geom X (Gr fun _ => s)) (globExt nx (nghostOf d ng)))
      (globGeoOf _ _ _ _ _) (fun c a => h0 _ c a) he hr hP hfx (fun _ _ => hsdef) (fun c _ => hup c)
    have hst := (glob_out hd3 hng _ _ e hl).symm.trans (h _ hl)
    unfold progVal heatVal
    rw [hst]
    have hfix : ∀ eps R, fixPure p.hydro.eos (globGrid p.hydro.tr p.hydro.geom X (Gr fun _ => s)) dt eps (fun _ => s) R s (g + nghostOf d ng) = s.E := by
      intro eps R
      unfold fixPure
      rw [hkin, mul_zero, if_neg (not_lt.2 hint)]
    cases p.fix <;> simp only [hfix] <;> (cases hh : p.step <;> simp_all)
  exact ⟨hs0, hup, hint, hadv⟩

/-- **C69**, rest. Any geometry, mesh, boundary conditions other than user ones, process grid, pressure fix; no gravity, no heating. From a
uniform fluid at rest every file holds that uniform fluid at rest, and so do the arrays, ghosts included. -/
theorem C69_rest (hd3 : d ≤ 3) (hpos : ∀ a, 0 < nx a) (hng : 2 ≤ ng) (hp : ParamsOk p order) (hA : MachineOk nx ng Gr A)
    (hi : InitOf nx ng A S Fx U up) (clock : ℕ → Bool) (he : p.hydro.eos.Lawful) (h0 : ∀ W C a, Gr W C a = 0) (hs : p.step ≠ .heatNickel)
    {rho P : ℝ} {fx : Fin n → ℝ} (hr : 0 < rho) (hP : 0 < P) (hev : 0 ≤ p.hydro.eos.evolFromPres rho P) (hfx : ∀ i, 0 ≤ fx i ∧ fx i ≤ 1)
    (hS : ∀ g, inBox 0 nx g → S g = ⟨rho, fun _ => 0, P⟩) (hF : ∀ g, inBox 0 nx g → Fx g = fx) (k : ℕ) :
    ∃ z, progRun p nx (nghostOf d ng) (borderOf A.dims) A clock (progFresh p nx (nghostOf d ng) (borderOf A.dims) A X U up) k = some z ∧
      HoldsAll nx A.dims (nghostOf d ng) (fun _ => uniformFields p.hydro.eos rho ⟨fun _ => 0, P⟩ fx) z.s.h ∧
      ∀ f ∈ z.files, ∀ g, inBox 0 nx g → f.h.rho.at g = rho ∧ (∀ i, (f.h.u i).at g = 0) ∧ f.h.P.at g = P ∧ ∀ i, (f.h.fx i).at g = fx i := by
  set s : Fields d n ℝ := uniformFields p.hydro.eos rho ⟨fun _ => 0, P⟩ fx with hsdef
  obtain ⟨hs0, hup, -, hadv⟩ := advance_rest (X := X) (order := order) hd3 hpos hng he h0 hs hr hP hev hfx hsdef
  obtain ⟨z, W, e, hW, hz, h⟩ := run_invariant (X := X) hd3 (fun a => (hpos a).le) hng hp hA hi clock (I := fun W => W = fun _ => s)
    ((bcGlob_congr p.hydro.bcs hpos (G' := fun _ => s) fun g hg => by rw [hS g hg, hF g hg]; rfl).trans (bcGlob_rest _ _ hs0))
    (fun W t dt hW => by rw [hW]; exact hadv t dt) k
  refine ⟨z, e, hW ▸ hz, fun f hf g hg => ?_⟩
  obtain ⟨W, rfl, hF⟩ := h f hf
  refine ⟨by rw [FileOf.at hF.rho hg]; rfl, fun i => by rw [FileOf.at (hF.u i) hg, hup], by rw [FileOf.at hF.P hg, hup],
    fun i => by rw [FileOf.at (hF.fx i) hg]; rfl⟩

/-- **C69**, rest, the end of the run. As `C69_rest`, without outputs at given times (then the exception of line 370 is not thrown): no turn
fails, and the run has finished after as many turns as the limit on the number of iterations. -/
theorem C69_rest_finishes (hd3 : d ≤ 3) (hpos : ∀ a, 0 < nx a) (hng : 2 ≤ ng) (hp : ParamsOk p order) (hA : MachineOk nx ng Gr A)
    (hi : InitOf nx ng A S Fx U up) (clock : ℕ → Bool) (he : p.hydro.eos.Lawful) (h0 : ∀ W C a, Gr W C a = 0) (hs : p.step ≠ .heatNickel)
    {rho P : ℝ} {fx : Fin n → ℝ} (hr : 0 < rho) (hP : 0 < P) (hev : 0 ≤ p.hydro.eos.evolFromPres rho P) (hfx : ∀ i, 0 ≤ fx i ∧ fx i ≤ 1)
    (hS : ∀ g, inBox 0 nx g → S g = ⟨rho, fun _ => 0, P⟩) (hF : ∀ g, inBox 0 nx g → Fx g = fx) (hq : p.loop.timeFreq ≤ 0) (k : ℕ) :
    ∃ z, progRun p nx (nghostOf d ng) (borderOf A.dims) A clock (progFresh p nx (nghostOf d ng) (borderOf A.dims) A X U up) k = some z ∧
      z.status ≠ .failed ∧ (0 < k → p.loop.maxIter ≤ k → z.status = .finished) := by
  obtain ⟨hs0, hup, hint, hadv⟩ := advance_rest (X := X) (nx := nx) (ng := ng) (Gr := Gr) (order := order) hd3 hpos hng he h0 hs hr hP hev hfx rfl
  obtain ⟨z0, e0, f0⟩ := progFresh_follows (X := X) hd3 (fun a => (hpos a).le) hng hp hA hi
  obtain ⟨z, e, h⟩ := progRun_follows hd3 (fun a => (hpos a).le) hng hp hA clock e0 f0 k
  have hst : ∀ W, (freshRun p.loop p.tIni W : RunState (Cell → Fields d n ℝ) ℝ).status = .running := fun W => by unfold freshRun; split <;> rfl
  have hit : ∀ W, (freshRun p.loop p.tIni W : RunState (Cell → Fields d n ℝ) ℝ).s.iter = 0 := fun W => by unfold freshRun; split <;> rfl
  have key := fun j => runN_not_failed (q := p.loop) (hy := globHydro p nx ng X Gr order) (clock := clock)
    (I := fun W => W = fun _ => uniformFields p.hydro.eos rho ⟨fun _ => 0, P⟩ fx)
    (r := freshRun p.loop p.tIni (bcGlob p.hydro.bcs nx (nghostOf d ng) order fun g => consFields p.hydro.eos (S g) (Fx g)))
    (by
      rw [freshRun_h]
      exact (bcGlob_congr p.hydro.bcs hpos (G' := fun _ => uniformFields p.hydro.eos rho ⟨fun _ => 0, P⟩ fx)
        fun g hg => by rw [hS g hg, hF g hg]; rfl).trans (bcGlob_rest _ _ hs0))
    (by rw [hst]; simp) (fun W t dt hW => by rw [hW]; exact hadv t dt)
    (fun W hW => by
      rw [Bool.eq_false_iff, Ne, globHydro_bad, hW]
      rintro ⟨g, -, hg⟩
      exact absurd hg (not_lt.2 hint)) hq j
  refine ⟨z, e, by rw [h.status]; exact (key k).2, fun hk hm => ?_⟩
  rw [h.status]
  rcases runN_count (q := p.loop) (hy := globHydro p nx ng X Gr order) (clock := clock) (hst _) (hit _) hq (fun j => (key j).2) k with c | ⟨-, -, c⟩
  · exact c
  · exact absurd (c hk) (by omega)

end Rest

/-! ### The hypotheses can be met -/

section Examples

theorem unit_mesh (d : ℕ) (nx : Cell) (ng : ℤ) : PeriodicMesh d nx ng fun _ i => (i : ℝ) / 10 :=
  ⟨fun a i _ _ => by push_cast; linarith, fun a _ i _ _ => by push_cast; ring⟩

/-- A periodic 8 x 6 box on 2 x 3 ranks, any initial state: mass, momentum and energy in all files. -/
example (p : ProgParams 2 1) (hb : p.hydro.bcs = fun _ _ => .periodic) (hpo : p.hydro.order = [some 0, some 1, some 2, some 3])
    (hs : p.step = .off) (hf : p.fix = none) (ht : p.top = 10 ^ 308) (hge : p.hydro.geom = .cartesian) (S : Cell → Prim 2 ℝ) (Fx : Cell → Fin 1 → ℝ)
    (clock : ℕ → Bool) (k : ℕ) : ∃ (A : Machine 2 1) (IA : (Cell → View Cell (Fields 2 1 ℝ)) × (Cell → View Cell (VelPres 2 ℝ))) (z : ProgState 2 1),
      A.dims = ![2, 3, 1] ∧
      progRun p ![8, 6, 1] (nghostOf 2 2) (borderOf A.dims) A clock
        (progFresh p ![8, 6, 1] (nghostOf 2 2) (borderOf A.dims) A (fun _ i => (i : ℝ) / 10) IA.1 IA.2) k = some z ∧
      (∀ f ∈ z.files, ∑ g ∈ domain ![8, 6, 1], (1 / 10) ^ 3 * f.h.rho.at g = ∑ g ∈ domain ![8, 6, 1], (1 / 10) ^ 3 * (S g).rho) ∧
      (∀ f ∈ z.files, (∀ g, inBox 0 ![8, 6, 1] g → f.h.rho.at g ≠ 0) →
        ∑ g ∈ domain ![8, 6, 1], (1 / 10) ^ 3 * (f.h.rho.at g * (f.h.u 1).at g) = ∑ g ∈ domain ![8, 6, 1], (1 / 10) ^ 3 * ((S g).rho * (S g).u 1)) ∧
      ∀ f ∈ z.files, ∑ g ∈ domain ![8, 6, 1], (1 / 10) ^ 3 * f.h.E.at g = ∑ g ∈ domain ![8, 6, 1], (1 / 10) ^ 3 *
        (p.hydro.eos.evolFromPres (S g).rho (S g).P + (S g).rho * (∑ i, (S g).u i ^ 2) / 2) := by
  have hpos : ∀ a, 0 < (![8, 6, 1] : Cell) a := by decide
  have hN : ∀ a, 0 ≤ (![8, 6, 1] : Cell) a := by decide
  have hp : ParamsOk p [0, 1, 2, 3] := ⟨by rw [hb]; simp, by decide, hpo, fun _ => one_pos, by rw [ht]; norm_num⟩
  have hA := mkMachine_ok (d := 2) (n := 1) hN (dims := ![2, 3, 1]) (by decide) 0 (by norm_num) (demo_size _ (.inl rfl))
  have hi := initArrays_ok (nx := ![8, 6, 1]) (ng := 2) (A := mkMachine 2 1 ![8, 6, 1] 2 hN ![2, 3, 1] (by decide) 0) S Fx
  have hvol : ∀ g, boxCellVol 2 2 (fun _ i => (i : ℝ) / 10) g = (1 / 10) ^ 3 := fun g => by
    unfold boxCellVol
    rw [Fin.prod_univ_three]
    push_cast
    ring
  obtain ⟨z, e, h1⟩ := C69_mass (by norm_num) hpos (by norm_num) hp hA hi clock (by rw [hb]; simp) hge (unit_mesh 2 ![8, 6, 1] 2) (fun _ _ _ _ => rfl) k
  obtain ⟨z', e', h2⟩ := C69_momentum (by norm_num) hpos (by norm_num) hp hA hi clock (by rw [hb]; simp) hge (unit_mesh 2 ![8, 6, 1] 2)
    (fun _ _ _ _ => rfl) (i := 1) (fun _ _ => rfl) k
  obtain ⟨z'', e'', h3⟩ := C69_energy (by norm_num) hpos (by norm_num) hp hA hi clock (by rw [hb]; simp) hge (unit_mesh 2 ![8, 6, 1] 2)
    (fun _ _ _ => rfl) hf (by rw [hs]; simp) k
  obtain rfl := Option.some.inj (e.symm.trans e')
  obtain rfl := Option.some.inj (e.symm.trans e'')
  simp only [hvol] at h1 h2 h3
  exact ⟨_, _, z, rfl, e, h1, h2, h3⟩

/-- Fractions, with reflexive and free boundaries, gravity, pressure fix and heating, on 4 x 1 ranks. -/
example (p : ProgParams 2 1) (hb : p.hydro.bcs = ![![.periodic, .periodic], ![.reflexive, .nullGradient]])
    (hpo : p.hydro.order = [some 2, some 0, some 3, some 1]) (hs : p.step = .heatNickel) (hf : p.fix = some (1 / 1000)) (ht : p.top = 10 ^ 308)
    (S : Cell → Prim 2 ℝ) (X : Fin 3 → ℤ → ℝ) (clock : ℕ → Bool) (k : ℕ) :
    ∃ (A : Machine 2 1) (IA : (Cell → View Cell (Fields 2 1 ℝ)) × (Cell → View Cell (VelPres 2 ℝ))) (z : ProgState 2 1), A.dims = ![4, 1, 1] ∧
      progRun p ![8, 6, 1] (nghostOf 2 2) (borderOf A.dims) A clock (progFresh p ![8, 6, 1] (nghostOf 2 2) (borderOf A.dims) A X IA.1 IA.2) k = some z ∧
      ∀ f ∈ z.files, ∀ g, inBox 0 ![8, 6, 1] g → ∀ i, 0 ≤ (f.h.fx i).at g ∧ (f.h.fx i).at g ≤ 1 := by
  have hN : ∀ a, 0 ≤ (![8, 6, 1] : Cell) a := by decide
  have hp : ParamsOk p [2, 0, 3, 1] := ⟨by rw [hb]; decide, by decide, hpo, fun _ => one_pos, by rw [ht]; norm_num⟩
  obtain ⟨z, e, h⟩ := C69_fractions (X := X) (by norm_num) hN (by norm_num) hp
    (mkMachine_ok (d := 2) (n := 1) hN (dims := ![4, 1, 1]) (by decide) (-1) (by norm_num) (demo_size _ (.inr rfl)))
    (initArrays_ok S fun g _ => if g 0 < 4 then 1 else 0) clock (fun g _ i => by split <;> norm_num) k
  exact ⟨_, _, z, rfl, e, h⟩

/-- A perfect gas at rest on 2 x 3 ranks of a spherical grid (the geometry and the nodes are free): its files, and the end of the run. -/
example (p : ProgParams 2 1) (hb : p.hydro.bcs = ![![.nullGradient, .nullGradient], ![.reflexive, .reflexive]])
    (hpo : p.hydro.order = [some 2, some 0, some 3, some 1]) (hs : p.step = .off) (hf : p.fix = some (1 / 1000)) (ht : p.top = 10 ^ 308) {g : Gas} (hg : g.Physical)
    (he : p.hydro.eos = PerfectGas.toEoS g) (hge : p.hydro.geom = .spherical) (hq : p.loop.timeFreq = 0) (hm : p.loop.maxIter = 100)
    (X : Fin 3 → ℤ → ℝ) (clock : ℕ → Bool) :
    ∃ (A : Machine 2 1) (IA : (Cell → View Cell (Fields 2 1 ℝ)) × (Cell → View Cell (VelPres 2 ℝ))) (z : ProgState 2 1), A.dims = ![2, 3, 1] ∧
      progRun p ![8, 6, 1] (nghostOf 2 2) (borderOf A.dims) A clock (progFresh p ![8, 6, 1] (nghostOf 2 2) (borderOf A.dims) A X IA.1 IA.2) 100 = some z ∧
      z.status = .finished ∧ ∀ f ∈ z.files, ∀ g, inBox 0 ![8, 6, 1] g → f.h.rho.at g = 3 ∧ f.h.P.at g = 2 := by
  have hpos : ∀ a, 0 < (![8, 6, 1] : Cell) a := by decide
  have hN : ∀ a, 0 ≤ (![8, 6, 1] : Cell) a := by decide
  have hp : ParamsOk p [2, 0, 3, 1] := ⟨by rw [hb]; decide, by decide, hpo, fun _ => one_pos, by rw [ht]; norm_num⟩
  have hA := mkMachine_ok (d := 2) (n := 1) hN (dims := ![2, 3, 1]) (by decide) 0 (by norm_num) (demo_size _ (.inl rfl))
  have hi := initArrays_ok (nx := ![8, 6, 1]) (ng := 2) (A := mkMachine 2 1 ![8, 6, 1] 2 hN ![2, 3, 1] (by decide) 0) (fun _ => (⟨3, fun _ => 0, 2⟩ : Prim 2 ℝ))
    (fun _ _ => 1 / 2)
  have hl : p.hydro.eos.Lawful := by rw [he]; exact PerfectGas.lawful hg
  have hev : 0 ≤ p.hydro.eos.evolFromPres 3 2 := by
    rw [he]
    have := hg.gammaM1_pos
    rw [perfectGas_evol hg _ (by norm_num)]
    positivity
  obtain ⟨z, e, -, h⟩ := C69_rest (X := X) (by norm_num) hpos (by norm_num) hp hA hi clock hl (fun _ _ _ => rfl) (by rw [hs]; simp)
    (by norm_num : (0 : ℝ) < 3) (by norm_num : (0 : ℝ) < 2) hev (fx := fun _ => 1 / 2) (fun _ => by norm_num) (fun _ _ => rfl) (fun _ _ => rfl) 100
  obtain ⟨z', e', -, h'⟩ := C69_rest_finishes (X := X) (by norm_num) hpos (by norm_num) hp hA hi clock hl (fun _ _ _ => rfl) (by rw [hs]; simp)
    (by norm_num : (0 : ℝ) < 3) (by norm_num : (0 : ℝ) < 2) hev (fx := fun _ => 1 / 2) (fun _ => by norm_num) (fun _ _ => rfl) (fun _ _ => rfl) hq.le 100
  obtain rfl := Option.some.inj (e.symm.trans e')
  exact ⟨_, _, z, rfl, e, h' (by norm_num) (by rw [hm]; norm_num), fun f hf g hg => ⟨(h f hf g hg).1, (h f hf g hg).2.2.1⟩⟩

/-- Beside `C68_stopped_and_restarted`: the perfect gas at rest, at most one iteration, on 2 x 3 ranks; the file left at the stop is continued on
4 x 1 ranks with a limit of 50 iterations. The end time is chosen after the first time step so that the run is stopped before it. -/
example (p : ProgParams 2 1) (hb : p.hydro.bcs = ![![.nullGradient, .nullGradient], ![.reflexive, .reflexive]])
    (hpo : p.hydro.order = [some 2, some 0, some 3, some 1]) (hs : p.step = .off) (ht : p.top = 10 ^ 308) {g : Gas} (hg : g.Physical)
    (he : p.hydro.eos = PerfectGas.toEoS g) (X : Fin 3 → ℤ → ℝ) (m : ℕ) :
    ∃ (T : ℝ) (q : ProgParams 2 1) (A B : Machine 2 1) (IA : (Cell → View Cell (Fields 2 1 ℝ)) × (Cell → View Cell (VelPres 2 ℝ)))
      (z1 zA zB : ProgState 2 1) (f : LoopState (FluidFile 2 1) ℝ), p.tIni < T ∧
      q = { p with loop := { p.loop with tEnd := T, timeFreq := 0, iterFreq := 10, maxIter := 1, cfl := 1 / 2 } } ∧ A.dims = ![2, 3, 1] ∧ B.dims = ![4, 1, 1] ∧
      progRun q ![8, 6, 1] (nghostOf 2 2) (borderOf A.dims) A (fun _ => false)
        (progFresh q ![8, 6, 1] (nghostOf 2 2) (borderOf A.dims) A X IA.1 IA.2) 1 = some z1 ∧ z1.status = .finished ∧ f ∈ z1.files ∧ f.iter = 1 ∧
      progRun (q.withMaxIter 50) ![8, 6, 1] (nghostOf 2 2) (borderOf A.dims) A (fun _ => false)
        (progFresh (q.withMaxIter 50) ![8, 6, 1] (nghostOf 2 2) (borderOf A.dims) A X IA.1 IA.2) (0 + 1 + m) = some zA ∧
      progRun (q.withMaxIter 50) ![8, 6, 1] (nghostOf 2 2) (borderOf B.dims) B (fun _ => false)
        (progRestart (q.withMaxIter 50) ![8, 6, 1] (nghostOf 2 2) (borderOf B.dims) B f) m = some zB ∧
      zB.status = zA.status ∧ zB.s.t = zA.s.t ∧ zB.s.iter = zA.s.iter ∧ SameFluid ![8, 6, 1] 2 A.dims B.dims zA.s.h zB.s.h := by
  have hpos : ∀ a, 0 < (![8, 6, 1] : Cell) a := by decide
  have hN : ∀ a, 0 ≤ (![8, 6, 1] : Cell) a := by decide
  have hA := mkMachine_ok (d := 2) (n := 1) hN (dims := ![2, 3, 1]) (by decide) 0 (by norm_num) (demo_size _ (.inl rfl))
  have hB := mkMachine_ok (d := 2) (n := 1) hN (dims := ![4, 1, 1]) (by decide) 0 (by norm_num) (demo_size _ (.inr rfl))
  set A := mkMachine 2 1 ![8, 6, 1] 2 hN ![2, 3, 1] (by decide) 0
  set B := mkMachine 2 1 ![8, 6, 1] 2 hN ![4, 1, 1] (by decide) 0
  have hi := initArrays_ok (nx := ![8, 6, 1]) (ng := 2) (A := A) (fun _ => (⟨3, fun _ => 0, 2⟩ : Prim 2 ℝ)) (fun _ (_ : Fin 1) => (1 / 2 : ℝ))
  -- the first time step does not depend on the end time
  obtain ⟨δ, hδ⟩ : ∃ δ, δ = (globHydro p ![8, 6, 1] 2 X (fun _ _ _ => 0) [2, 0, 3, 1]).timeStep
    (bcGlob p.hydro.bcs ![8, 6, 1] (nghostOf 2 2) [2, 0, 3, 1] fun _ => consFields p.hydro.eos (⟨3, fun _ => 0, 2⟩ : Prim 2 ℝ) fun _ => (1 / 2 : ℝ)) := ⟨_, rfl⟩
  set T := max p.tIni (p.tIni + 1 / 2 * δ) + 1 with hT
  have hT1 : p.tIni < T := by have := le_max_left p.tIni (p.tIni + 1 / 2 * δ); linarith
  have hT2 : p.tIni + 1 / 2 * δ < T := by have := le_max_right p.tIni (p.tIni + 1 / 2 * δ); linarith
  set q : ProgParams 2 1 := { p with loop := { p.loop with tEnd := T, timeFreq := 0, iterFreq := 10, maxIter := 1, cfl := 1 / 2 } } with hq
  have hp : ParamsOk q [2, 0, 3, 1] := ⟨by show ∀ a f, p.hydro.bcs a f ≠ _; rw [hb]; decide, by decide, hpo, fun _ => one_pos, by
    show 0 ≤ p.top; rw [ht]; norm_num⟩
  have hl : q.hydro.eos.Lawful := by show p.hydro.eos.Lawful; rw [he]; exact PerfectGas.lawful hg
  have hev : 0 ≤ q.hydro.eos.evolFromPres 3 2 := by
    show 0 ≤ p.hydro.eos.evolFromPres 3 2
    rw [he]
    have := hg.gammaM1_pos
    rw [perfectGas_evol hg _ (by norm_num)]
    positivity
  obtain ⟨z0, e0, f0⟩ := progFresh_follows (X := X) (by norm_num) hN (by norm_num) hp hA hi
  obtain ⟨z1, e1, f1⟩ := progRun_follows (by norm_num) hN (by norm_num) hp hA (fun _ => false) e0 f0 1
  obtain ⟨z1', e1', hold, -⟩ := C69_rest (X := X) (by norm_num) hpos (by norm_num) hp hA hi (fun _ => false) hl (fun _ _ _ => rfl)
    (by show p.step ≠ _; rw [hs]; simp)
    (by norm_num : (0 : ℝ) < 3) (by norm_num : (0 : ℝ) < 2) hev (fx := fun _ => 1 / 2) (fun _ => by norm_num) (fun _ _ => rfl) (fun _ _ => rfl) 1
  obtain rfl := Option.some.inj (e1.symm.trans e1')
  obtain ⟨z2, e2, -, hfin⟩ := C69_rest_finishes (X := X) (by norm_num) hpos (by norm_num) hp hA hi (fun _ => false) hl (fun _ _ _ => rfl)
    (by show p.step ≠ _; rw [hs]; simp)
    (by norm_num : (0 : ℝ) < 3) (by norm_num : (0 : ℝ) < 2) hev (fx := fun _ => 1 / 2) (fun _ => by norm_num) (fun _ _ => rfl) (fun _ _ => rfl) le_rfl 1
  obtain rfl := Option.some.inj (e1.symm.trans e2)
  have hfin := hfin one_pos le_rfl
  rw [freshRun_on (by norm_num)] at f0 f1
  obtain ⟨-, -, hint, -⟩ := advance_rest (p := q) (nx := ![8, 6, 1]) (ng := 2) (X := X) (Gr := fun _ _ _ => 0) (order := [2, 0, 3, 1]) (by norm_num) hpos (by norm_num) hl
    (fun _ _ _ => rfl) (by show p.step ≠ _; rw [hs]; simp) (by norm_num : (0 : ℝ) < 3) (by norm_num : (0 : ℝ) < 2) hev (fx := fun _ => 1 / 2)
    (fun _ => by norm_num) rfl
  have hlast := runN_last (q := q.loop) (hy := globHydro q ![8, 6, 1] 2 X (fun _ _ _ => 0) [2, 0, 3, 1]) (clock := fun _ => false)
    (r := ⟨⟨bcGlob q.hydro.bcs ![8, 6, 1] (nghostOf 2 2) [2, 0, 3, 1] fun _ => consFields q.hydro.eos (⟨3, fun _ => 0, 2⟩ : Prim 2 ℝ) fun _ => (1 / 2 : ℝ),
        q.tIni, 0, 0, 0, -1⟩, [⟨bcGlob q.hydro.bcs ![8, 6, 1] (nghostOf 2 2) [2, 0, 3, 1] fun _ =>
          consFields q.hydro.eos (⟨3, fun _ => 0, 2⟩ : Prim 2 ℝ) fun _ => (1 / 2 : ℝ), q.tIni, 0, 0, 0, -1⟩], .running⟩)
    rfl le_rfl le_rfl (by
      rw [Bool.eq_false_iff, Ne, globHydro_bad]
      rintro ⟨c, hc, hlt⟩
      dsimp only at hlt
      rw [show (bcGlob q.hydro.bcs ![8, 6, 1] (nghostOf 2 2) [2, 0, 3, 1] fun _ => consFields q.hydro.eos (⟨3, fun _ => 0, 2⟩ : Prim 2 ℝ) fun _ =>
        (1 / 2 : ℝ)) (c + nghostOf 2 2) = _ from bcGlob_interior (ng := 2) q.hydro.bcs (by norm_num) (by norm_num) hp.ids _ hc] at hlt
      exact absurd hlt (not_lt.2 hint)) (by
      show p.tIni + 1 / 2 * (globHydro p ![8, 6, 1] 2 X (fun _ _ _ => 0) [2, 0, 3, 1]).timeStep _ < T
      rw [← hδ]
      exact hT2)
  obtain ⟨l1, l2, l3⟩ := hlast
  obtain ⟨w1, w2, -⟩ := withFluid_eq f1.s
  obtain ⟨f, hf, hff⟩ : ∃ f ∈ z1.files, f.iter = z1.s.iter := by
    have hfl := f1.files.flip
    obtain ⟨f, h1, h2⟩ := forall₂_mem hfl l3
    obtain ⟨-, h3, -⟩ := withFluid_eq h2.2
    exact ⟨f, h1, h3.trans w2.symm⟩
  have hsame : SameFile f f := ⟨⟨rfl, fun _ _ => rfl⟩, fun _ => ⟨rfl, fun _ _ => rfl⟩, ⟨rfl, fun _ _ => rfl⟩, ⟨rfl, fun _ _ => rfl⟩,
    ⟨rfl, fun _ _ => rfl⟩, fun _ => ⟨rfl, fun _ _ => rfl⟩, rfl, rfl, rfl, rfl, rfl, rfl, rfl⟩
  have hi1 : z1.s.iter = 1 := by rw [w2, l2]; norm_num
  obtain ⟨zN, zN1, zA, zB, -, -, q3, q4, q5, q6, q7, -, -, q8, -⟩ := C68_stopped_and_restarted (X := X) (N := 0) (z := z0) (z1 := z1) (M := 50)
    (clock := fun _ => false) (f := f) (f' := f) (by norm_num) hpos (by norm_num) hp hl hA hB hi (by show (1 : ℤ) ≤ 50; norm_num) e0 f0.status e1 hfin
    (by rw [w1]; exact l1.ne) (by rw [hi1]; norm_num) (by
      intro r hr c hc
      rw [hold.val r hr c (layer_inExt hc (by norm_num))]
      show (0 : ℝ) < 3
      norm_num) hf hff hsame m
  exact ⟨T, q, A, B, _, z1, zA, zB, f, hT1, rfl, rfl, rfl, e1, hfin, hf, hff.trans hi1, q3, q4, q5, q6, q7, q8⟩

end Examples

end Heracles

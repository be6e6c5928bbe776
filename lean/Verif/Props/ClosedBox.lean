import Verif.Lemmas.ClosedBox
import Verif.Props.Positivity

/-!
# Closed boxes

C75: between reflexive walls and periodic faces nothing leaves the domain, in one step and over whole runs; with gravity across a wall, mass
does.
-/

namespace Heracles

variable {d n : ℕ} {K : Type}

section Step
variable [Field K] [LinearOrder K] [IsStrictOrderedRing K]

/-- The states predicted inside the domain at the walls are physical: `R` in the cells next to the first and last faces of the directions
that are not periodic. -/
def WallPhysical (eos : EoS K) (ext : Cell) (ng : ℤ) (per : Fin d → Prop) (R : Cell → Fin 2 → Fin d → Fields d n K) : Prop :=
  ∀ a : Fin d, ¬ per a → ∀ c, layer d ext ng c →
    (c (ax a) = firstIdx d ng (ax a) → (R c 0 a).cons.Adm eos) ∧ (c (ax a) = lastIdx d ext ng (ax a) → (R c 1 a).cons.Adm eos)

variable {g : GridData K} {grav : GravField d K} {ext : Cell} {p : PGrid d K} {ng : ℤ} {sc : RecScheds d n} {l l' : List Cell} {lim : Limiter} {sol : Solver}
  {eos : EoS K} {tr : Trig K} {dt : K} {U : Cell → Fields d n K} {up : Cell → VelPres d K} {upRec : Cell → Fin 2 → Fin d → VelPres d K}
  {rec : Cell → Fin 2 → Fin d → Fields d n K} {new : Cell → Fields d n K}

/-- Through a wall go no mass, no energy and no transverse momentum. -/
theorem wall_flux (he : eos.Lawful) (hd : d ≤ 3) (hng : 2 ≤ ng) (hG : GeoOf tr .cartesian ext p)
    (hsz : ∀ a : Fin d, firstIdx d ng (ax a) ≤ lastIdx d ext ng (ax a) ∧ 2 * ng ≤ ext (ax a)) {R : Cell → Fin 2 → Fin d → Fields d n K}
    (hR : ∀ c, layer d ext (ng - 1) c → R c = recVal lim eos tr .cartesian p (dt / 2) U up c) {a : Fin d}
    (hw : MirrorWall ext a 0 ng p U up ∧ MirrorWall ext a (ext (ax a) - 2 * ng) ng p U up) {c : Cell} (hc : layer d ext ng c)
    (h0 : c (ax a) = firstIdx d ng (ax a) → (R c 0 a).cons.Adm eos) (h1 : c (ax a) = lastIdx d ext ng (ax a) → (R c 1 a).cons.Adm eos)
    (φ : Flux d K → K) (hφ : ∀ F : Flux d K, F.rho = 0 → F.E = 0 → (∀ i, i ≠ a → F.rhou i = 0) → φ F = 0) :
    (c (ax a) = firstIdx d ng (ax a) → φ (sol.flux eos (R (nb c (ax a) (-1)) 1 a).cons (R c 0 a).cons a) = 0) ∧
    (c (ax a) = lastIdx d ext ng (ax a) → φ (sol.flux eos (R c 1 a).cons (R (nb c (ax a) 1) 0 a).cons a) = 0) := by
  have hax := ax_lt hd a
  have hnga : nghostOf d ng (ax a) = ng := by simp only [nghostOf, if_pos hax]
  have hs := (hsz a).2
  constructor
  · intro hca
    have L1 := layer_nb hd hc a (s := -1) (by norm_num) (by norm_num)
    have hcb : c (ax a) = 0 + ng := by rw [hca, firstIdx, hnga, zero_add]
    have := hw.1.faces hd hG hng le_rfl (by omega) lim eos (dt / 2) (layer_stencil hd hc (by omega)) hcb
    rw [hR _ L1, this, ← hR c (layer_mono hc (by omega)), Fields.flip_cons]
    obtain ⟨-, w1, w2, w3⟩ := C29_mirror_wall sol he (h0 hca) a
    exact hφ _ w1 w2 w3
  · intro hca
    have L1 := layer_nb hd hc a (s := 1) (by norm_num) (by norm_num)
    have hcb : nb c (ax a) 1 (ax a) = ext (ax a) - 2 * ng + ng := by
      rw [nb_self, hca, lastIdx, hnga]
      ring
    have e0 : nb (nb c (ax a) 1) (ax a) (-1) = c := by rw [nb_nb]; exact nb_zero c _
    have := hw.2.faces hd hG hng (by omega) (by omega) lim eos (dt / 2) (layer_stencil hd L1 (by omega)) hcb
    rw [e0, ← hR c (layer_mono hc (by omega)), ← hR _ L1] at this
    have e1 : (R (nb c (ax a) 1) 0 a) = (R c 1 a).flip a := by rw [this, flip_flip]
    rw [e1, Fields.flip_cons]
    obtain ⟨⟨w1, w2, w3⟩, -⟩ := C29_mirror_wall sol he (h1 hca) a
    exact hφ _ w1 w2 w3

/-- C75, one step, any limiter, Riemann solver and lawful equation of state, Cartesian grid. Each direction of the arrays is periodic or ends
with walls on both sides: ghost cells that mirror the cells inside, with cell lengths and gravity mirrored too (so no uniform gravity
across a wall). If the states predicted at the walls are physical, the total mass does not change, the total energy changes by the work of
gravity and the total momentum along a periodic direction by the weight. `closed_totals` below applies it to every
physical state without slopes. -/
theorem C75_step_partial (h : StepOk g grav ext p ng sc l l') (hG : GeoOf tr .cartesian ext p) (he : eos.Lawful)
    (hC : ∀ a, ClosedAlong ext ng a p U up) (hdv : ∀ c, layer d ext ng c → p.dv c ≠ 0)
    (hsz : ∀ a : Fin d, firstIdx d ng (ax a) ≤ lastIdx d ext ng (ax a)) :
    ∃ R out, hydroReconstruct lim eos tr .cartesian g grav (dt / 2) sc ⟨inExt ext, U⟩ ⟨inExt ext, up⟩ ⟨inExt ext, upRec⟩ ⟨inExt ext, rec⟩ =
        some ⟨inExt ext, R⟩ ∧
      hydroStep lim sol eos tr .cartesian g grav dt sc l l' ⟨inExt ext, U⟩ ⟨inExt ext, up⟩ ⟨inExt ext, upRec⟩ ⟨inExt ext, rec⟩ ⟨inExt ext, new⟩ =
        some ⟨inExt ext, out⟩ ∧
      (WallPhysical eos ext ng (fun a => PeriodicAlong ext ng a p U up) R →
        ∑ c ∈ interior d ext ng, p.dv c * (out c).rho = ∑ c ∈ interior d ext ng, p.dv c * (U c).rho ∧
        ∑ c ∈ interior d ext ng, p.dv c * (out c).E = ∑ c ∈ interior d ext ng, p.dv c * (U c).E
          + dt * ∑ c ∈ interior d ext ng, p.dv c * ∑ a, p.grav c a * (U c).rhou a ∧
        ∀ i, PeriodicAlong ext ng i p U up → ∑ c ∈ interior d ext ng, p.dv c * (out c).rhou i = ∑ c ∈ interior d ext ng, p.dv c * (U c).rhou i
          + dt * ∑ c ∈ interior d ext ng, p.dv c * (p.grav c i * (U c).rho)) := by
  obtain ⟨R, out, h1, h2, h3⟩ := C31_single_interface_flux lim sol eos tr .cartesian dt U up upRec rec new h
  refine ⟨R, out, h1, h2, fun hW => ?_⟩
  have hR := h.recon_val lim eos tr .cartesian dt U up upRec rec h1
  have hsz' : ∀ a : Fin d, firstIdx d ng (ax a) ≤ lastIdx d ext ng (ax a) ∧ 2 * ng ≤ ext (ax a) := fun a => by
    have h1 := hsz a
    have hnga : nghostOf d ng (ax a) = ng := by simp only [nghostOf, if_pos (ax_lt h.dim a)]
    refine ⟨h1, ?_⟩
    unfold firstIdx lastIdx at h1
    rw [hnga] at h1
    omega
  have total := fun (φ : Flux d K → K) (hφ : ∀ a, ¬ PeriodicAlong ext ng a p U up → ∀ F : Flux d K, F.rho = 0 → F.E = 0 → (∀ i, i ≠ a → F.rhou i = 0) → φ F = 0) =>
    closed_total (U := U) (up := up) h.dim h.ghosts hG hdv hsz hR (fun a r r' => φ (sol.flux eos (r 1 a).cons (r' 0 a).cons a)) (fun a => by
      by_cases hP : PeriodicAlong ext ng a p U up
      · exact .inl hP
      · right
        intro c hc
        have hw := (hC a).resolve_left hP
        exact wall_flux he h.dim h.ghosts hG hsz' hR hw hc (hW a hP c hc).1 (hW a hP c hc).2 φ (hφ a hP))
  refine ⟨?_, ?_, fun i hi => ?_⟩
  · have := total (fun f => f.rho) (fun _ _ F h _ _ => h) (fun c => (U c).rho) (fun c => (out c).rho) (fun _ => 0)
      (fun c hc => by rw [(h3 c hc).1]; simp [faceFlux])
    simpa using this
  · exact total (fun f => f.E) (fun _ _ F _ h _ => h) (fun c => (U c).E) (fun c => (out c).E) (fun c => ∑ a, p.grav c a * (U c).rhou a)
      (fun c hc => by rw [(h3 c hc).2.1]; simp [faceFlux])
  · exact total (fun f => f.rhou i) (fun a ha F _ _ h => h i (fun e => ha (e ▸ hi))) (fun c => (U c).rhou i) (fun c => (out c).rhou i)
      (fun c => p.grav c i * (U c).rho) (fun c hc => by rw [(h3 c hc).2.2.1 rfl i]; simp [faceFlux])

end Step

/-! ### Whole runs -/

section Runs

/-- The mesh of a closed box: increasing nodes; along a periodic direction the ghost cells are as long as the cells they continue, beyond a
wall as long as the cells they mirror. -/
structure ClosedMesh (d : ℕ) (nx : Cell) (ng : ℤ) (bcs : Fin d → Fin 2 → BcKind) (X : Fin 3 → ℤ → ℝ) : Prop where
  incr : ∀ a i, 0 ≤ i → i < nx a + 2 * nghostOf d ng a → X a i < X a (i + 1)
  per : ∀ a : Fin d, (∀ f, bcs a f = .periodic) → ∀ i, 0 ≤ i → i < 2 * ng →
    X (ax a) (i + nx (ax a) + 1) - X (ax a) (i + nx (ax a)) = X (ax a) (i + 1) - X (ax a) i
  wall : ∀ a : Fin d, (∀ f, bcs a f = .reflexive) → ∀ i, 0 ≤ i → i < ng →
    X (ax a) (ng - i) - X (ax a) (ng - i - 1) = X (ax a) (ng + i + 1) - X (ax a) (ng + i) ∧
    X (ax a) (nx (ax a) + ng + i + 1) - X (ax a) (nx (ax a) + ng + i) = X (ax a) (nx (ax a) + ng - i) - X (ax a) (nx (ax a) + ng - i - 1)

variable {p : ProgParams d n} {nx : Cell} {ng : ℤ} {X : Fin 3 → ℤ → ℝ} {Gr : (Cell → Fields d n ℝ) → Cell → Fin d → ℝ} {A : Machine d n}
  {order : List ℕ} {S : Cell → Prim d ℝ} {Fx : Cell → Fin n → ℝ} {U : Cell → View Cell (Fields d n ℝ)} {up : Cell → View Cell (VelPres d ℝ)}

theorem primGlob_flip (eos : EoS ℝ) {W : Cell → Fields d n ℝ} {C C' : Cell} {a : Fin d} (h : W C = (W C').flip a) :
    primGlob eos W C = (primGlob eos W C').flip a := by
  rw [primGlob_toPrim, primGlob_toPrim, h, Fields.flip_cons, toPrim_flip]
  rfl

/-- The global array of a closed box. -/
theorem glob_closed (hd3 : d ≤ 3) (hpos : ∀ a, 0 < nx a) (hng : 2 ≤ ng) (hsz : ∀ a : Fin d, ng ≤ nx (ax a)) {bcs : Fin d → Fin 2 → BcKind}
    (hb : ∀ a, (∀ f, bcs a f = .periodic) ∨ ∀ f, bcs a f = .reflexive) (ho : ∀ id ∈ order, id < 2 * d) (hall : ∀ (a : Fin d) f, faceId a f ∈ order)
    (hX : ClosedMesh d nx ng bcs X) (tr : Trig ℝ) (eos : EoS ℝ) {Gr0 : Cell → Fin d → ℝ} (h0 : ∀ C a, Gr0 C a = 0)
    (G : Cell → Fields d n ℝ) (a : Fin d) :
    ((∀ f, bcs a f = .periodic) → PeriodicAlong (globExt nx (nghostOf d ng)) ng a (globGrid tr .cartesian X Gr0) (bcGlob bcs nx (nghostOf d ng) order G)
      (primGlob eos (bcGlob bcs nx (nghostOf d ng) order G))) ∧
    ClosedAlong (globExt nx (nghostOf d ng)) ng a (globGrid tr .cartesian X Gr0) (bcGlob bcs nx (nghostOf d ng) order G)
      (primGlob eos (bcGlob bcs nx (nghostOf d ng) order G)) := by
  have hnga : nghostOf d ng (ax a) = ng := by simp [nghostOf, ax_val hd3]
  have he : globExt nx (nghostOf d ng) (ax a) = nx (ax a) + 2 * ng := by rw [globExt, hnga]
  have he' : globExt nx (nghostOf d ng) (ax a) - 2 * ng = nx (ax a) := by rw [he]; ring
  have hper : (∀ f, bcs a f = .periodic) → PeriodicAlong (globExt nx (nghostOf d ng)) ng a (globGrid tr .cartesian X Gr0) (bcGlob bcs nx (nghostOf d ng) order G)
      (primGlob eos (bcGlob bcs nx (nghostOf d ng) order G)) := by
    intro hb
    have hU := fun {C} h1 h2 => bcGlob_periodicAlong (C := C) hd3 (by omega) hpos hsz ho G hb h1 h2
    constructor
    · intro C h1 h2; rw [he'] at h2 ⊢; exact hU h1 h2
    · intro C h1 h2; rw [he'] at h2 ⊢; unfold primGlob; rw [hU h1 h2]
    · intro C _ _; funext i; exact (h0 _ _).trans (h0 _ _).symm
    · intro i h1 h2
      rw [he'] at h2 ⊢
      rw [he] at h2
      exact hX.per a hb i h1 (by omega)
  refine ⟨hper, ?_⟩
  rcases hb a with hb | hb
  · exact .inl (hper hb)
  · right
    have hU := fun (f : Fin 2) {C} h1 h2 h3 => bcGlob_wall (C := C) (bcs := bcs) hd3 (by omega) hpos hsz ho G f (hall a f) (hb f) h1 h2 h3
    constructor
    · have hU0 := fun {C} h1 h2 h3 => hU 0 (C := C) h1 h2 h3
      simp only [if_true] at hU0
      refine ⟨fun C h1 h2 h3 => hU0 h1 h2 h3, fun C h1 h2 h3 => primGlob_flip eos (hU0 h1 h2 h3), fun C _ _ _ i => ?_, fun i h1 h2 => ?_⟩
      · show Gr0 _ _ = _ * Gr0 _ _
        rw [h0, h0, mul_zero]
      · show X (ax a) (i + 1) - X (ax a) i = X (ax a) (2 * 0 + 2 * ng - 1 - i + 1) - X (ax a) (2 * 0 + 2 * ng - 1 - i)
        rcases lt_or_ge i ng with h | h
        · have := (hX.wall a hb (ng - 1 - i) (by omega) (by omega)).1
          rw [show ng - (ng - 1 - i) = i + 1 by ring, show i + 1 - 1 = i by ring, show ng + (ng - 1 - i) = 2 * 0 + 2 * ng - 1 - i by ring] at this
          exact this
        · have := (hX.wall a hb (i - ng) (by omega) (by omega)).1
          rw [show ng + (i - ng) = i by ring, show ng - (i - ng) = 2 * 0 + 2 * ng - 1 - i + 1 by ring,
            show 2 * 0 + 2 * ng - 1 - i + 1 - 1 = 2 * 0 + 2 * ng - 1 - i by ring] at this
          exact this.symm
    · have hU1 := fun {C} h1 h2 h3 => hU 1 (C := C) h1 h2 h3
      simp only [Fin.reduceEq, if_false] at hU1
      rw [he']
      refine ⟨fun C h1 h2 h3 => hU1 h1 h2 h3, fun C h1 h2 h3 => primGlob_flip eos (hU1 h1 h2 h3), fun C _ _ _ i => ?_, fun i h1 h2 => ?_⟩
      · show Gr0 _ _ = _ * Gr0 _ _
        rw [h0, h0, mul_zero]
      · show X (ax a) (i + 1) - X (ax a) i = X (ax a) (2 * nx (ax a) + 2 * ng - 1 - i + 1) - X (ax a) (2 * nx (ax a) + 2 * ng - 1 - i)
        rcases lt_or_ge i (nx (ax a) + ng) with h | h
        · have := (hX.wall a hb (nx (ax a) + ng - 1 - i) (by omega) (by omega)).2
          rw [show nx (ax a) + ng - (nx (ax a) + ng - 1 - i) = i + 1 by ring, show i + 1 - 1 = i by ring,
            show nx (ax a) + ng + (nx (ax a) + ng - 1 - i) = 2 * nx (ax a) + 2 * ng - 1 - i by ring] at this
          exact this.symm
        · have := (hX.wall a hb (i - (nx (ax a) + ng)) (by omega) (by omega)).2
          rw [show nx (ax a) + ng + (i - (nx (ax a) + ng)) = i by ring,
            show nx (ax a) + ng - (i - (nx (ax a) + ng)) = 2 * nx (ax a) + 2 * ng - 1 - i + 1 by ring,
            show 2 * nx (ax a) + 2 * ng - 1 - i + 1 - 1 = 2 * nx (ax a) + 2 * ng - 1 - i by ring] at this
          exact this

/-- Totals over a closed box after one iteration without slopes. -/
theorem closed_totals (hd3 : d ≤ 3) (hpos : ∀ a, 0 < nx a) (hng : 2 ≤ ng) (hsz : ∀ a : Fin d, ng ≤ nx (ax a))
    (hb : ∀ a, (∀ f, p.hydro.bcs a f = .periodic) ∨ ∀ f, p.hydro.bcs a f = .reflexive) (ho : ∀ id ∈ order, id < 2 * d) (hall : ∀ (a : Fin d) f, faceId a f ∈ order)
    (hX : ClosedMesh d nx ng p.hydro.bcs X) (he : p.hydro.eos.Lawful) (hgeom : p.hydro.geom = .cartesian) (hlim : p.hydro.lim = .constant)
    (h0 : ∀ W C a, Gr W C a = 0) {W G : Cell → Fields d n ℝ} (hW : W = bcGlob p.hydro.bcs nx (nghostOf d ng) order G)
    (hA : ∀ C, (W C).cons.Adm p.hydro.eos) (hf : p.fix = none) (hs : p.step ≠ .heatNickel) (t dt : ℝ) :
    let W' := fun g => progVal p (globGrid p.hydro.tr p.hydro.geom X (Gr W)) t dt W (primGlob p.hydro.eos W) (g + nghostOf d ng)
    ∑ g ∈ domain nx, boxCellVol d ng X g * (W' g).rho = ∑ g ∈ domain nx, boxCellVol d ng X g * (W (g + nghostOf d ng)).rho ∧
    ∑ g ∈ domain nx, boxCellVol d ng X g * (W' g).E = ∑ g ∈ domain nx, boxCellVol d ng X g * (W (g + nghostOf d ng)).E ∧
    ∀ i, (∀ f, p.hydro.bcs i f = .periodic) → ∑ g ∈ domain nx, boxCellVol d ng X g * (W' g).rhou i =
      ∑ g ∈ domain nx, boxCellVol d ng X g * (W (g + nghostOf d ng)).rhou i := by
  intro W'
  have hcl := fun a => glob_closed (a := a) hd3 hpos hng hsz hb ho hall hX p.hydro.tr p.hydro.eos (h0 W) G
  rw [← hW] at hcl
  set ext := globExt nx (nghostOf d ng) with hext
  set Gd := globGrid (d := d) p.hydro.tr .cartesian X (Gr W) with hGd
  have hdv : ∀ c, layer d ext ng c → Gd.dv c ≠ 0 := by
    intro c hc
    have hg := layer_glob.1 hc
    rw [show c = (c - nghostOf d ng) + nghostOf d ng by rw [sub_add_cancel], globDv]
    unfold boxCellVol
    refine (Finset.prod_pos fun a _ => sub_pos.2 ?_).ne'
    have h1 := hg a
    have h2 := hX.incr a (c a)
    have h3 : 0 ≤ nghostOf d ng a := by unfold nghostOf; split <;> omega
    simp only [Pi.zero_apply, Pi.sub_apply] at h1
    have h4 : (c - nghostOf d ng) a + (if a.val < d then ng else 0) = c a := by
      show c a - nghostOf d ng a + nghostOf d ng a = c a
      ring
    rw [h4]
    exact h2 (by omega) (by omega)
  have hszI : ∀ a : Fin d, firstIdx d ng (ax a) ≤ lastIdx d ext ng (ax a) := by
    intro a
    have h1 := hpos (ax a)
    have h4 : nghostOf d ng (ax a) = ng := ax_nghost hd3 ng a
    have h5 : ext (ax a) = nx (ax a) + 2 * ng := by rw [hext, globExt, h4]
    unfold firstIdx lastIdx
    rw [h4]
    omega
  have hok := globStepOk (n := n) hd3 hng Gd ext
  obtain ⟨R, out, e1, e, hT⟩ := C75_step_partial (lim := p.hydro.lim) (sol := p.hydro.sol) (dt := dt) (U := W) (up := primGlob p.hydro.eos W)
    (upRec := fun _ _ _ => ⟨fun _ => 0, 0⟩) (rec := fun _ _ _ => ⟨0, 0, 0, 0⟩) (new := W) hok
    (globGeoOf p.hydro.tr .cartesian ext X (Gr W)) he (fun a => (hcl a).2) hdv hszI
  have hR := hok.recon_val p.hydro.lim p.hydro.eos p.hydro.tr .cartesian dt W (primGlob p.hydro.eos W) _ _ e1
  have hRW : ∀ c, layer d ext ng c → R c = fun _ _ => W c := by
    intro c hc
    rw [hR c (layer_mono hc (by omega)), hlim]
    refine recVal_constant he p.hydro.tr Gd (dt / 2) (hA c).1 (primGlob_toPrim _ _ _) (fun a => h0 _ _ _) (fun a => ?_)
    exact dsFun_nb p.hydro.tr X (fun a i => X a (i + 1) - X a i) c a
  obtain ⟨h1, h3, h2⟩ := hT (fun a _ c hc => by rw [hRW c hc]; exact ⟨fun _ => hA c, fun _ => hA c⟩)
  have ho := fun {c} hc => glob_out (c := c) hd3 hng Gd ext e hc
  have hW' : ∀ g, g ∈ domain nx → W' g = out (g + nghostOf d ng) := by
    intro g hg
    rw [ho (layer_glob.2 (by rw [add_sub_cancel_right]; exact mem_domain.1 hg)), hGd]
    simp only [W', hgeom]
    rw [progVal_plain hf hs, hgeom]
  have hvol := fun g => globDv (ng := ng) (X := X) p.hydro.tr (Gr W) g
  rw [← hGd] at hvol
  have hg0 : ∀ c a, Gd.grav c a = 0 := fun c a => h0 W c a
  rw [sum_interior, sum_interior] at h1
  simp only [hg0, zero_mul, mul_zero, Finset.sum_const_zero, add_zero] at h3 h2
  rw [sum_interior, sum_interior] at h3
  simp only [hvol] at h1 h3
  refine ⟨?_, ?_, fun i hi => ?_⟩
  · rw [← h1]
    exact Finset.sum_congr rfl fun g hg => by rw [hW' g hg]
  · rw [← h3]
    exact Finset.sum_congr rfl fun g hg => by rw [hW' g hg]
  · have := h2 i ((hcl i).1 hi)
    rw [sum_interior, sum_interior] at this
    simp only [hvol] at this
    rw [← this]
    exact Finset.sum_congr rfl fun g hg => by rw [hW' g hg]

/-- C75, whole runs. Constant reconstruction, HLL or HLLC, Cartesian grid, no gravity, no pressure fix and no heating, each direction periodic or
with a reflexive wall at both ends, any order of the faces, any process grid. Let `κ` bound the ratio of the lengths of neighbouring cells
and let the Courant number be at most `1 / (2 d κ)`. From an initial state of positive density and pressure, every file has the total mass,
the total energy and, along the periodic directions, the total momentum of the initial state. -/
theorem C75_run_partial (hd : 0 < d) (hd3 : d ≤ 3) (hpos : ∀ a, 0 < nx a) (hng : 2 ≤ ng) (hp : ParamsOk p order) (hA : MachineOk nx ng Gr A)
    (hi : InitOf nx ng A S Fx U up) (clock : ℕ → Bool) (he : p.hydro.eos.Lawful) (hf : p.hydro.eos.Fast) (hpe : p.hydro.eos.Positive)
    (hb : ∀ a, (∀ f, p.hydro.bcs a f = .periodic) ∨ ∀ f, p.hydro.bcs a f = .reflexive) (hall : ∀ (a : Fin d) f, faceId a f ∈ order)
    (hlim : p.hydro.lim = .constant) (hsol : p.hydro.sol = .hll ∨ p.hydro.sol = .hllc)
    (hgeom : p.hydro.geom = .cartesian) (h0 : ∀ W C a, Gr W C a = 0) (hfix : p.fix = none) (hs : p.step ≠ .heatNickel) {κ : ℝ} (hκ : 0 ≤ κ)
    (hX : ClosedMesh d nx ng p.hydro.bcs X) (hX' : SmoothMesh d nx ng κ X) (hc0 : 0 ≤ p.loop.cfl) (hcfl : 2 * d * κ * p.loop.cfl ≤ 1)
    (ht : p.tIni ≤ p.loop.tEnd) (hS : ∀ g, inBox 0 nx g → 0 < (S g).rho ∧ 0 < (S g).P) (k : ℕ) :
    ∃ z, progRun p nx (nghostOf d ng) (borderOf A.dims) A clock (progFresh p nx (nghostOf d ng) (borderOf A.dims) A X U up) k = some z ∧
      ∀ f ∈ z.files,
        ∑ g ∈ domain nx, boxCellVol d ng X g * f.h.rho.at g = ∑ g ∈ domain nx, boxCellVol d ng X g * (S g).rho ∧
        ∑ g ∈ domain nx, boxCellVol d ng X g * f.h.E.at g = ∑ g ∈ domain nx, boxCellVol d ng X g *
          (p.hydro.eos.evolFromPres (S g).rho (S g).P + (S g).rho * (∑ i, (S g).u i ^ 2) / 2) ∧
        ∀ i, (∀ f, p.hydro.bcs i f = .periodic) → ∑ g ∈ domain nx, boxCellVol d ng X g * (f.h.rho.at g * (f.h.u i).at g) =
          ∑ g ∈ domain nx, boxCellVol d ng X g * ((S g).rho * (S g).u i) := by
  obtain ⟨z0, e0, f0⟩ := progFresh_follows (X := X) hd3 (fun a => (hpos a).le) hng hp hA hi
  obtain ⟨z, e, h⟩ := progRun_follows hd3 (fun a => (hpos a).le) hng hp hA clock e0 f0 k
  set G0 : Cell → Fields d n ℝ := fun g => consFields p.hydro.eos (S g) (Fx g) with hG0
  set W0 := bcGlob p.hydro.bcs nx (nghostOf d ng) order G0 with hW0
  have hsz : ∀ a : Fin d, ng ≤ nx (ax a) := fun a => by
    have h1 := hA.size (ax a) (by rw [ax_val hd3]; exact a.2) 0 le_rfl (hA.pos (ax a))
    have h2 := localStart_add_size_le (r := 0) (hpos (ax a)).le (hA.pos (ax a)) (hA.pos (ax a))
    have h3 := localStart_nonneg (r := 0) (hpos (ax a)).le (hA.pos (ax a)) le_rfl
    omega
  have hbi := fun (G : Cell → Fields d n ℝ) g (hg : g ∈ domain nx) =>
    bcGlob_interior (order := order) (ng := ng) p.hydro.bcs hd3 (by omega) hp.ids G (mem_domain.1 hg)
  have htt : ∀ W, (freshRun p.loop p.tIni W : RunState (Cell → Fields d n ℝ) ℝ).s.t = p.tIni := fun W => by unfold freshRun; split <;> rfl
  have hinit : ∀ C, (W0 C).cons.Adm p.hydro.eos := fun C => by
    refine bcGlob_forall (I := fun s => s.cons.Adm p.hydro.eos) hpos (fun s a h => Fields.flip_adm s a h) (fun g hg => ?_) C
    have e1 : toPrim p.hydro.eos (consFields p.hydro.eos (S g) (Fx g)).cons = S g := toPrim_toCons he (hS g hg).1
    refine ⟨(hS g hg).1, ?_⟩
    have := congrArg Prim.P e1
    rw [toPrim_eq] at this
    dsimp only at this
    rw [this]
    exact (hS g hg).2
  let I := fun (W : Cell → Fields d n ℝ) => (∀ C, (W C).cons.Adm p.hydro.eos) ∧ (∃ G, W = bcGlob p.hydro.bcs nx (nghostOf d ng) order G) ∧
    ∑ g ∈ domain nx, boxCellVol d ng X g * (W (g + nghostOf d ng)).rho = ∑ g ∈ domain nx, boxCellVol d ng X g * (G0 g).rho ∧
    ∑ g ∈ domain nx, boxCellVol d ng X g * (W (g + nghostOf d ng)).E = ∑ g ∈ domain nx, boxCellVol d ng X g * (G0 g).E ∧
    ∀ i, (∀ f, p.hydro.bcs i f = .periodic) → ∑ g ∈ domain nx, boxCellVol d ng X g * (W (g + nghostOf d ng)).rhou i =
      ∑ g ∈ domain nx, boxCellVol d ng X g * (G0 g).rhou i
  have hI0 : I W0 := ⟨hinit, ⟨G0, rfl⟩, Finset.sum_congr rfl fun g hg => by rw [hW0, hbi _ g hg], Finset.sum_congr rfl fun g hg => by rw [hW0, hbi _ g hg],
    fun i _ => Finset.sum_congr rfl fun g hg => by rw [hW0, hbi _ g hg]⟩
  have h1 := freshRun_invariant (q := p.loop) (t := p.tIni) (I := I) hI0
  have key := runN_invariant_dt (q := p.loop) (hy := globHydro p nx ng X Gr order) (clock := clock) (I := I) h1.1 h1.2 (by rw [htt]; exact ht)
    (fun W hW => mul_nonneg hc0 (glob_dt (Gr := Gr) (order := order) hd hd3 hpos hng he hgeom hκ hX' hc0 hcfl hW.1).1.le)
    (fun W t dt hW q1 q2 => by
      refine ⟨advance_adm hd hd3 hpos hng he hf hpe hlim hsol hgeom h0 hfix hs hκ hX' hc0 hcfl hW.1 t q1 q2, ⟨_, globHydro_advance W t dt⟩, ?_⟩
      obtain ⟨G, hG⟩ := hW.2.1
      obtain ⟨t1, t2, t3⟩ := closed_totals (Gr := Gr) hd3 hpos hng hsz hb hp.ids hall hX he hgeom hlim h0 hG hW.1 hfix hs t dt
      rw [globHydro_advance]
      refine ⟨Eq.trans ?_ (t1.trans hW.2.2.1), Eq.trans ?_ (t2.trans hW.2.2.2.1), fun i hi => Eq.trans ?_ ((t3 i hi).trans (hW.2.2.2.2 i hi))⟩ <;>
        exact Finset.sum_congr rfl fun g hg => by rw [hbi _ g hg]) k
  refine ⟨z, e, fun f hf' => ?_⟩
  obtain ⟨o, ho, hfo, -⟩ := forall₂_mem h.files hf'
  obtain ⟨a1, -, a2, a3, a4⟩ := key.2.2 o ho
  refine ⟨Eq.trans (Finset.sum_congr rfl fun g hg => ?_) a2, Eq.trans (Finset.sum_congr rfl fun g hg => ?_) (a3.trans (Finset.sum_congr rfl fun g _ => ?_)),
    fun i hi => Eq.trans (Finset.sum_congr rfl fun g hg => ?_) (a4 i hi)⟩
  · rw [FileOf.at hfo.rho (mem_domain.1 hg)]
  · rw [FileOf.at hfo.E (mem_domain.1 hg)]
  · have : ∀ i, (S g).u i * (S g).u i = (S g).u i ^ 2 := fun i => by ring
    simp only [hG0, consFields, toCons, Prim.ek, this]
    try ring
  · rw [FileOf.at hfo.rho (mem_domain.1 hg), FileOf.at (hfo.u i) (mem_domain.1 hg)]
    simp only [primGlob]
    rw [mul_div_cancel₀ _ (show (o.h (g + nghostOf d ng)).rho ≠ 0 from (a1 _).1.ne')]

/-- A 8 x 6 box on 2 x 3 ranks, periodic along the first direction, between walls along the second, perfect gas, Courant number 1/4. -/
example (p : ProgParams 2 1) (hb : p.hydro.bcs = ![![.periodic, .periodic], ![.reflexive, .reflexive]])
    (hpo : p.hydro.order = [some 2, some 0, some 3, some 1]) (hs : p.step = .off) (hf : p.fix = none) (ht : p.top = 10 ^ 308) {g : Gas} (hg : g.Physical)
    (he : p.hydro.eos = PerfectGas.toEoS g) (hge : p.hydro.geom = .cartesian) (hl : p.hydro.lim = .constant) (hsol : p.hydro.sol = .hllc)
    (hc : p.loop.cfl = 1 / 4) (h0 : p.tIni = 0) (h1 : p.loop.tEnd = 1)
    (S : Cell → Prim 2 ℝ) (hS : ∀ g, inBox 0 ![8, 6, 1] g → 0 < (S g).rho ∧ 0 < (S g).P) (Fx : Cell → Fin 1 → ℝ) (clock : ℕ → Bool) (k : ℕ) :
    ∃ (A : Machine 2 1) (IA : (Cell → View Cell (Fields 2 1 ℝ)) × (Cell → View Cell (VelPres 2 ℝ))) (z : ProgState 2 1), A.dims = ![2, 3, 1] ∧
      progRun p ![8, 6, 1] (nghostOf 2 2) (borderOf A.dims) A clock
        (progFresh p ![8, 6, 1] (nghostOf 2 2) (borderOf A.dims) A (fun _ i => (i : ℝ) / 10) IA.1 IA.2) k = some z ∧
      ∀ f ∈ z.files, ∑ g ∈ domain ![8, 6, 1], boxCellVol 2 2 (fun _ i => (i : ℝ) / 10) g * f.h.rho.at g =
        ∑ g ∈ domain ![8, 6, 1], boxCellVol 2 2 (fun _ i => (i : ℝ) / 10) g * (S g).rho := by
  have hpos : ∀ a, 0 < (![8, 6, 1] : Cell) a := by decide
  have hN : ∀ a, 0 ≤ (![8, 6, 1] : Cell) a := by decide
  have hp : ParamsOk p [2, 0, 3, 1] := ⟨by rw [hb]; decide, by decide, hpo, fun _ => one_pos, by rw [ht]; norm_num⟩
  have hA := mkMachine_ok (d := 2) (n := 1) hN (dims := ![2, 3, 1]) (by decide) 0 (by norm_num) (demo_size _ (.inl rfl))
  have hi := initArrays_ok (nx := ![8, 6, 1]) (ng := 2) (A := mkMachine 2 1 ![8, 6, 1] 2 hN ![2, 3, 1] (by decide) 0) S Fx
  have hX : SmoothMesh 2 ![8, 6, 1] 2 1 fun _ i => (i : ℝ) / 10 :=
    ⟨fun a i _ _ => by push_cast; linarith, fun a i j _ _ _ _ _ _ => by push_cast; linarith⟩
  have hX' : ClosedMesh 2 ![8, 6, 1] 2 p.hydro.bcs fun _ i => (i : ℝ) / 10 :=
    ⟨fun a i _ _ => by push_cast; linarith, fun a _ i _ _ => by push_cast; ring, fun a _ i _ _ => by constructor <;> (push_cast; ring)⟩
  obtain ⟨z, e, h⟩ := C75_run_partial (by norm_num) (by norm_num) hpos (by norm_num) hp hA hi clock (by rw [he]; exact PerfectGas.lawful hg)
    (by rw [he]; exact PerfectGas.fast hg) (by rw [he]; exact PerfectGas.positive hg) (by rw [hb]; decide) (by decide) hl (.inr hsol) hge (fun _ _ _ => rfl) hf
    (by rw [hs]; simp) (by norm_num : (0 : ℝ) ≤ 1) hX' hX (by rw [hc]; norm_num) (by rw [hc]; norm_num) (by rw [h0, h1]; norm_num) hS k
  exact ⟨_, _, z, rfl, e, fun f hf => (h f hf).1⟩

end Runs

end Heracles

import Verif.Lemmas.Positivity
import Verif.Props.MovingProgram

/-!
# Physical states stay physical

C74: with the constant reconstruction and HLL or HLLC, positive densities and internal energies stay positive. With the other
reconstructions they do not (`C74_predictor_violated`, `C74_second_order_violated`).

The full claim: for every reconstruction, every solver and every geometry, from an initial state of positive density and pressure and with
a Courant number at most `1 / (2 d)`, all later states have positive density, internal energy and pressure. It is false for the three
reconstructions with slopes and HLL. Not covered: the Splitting solver, spherical grids, gravity, the pressure fix and heating.
-/

namespace Heracles

variable {d n : ℕ}

section Step
variable {K : Type} [Field K] [LinearOrder K] [IsStrictOrderedRing K]

/-- An equation of state whose pressure is positive when density and internal energy are. -/
def EoS.Positive (eos : EoS K) : Prop := ∀ rho e, 0 < rho → 0 < e → 0 < eos.presFromEvol rho e

omit [LinearOrder K] [IsStrictOrderedRing K] in
theorem dsFun_nb (tr : Trig K) (x dx : Fin 3 → ℤ → K) (c : Cell) (a : Fin d) :
    dsFun tr .cartesian d x dx 0 (nb c (ax a) 1) (ax a) = dsFun tr .cartesian d x dx 0 c (ax a) := by
  have h : ∀ b : Fin 3, (if ax a = b then (1 : K) else dx b (nb c (ax a) 1 b)) = if ax a = b then 1 else dx b (c b) := fun b => by
    by_cases hb : ax a = b
    · rw [if_pos hb, if_pos hb]
    · rw [if_neg hb, if_neg hb, nb_ne _ (Ne.symm hb)]
  simp only [dsFun, h]

omit [LinearOrder K] [IsStrictOrderedRing K] in
theorem dsFun_div (tr : Trig K) (x dx : Fin 3 → ℤ → K) (c : Cell) (a : Fin d) (h : ∀ b, dx b (c b) ≠ 0) (dt : K) :
    dt / dvFun tr .cartesian d x dx 0 c * dsFun tr .cartesian d x dx 0 c (ax a) = dt / dx (ax a) (c (ax a)) := by
  have h0 := h 0
  have h1 := h 1
  have h2 := h 2
  generalize ax a = b
  simp only [dsFun, dvFun]
  fin_cases b <;> simp <;> field_simp

/-- C74, one step. Constant reconstruction, HLL or HLLC, Cartesian grid, no gravity, an equation of state whose signals are fast enough
(`EoS.Fast`; the perfect gas is). If in every cell read by the update density and pressure are positive, and no wave of a cell or of a
direct neighbour crosses more than `1 / (2 d)` of the cell, the step accesses no memory out of bounds and gives every interior cell a
positive density, a positive internal energy and, if the equation of state is `Positive`, a positive pressure. -/
theorem C74_step_partial {g : GridData K} {grav : GravField d K} {ext : Cell} {p : PGrid d K} {ng : ℤ} {sc : RecScheds d n} {l l' : List Cell}
    {sol : Solver} {eos : EoS K} {tr : Trig K} {dt : K} {U : Cell → Fields d n K} {up : Cell → VelPres d K}
    {upRec : Cell → Fin 2 → Fin d → VelPres d K} {rec : Cell → Fin 2 → Fin d → Fields d n K} {new : Cell → Fields d n K}
    (h : StepOk g grav ext p ng sc l l') (hG : GeoOf tr .cartesian ext p) (hd : 0 < d) (he : eos.Lawful) (hf : eos.Fast)
    (hs : sol = .hll ∨ sol = .hllc) (h0 : ∀ c a, p.grav c a = 0)
    (hdx : ∀ a i, 0 ≤ i → i < ext a → 0 < p.dx a i) (hdt : 0 ≤ dt)
    (hU : ∀ c, inExt ext c = true → 0 < (U c).rho ∧ 0 < (U c).cons.pressure eos)
    (hup : ∀ c, inExt ext c = true → (∀ i, (up c).u i = (U c).rhou i / (U c).rho) ∧ (up c).P = (U c).cons.pressure eos)
    (hcfl : ∀ c, layer d ext ng c → ∀ a : Fin d, ∀ t : ℤ, -1 ≤ t → t ≤ 1 →
      2 * d * dt * (|(up (nb c (ax a) t)).u a| + eos.sound (U (nb c (ax a) t)).rho (up (nb c (ax a) t)).P) ≤ p.dx (ax a) (c (ax a))) :
    ∃ out, hydroStep .constant sol eos tr .cartesian g grav dt sc l l' ⟨inExt ext, U⟩ ⟨inExt ext, up⟩ ⟨inExt ext, upRec⟩
        ⟨inExt ext, rec⟩ ⟨inExt ext, new⟩ = some ⟨inExt ext, out⟩ ∧
      ∀ c, layer d ext ng c → 0 < (out c).rho ∧ 0 < (out c).E - (∑ i, (out c).rhou i ^ 2) / (2 * (out c).rho) ∧
        (eos.Positive → 0 < (out c).cons.pressure eos) := by
  refine ⟨_, h.step .constant sol eos tr .cartesian dt U up upRec rec new, fun c hc => ?_⟩
  have hng := h.ghosts
  have hin1 : ∀ (a : Fin d) (t : ℤ), -1 ≤ t → t ≤ 1 → layer d ext (ng - 1) (nb c (ax a) t) := fun a t h1 h2 => layer_nb h.dim hc a h1 h2
  have hin : ∀ (a : Fin d) (t : ℤ), -1 ≤ t → t ≤ 1 → inExt ext (nb c (ax a) t) = true := fun a t h1 h2 =>
    layer_inExt (hin1 a t h1 h2) (by omega)
  have hcin := layer_inExt hc (by omega)
  have hcb := inExt_iff.1 hcin
  have hvel : ∀ c, inExt ext c = true → ∀ i, (U c).cons.vel i = (up c).u i := fun c hc i => ((hup c hc).1 i).symm
  have hcs : ∀ c, inExt ext c = true → (U c).cons.cs eos = eos.sound (U c).rho (up c).P := fun c hc => by rw [(hup c hc).2]; rfl
  have key := stepVal_phys he hf hs tr p (dt := dt) (U := U) (up := up) (c := c) hd (fun a t h1 h2 => hU _ (hin a t h1 h2))
    (fun a t h1 h2 => by
      have := hup _ (hin a t h1 h2)
      rw [toPrim_eq]
      refine VelPres.ext (funext fun i => this.1 i) this.2)
    (fun a t _ _ b => h0 _ b)
    (fun a t h1 h2 b => by
      rw [hG.ds _ (layer_inExt (layer_nb h.dim (hin1 a t h1 h2) b (by norm_num) (by norm_num)) (by omega)), hG.ds _ (hin a t h1 h2),
        dsFun_nb])
    (l := fun a => dt / p.dx (ax a) (c (ax a)))
    (fun a => by
      rw [hG.ds _ hcin, hG.dv _ hcin]
      exact dsFun_div tr p.x p.dx c a (fun b => (hdx b _ (hcb b).1 (hcb b).2).ne') dt)
    (fun a => div_nonneg hdt (hdx _ _ (hcb _).1 (hcb _).2).le)
    (fun a t h1 h2 => by
      have hp := hdx (ax a) _ (hcb _).1 (hcb _).2
      have := hcfl c hc a t h1 h2
      rw [hvel _ (hin a t h1 h2), hcs _ (hin a t h1 h2)]
      rw [← mul_div_assoc, div_mul_eq_mul_div, div_le_one hp]
      exact this)
  rw [if_pos hc]
  exact ⟨key.1, key.2, fun hpos => hpos _ _ key.1 key.2⟩

end Step

/-! ### Whole runs -/

section Runs

/-- An invariant of the advance over the time steps that the loop takes, from a start before the end time. -/
theorem runN_invariant_dt {H : Type} {q : LoopParams ℝ} {hy : Hydro H ℝ} {clock : ℕ → Bool} {I : H → Prop} {r : RunState H ℝ} (h0 : I r.s.h)
    (hout : ∀ o ∈ r.outs, I o.h) (ht : r.s.t ≤ q.tEnd) (hst : ∀ W, I W → 0 ≤ q.cfl * hy.timeStep W)
    (hadv : ∀ W t dt, I W → 0 ≤ dt → dt ≤ q.cfl * hy.timeStep W → I (hy.advance W t dt)) (k : ℕ) :
    I (runN q hy clock r k).s.h ∧ (runN q hy clock r k).s.t ≤ q.tEnd ∧ ∀ o ∈ (runN q hy clock r k).outs, I o.h := by
  induction k with
  | zero => exact ⟨h0, ht, hout⟩
  | succ k ih =>
    rw [runN]
    generalize runN q hy clock r k = u at ih
    obtain ⟨i1, i2, i3⟩ := ih
    have hdt : ∀ D, decideStep q (hy.timeStep u.s.h) (clock k) u.s = .ok D → 0 ≤ D.dt ∧ D.dt ≤ q.cfl * hy.timeStep u.s.h ∧ u.s.t + D.dt ≤ q.tEnd := by
      intro D e
      have hb := hst _ i1
      unfold decideStep at e
      by_cases htt : timeTrigger q u.s (q.cfl * hy.timeStep u.s.h) = true
      · have h1 : nextTimed q u.s ≤ u.s.t + q.cfl * hy.timeStep u.s.h := by
          unfold timeTrigger at htt
          simpa using (Bool.and_eq_true_iff.1 htt).2
        simp only [htt, if_true, true_and] at e
        by_cases h2 : nextTimed q u.s - u.s.t ≤ 0
        · rw [if_pos h2] at e
          cases e
        · rw [if_neg h2] at e
          simp only [bind, Except.bind, pure, Except.pure, Except.ok.injEq] at e
          subst e
          simp only [decide_eq_true_eq]
          split <;> refine ⟨?_, ?_, ?_⟩ <;> linarith
      · simp only [Bool.not_eq_true] at htt
        simp only [htt, Bool.false_eq_true, if_false, false_and, bind, Except.bind, pure, Except.pure, Except.ok.injEq] at e
        subst e
        simp only [decide_eq_true_eq]
        split <;> refine ⟨?_, ?_, ?_⟩ <;> linarith
    unfold runStep
    split
    · unfold iteration
      split
      · rename_i s out exit e
        split at e
        · cases e
        · rename_i D hD
          obtain ⟨q1, q2, q3⟩ := hdt D hD
          split at e
          · cases e
          · cases e
            have hI := hadv _ u.s.t D.dt i1 q1 q2
            refine ⟨hI, q3, fun o ho => ?_⟩
            dsimp only at ho
            split at ho
            · rcases List.mem_append.1 ho with ho | ho
              · exact i3 o ho
              · rw [List.mem_singleton.1 ho]
                exact hI
            · exact i3 o ho
      · rename_i f e
        split at e
        · cases e
        · split at e
          · cases e
            refine ⟨i1, i2, fun o ho => ?_⟩
            rcases List.mem_append.1 ho with ho | ho
            · exact i3 o ho
            · rw [List.mem_singleton.1 ho]
              exact i1
          · cases e
      · exact ⟨i1, i2, i3⟩
    · exact ⟨i1, i2, i3⟩

/-- Boundary conditions keep every property of the cells that does not see the sign of a momentum component. -/
theorem bcGlob_forall {bcs : Fin d → Fin 2 → BcKind} {nx nghost : Cell} {order : List ℕ} (hpos : ∀ a, 0 < nx a) {I : Fields d n ℝ → Prop}
    (hflip : ∀ s a, I s → I (s.flip a)) {G : Cell → Fields d n ℝ} (h : ∀ g, inBox 0 nx g → I (G g)) (C : Cell) :
    I (bcGlob bcs nx nghost order G C) := by
  have key : ∀ V : Cell → Fields d n ℝ, (∀ C, I (V C)) → ∀ C, I (order.foldl (bcPure bcs (fun _ _ => true) (globExt nx nghost) nghost) V C) := by
    induction order with
    | nil => intro V h C; exact h C
    | cons id l ih =>
      intro V hV
      rw [List.foldl_cons]
      refine ih _ fun C => ?_
      unfold bcPure
      split
      · simp only [if_true]
        unfold condPure
        split
        · split
          · exact hV _
          · exact hflip _ _ (hV _)
          · exact hV _
        · exact hV _
      · exact hV _
  exact key _ (fun C => h _ fun a => ⟨Int.emod_nonneg _ (hpos a).ne', Int.emod_lt_of_pos _ (hpos a)⟩) C

/-- A run whose states always pass the energy test does not fail, without outputs at given times. -/
theorem runN_never_fails {H : Type} {q : LoopParams ℝ} {hy : Hydro H ℝ} {clock : ℕ → Bool} {r : RunState H ℝ} (hst : r.status ≠ .failed)
    (hbad : ∀ k, hy.bad (runN q hy clock r k).s.h = false) (hq : q.timeFreq ≤ 0) (k : ℕ) : (runN q hy clock r k).status ≠ .failed := by
  induction k with
  | zero => exact hst
  | succ k ih =>
    rw [runN]
    unfold runStep
    split
    · have htt : ∀ dt, timeTrigger q (runN q hy clock r k).s dt = false := fun dt => by simp [timeTrigger, not_lt.2 hq]
      unfold iteration decideStep
      simp only [htt, hbad k, Bool.false_eq_true, false_and, if_false, bind, Except.bind, pure, Except.pure]
      split <;> simp
    · exact ih

variable {p : ProgParams d n} {nx : Cell} {ng : ℤ} {X : Fin 3 → ℤ → ℝ} {Gr : (Cell → Fields d n ℝ) → Cell → Fin d → ℝ} {A : Machine d n}
  {order : List ℕ} {S : Cell → Prim d ℝ} {Fx : Cell → Fin n → ℝ} {U : Cell → View Cell (Fields d n ℝ)} {up : Cell → View Cell (VelPres d ℝ)}

/-- The mesh of a run: increasing nodes, and no cell more than `κ` times as long as its neighbour. -/
structure SmoothMesh (d : ℕ) (nx : Cell) (ng : ℤ) (κ : ℝ) (X : Fin 3 → ℤ → ℝ) : Prop where
  incr : ∀ a i, 0 ≤ i → i < nx a + 2 * nghostOf d ng a → X a i < X a (i + 1)
  ratio : ∀ a i j, 0 ≤ i → i < nx a + 2 * nghostOf d ng a → 0 ≤ j → j < nx a + 2 * nghostOf d ng a → i - 1 ≤ j → j ≤ i + 1 →
    X a (j + 1) - X a j ≤ κ * (X a (i + 1) - X a i)

theorem Fields.flip_adm {eos : EoS ℝ} (s : Fields d n ℝ) (a : Fin d) (h : s.cons.Adm eos) : (s.flip a).cons.Adm eos := by
  have : (s.flip a).cons = s.cons.mirror a := by
    apply Cons.ext
    · rfl
    · funext i
      show Function.update s.rhou a (-(s.rhou a)) i = if i = a then -s.rhou i else s.rhou i
      by_cases hi : i = a
      · subst hi; simp
      · simp [hi]
    · rfl
  rw [this]
  exact h.mirror a

/-- The time step of the loop is positive and small enough for `C74_step_partial`. -/
theorem glob_dt (hd : 0 < d) (hd3 : d ≤ 3) (hpos : ∀ a, 0 < nx a) (hng : 2 ≤ ng) (he : p.hydro.eos.Lawful) (hgeom : p.hydro.geom = .cartesian) {κ : ℝ} (hκ : 0 ≤ κ)
    (hX : SmoothMesh d nx ng κ X) (hc0 : 0 ≤ p.loop.cfl) (hcfl : 2 * d * κ * p.loop.cfl ≤ 1) {W : Cell → Fields d n ℝ} (hW : ∀ C, (W C).cons.Adm p.hydro.eos) :
    0 < (globHydro p nx ng X Gr order).timeStep W ∧
    ∀ dt, 0 ≤ dt → dt ≤ p.loop.cfl * (globHydro p nx ng X Gr order).timeStep W → ∀ C, inExt (globExt nx (nghostOf d ng)) C = true → ∀ C' (a : Fin d),
      inExt (globExt nx (nghostOf d ng)) C' = true → C (ax a) - 1 ≤ C' (ax a) → C' (ax a) ≤ C (ax a) + 1 →
      2 * d * dt * (|(primGlob p.hydro.eos W C').u a| + p.hydro.eos.sound (W C').rho (primGlob p.hydro.eos W C').P) ≤ X (ax a) (C (ax a) + 1) - X (ax a) (C (ax a)) := by
  obtain ⟨m, hm⟩ := isRate_exists p.hydro.lo p.hydro.eos p.hydro.tr p.hydro.geom nx (nghostOf d ng) X W
  have hexp : ∀ (C : Cell), inExt (globExt nx (nghostOf d ng)) C = true → ∀ a : Fin 3, 0 ≤ C a ∧ C a < nx a + 2 * nghostOf d ng a := fun C hC a => by
    have := inExt_iff.1 hC a
    simpa [globExt] using this
  have hpr : ∀ C, primGlob p.hydro.eos W C = ⟨(W C).cons.vel, (W C).cons.pressure p.hydro.eos⟩ := fun C => by rw [primGlob_toPrim, toPrim_eq]
  have hsp : ∀ C, 0 < p.hydro.eos.sound (W C).rho (primGlob p.hydro.eos W C).P := fun C => by
    rw [hpr]
    exact ((hW C).sound he).1
  have hterm : ∀ C, inExt (globExt nx (nghostOf d ng)) C = true → ∀ a : Fin d,
      (|(primGlob p.hydro.eos W C).u a| + p.hydro.eos.sound (W C).rho (primGlob p.hydro.eos W C).P) / (X (ax a) (C (ax a) + 1) - X (ax a) (C (ax a))) ≤ m := by
    intro C hC a
    refine le_trans ?_ (hm.le C hC)
    unfold RankData.rate globRank
    simp only [hgeom, cellLength]
    have hnn : ∀ b ∈ (Finset.univ : Finset (Fin d)), 0 ≤ (|(primGlob p.hydro.eos W C).u b| + p.hydro.eos.sound (W C).rho (primGlob p.hydro.eos W C).P) /
        (X (ax b) (C (ax b) + 1) - X (ax b) (C (ax b))) := fun b _ =>
      div_nonneg (add_nonneg (abs_nonneg _) (hsp C).le) (sub_nonneg.2 (hX.incr _ _ (hexp C hC _).1 (hexp C hC _).2).le)
    exact Finset.single_le_sum hnn (Finset.mem_univ a)
  have h0in : inExt (globExt nx (nghostOf d ng)) 0 = true := inExt_iff.2 fun a => by
    have := hpos a
    have h3 : 0 ≤ nghostOf d ng a := by unfold nghostOf; split <;> omega
    simp only [globExt, Pi.zero_apply]
    omega
  have hm0 : 0 < m := by
    have a0 : Fin d := ⟨0, hd⟩
    refine lt_of_lt_of_le (div_pos ?_ ?_) (hterm 0 h0in a0)
    · exact add_pos_of_nonneg_of_pos (abs_nonneg _) (hsp 0)
    · exact sub_pos.2 (hX.incr _ _ (hexp 0 h0in _).1 (hexp 0 h0in _).2)
  have hts := globHydro_timeStep (Gr := Gr) (order := order) hm
  rw [hts]
  refine ⟨by positivity, fun dt h1 h2 C hC C' a hC' h3 h4 => ?_⟩
  have hl := sub_pos.2 (hX.incr _ _ (hexp C hC (ax a)).1 (hexp C hC (ax a)).2)
  have hl' := sub_pos.2 (hX.incr _ _ (hexp C' hC' (ax a)).1 (hexp C' hC' (ax a)).2)
  have hr := hX.ratio (ax a) (C (ax a)) (C' (ax a)) (hexp C hC _).1 (hexp C hC _).2 (hexp C' hC' _).1 (hexp C' hC' _).2 h3 h4
  have ht := (div_le_iff₀ hl').1 (hterm C' hC' a)
  have hdm : dt * m ≤ p.loop.cfl := by
    rw [mul_one_div, le_div_iff₀ hm0] at h2
    exact h2
  generalize |(primGlob p.hydro.eos W C').u a| + p.hydro.eos.sound (W C').rho (primGlob p.hydro.eos W C').P = s at ht
  generalize X (ax a) (C (ax a) + 1) - X (ax a) (C (ax a)) = L at hl hr ⊢
  generalize X (ax a) (C' (ax a) + 1) - X (ax a) (C' (ax a)) = L' at hl' hr ht
  have hdK : (0 : ℝ) < d := by exact_mod_cast hd
  calc 2 * d * dt * s ≤ 2 * d * dt * (m * L') := mul_le_mul_of_nonneg_left ht (by positivity)
    _ = 2 * d * (dt * m) * L' := by ring
    _ ≤ 2 * d * p.loop.cfl * L' := by
        apply mul_le_mul_of_nonneg_right _ hl'.le
        exact mul_le_mul_of_nonneg_left hdm (by positivity)
    _ ≤ 2 * d * p.loop.cfl * (κ * L) := mul_le_mul_of_nonneg_left hr (by positivity)
    _ = (2 * d * κ * p.loop.cfl) * L := by ring
    _ ≤ 1 * L := mul_le_mul_of_nonneg_right hcfl hl.le
    _ = L := one_mul L

/-- One iteration of the global array keeps densities and pressures positive. -/
theorem advance_adm (hd : 0 < d) (hd3 : d ≤ 3) (hpos : ∀ a, 0 < nx a) (hng : 2 ≤ ng) (he : p.hydro.eos.Lawful) (hf : p.hydro.eos.Fast)
    (hpe : p.hydro.eos.Positive) (hlim : p.hydro.lim = .constant) (hsol : p.hydro.sol = .hll ∨ p.hydro.sol = .hllc)
    (hgeom : p.hydro.geom = .cartesian) (h0 : ∀ W C a, Gr W C a = 0) (hfix : p.fix = none) (hs : p.step ≠ .heatNickel) {κ : ℝ} (hκ : 0 ≤ κ)
    (hX : SmoothMesh d nx ng κ X) (hc0 : 0 ≤ p.loop.cfl) (hcfl : 2 * d * κ * p.loop.cfl ≤ 1) {W : Cell → Fields d n ℝ} (hW : ∀ C, (W C).cons.Adm p.hydro.eos)
    (t : ℝ) {dt : ℝ} (hdt0 : 0 ≤ dt) (hdt : dt ≤ p.loop.cfl * (globHydro p nx ng X Gr order).timeStep W) (C : Cell) :
    ((globHydro p nx ng X Gr order).advance W t dt C).cons.Adm p.hydro.eos := by
  rw [globHydro_advance]
  refine bcGlob_forall (I := fun s => s.cons.Adm p.hydro.eos) hpos (fun s a h => Fields.flip_adm s a h) (fun g hg => ?_) C
  rw [progVal_plain hfix hs, hlim, hgeom]
  have hl : layer d (globExt nx (nghostOf d ng)) ng (g + nghostOf d ng) := layer_glob.2 (by rw [add_sub_cancel_right]; exact hg)
  have hexp : ∀ (C : Cell), inExt (globExt nx (nghostOf d ng)) C = true → ∀ a : Fin 3, 0 ≤ C a ∧ C a < nx a + 2 * nghostOf d ng a := fun C hC a => by
    have := inExt_iff.1 hC a
    simpa [globExt] using this
  have hpr : ∀ C, primGlob p.hydro.eos W C = ⟨(W C).cons.vel, (W C).cons.pressure p.hydro.eos⟩ := fun C => by rw [primGlob_toPrim, toPrim_eq]
  obtain ⟨out, e, h⟩ := C74_step_partial (sol := p.hydro.sol) (eos := p.hydro.eos) (tr := p.hydro.tr) (dt := dt) (U := W) (up := primGlob p.hydro.eos W)
    (upRec := fun _ _ _ => ⟨fun _ => 0, 0⟩) (rec := fun _ _ _ => ⟨0, 0, 0, 0⟩) (new := W)
    (globStepOk hd3 hng (globGrid p.hydro.tr .cartesian X (Gr W)) (globExt nx (nghostOf d ng)))
    (globGeoOf _ _ _ _ _) hd he hf hsol (fun c a => h0 _ c a)
    (fun a i h1 h2 => sub_pos.2 (hX.incr a i h1 (by simpa [globExt] using h2))) hdt0 (fun c _ => hW c)
    (fun c _ => ⟨fun i => by rw [hpr]; rfl, by rw [hpr]⟩)
    (fun c hc a t h1 h2 => by
      have hcin := layer_inExt hc (by omega)
      have hnin := layer_inExt (layer_nb hd3 hc a h1 h2) (by omega)
      have hca : nb c (ax a) t (ax a) = c (ax a) + t := nb_self _ _ _
      exact (glob_dt (Gr := Gr) (order := order) hd hd3 hpos hng he hgeom hκ hX hc0 hcfl hW).2 dt hdt0 hdt c hcin _ a hnin (by omega) (by omega))
  have := h _ hl
  rw [glob_out hd3 hng _ _ e hl] at this
  exact ⟨this.1, this.2.2 hpe⟩

/-- C74, whole runs. Constant reconstruction, HLL or HLLC, Cartesian grid, no gravity, no pressure fix and no heating, any boundary
conditions other than user ones, any process grid. Let `κ` bound the ratio of the lengths of neighbouring cells (1 on a regular grid) and
let the Courant number be at most `1 / (2 d κ)`. From an initial state of positive density and pressure, at every turn every cell of the
arrays, ghosts included, and of every file has a positive density, pressure and internal energy. Without outputs at given times no turn
fails (in particular the test of the internal energy never stops the run), and the run ends. -/
theorem C74_run_partial (hd : 0 < d) (hd3 : d ≤ 3) (hpos : ∀ a, 0 < nx a) (hng : 2 ≤ ng) (hp : ParamsOk p order) (hA : MachineOk nx ng Gr A)
    (hi : InitOf nx ng A S Fx U up) (clock : ℕ → Bool) (he : p.hydro.eos.Lawful) (hf : p.hydro.eos.Fast) (hpe : p.hydro.eos.Positive)
    (hlim : p.hydro.lim = .constant) (hsol : p.hydro.sol = .hll ∨ p.hydro.sol = .hllc)
    (hgeom : p.hydro.geom = .cartesian) (h0 : ∀ W C a, Gr W C a = 0) (hfix : p.fix = none) (hs : p.step ≠ .heatNickel) {κ : ℝ} (hκ : 0 ≤ κ)
    (hX : SmoothMesh d nx ng κ X) (hc0 : 0 ≤ p.loop.cfl) (hcfl : 2 * d * κ * p.loop.cfl ≤ 1) (ht : p.tIni ≤ p.loop.tEnd)
    (hS : ∀ g, inBox 0 nx g → 0 < (S g).rho ∧ 0 < (S g).P) (k : ℕ) :
    ∃ z, progRun p nx (nghostOf d ng) (borderOf A.dims) A clock (progFresh p nx (nghostOf d ng) (borderOf A.dims) A X U up) k = some z ∧
      (∀ r, inBox 0 A.dims r → ∀ c, inExt (localExt nx A.dims (nghostOf d ng) r) c = true →
        0 < (z.s.h.val r c).rho ∧ 0 < (z.s.h.val r c).E - (∑ i, (z.s.h.val r c).rhou i ^ 2) / (2 * (z.s.h.val r c).rho)) ∧
      (∀ f ∈ z.files, ∀ g, inBox 0 nx g → 0 < f.h.rho.at g ∧ 0 < f.h.P.at g ∧ f.h.rho.at g * (∑ i, (f.h.u i).at g ^ 2) / 2 < f.h.E.at g) ∧
      (p.loop.timeFreq ≤ 0 → z.status ≠ .failed ∧ (0 < k → p.loop.maxIter ≤ k → z.status = .finished)) := by
  obtain ⟨z0, e0, f0⟩ := progFresh_follows (X := X) hd3 (fun a => (hpos a).le) hng hp hA hi
  obtain ⟨z, e, h⟩ := progRun_follows hd3 (fun a => (hpos a).le) hng hp hA clock e0 f0 k
  set W0 := bcGlob p.hydro.bcs nx (nghostOf d ng) order fun g => consFields p.hydro.eos (S g) (Fx g) with hW0
  have hst : ∀ W, (freshRun p.loop p.tIni W : RunState (Cell → Fields d n ℝ) ℝ).status = .running := fun W => by unfold freshRun; split <;> rfl
  have hit : ∀ W, (freshRun p.loop p.tIni W : RunState (Cell → Fields d n ℝ) ℝ).s.iter = 0 := fun W => by unfold freshRun; split <;> rfl
  have htt : ∀ W, (freshRun p.loop p.tIni W : RunState (Cell → Fields d n ℝ) ℝ).s.t = p.tIni := fun W => by unfold freshRun; split <;> rfl
  have hinit : ∀ C, (W0 C).cons.Adm p.hydro.eos := fun C => by
    refine bcGlob_forall (I := fun s => s.cons.Adm p.hydro.eos) hpos (fun s a h => Fields.flip_adm s a h) (fun g hg => ?_) C
    have e1 : toPrim p.hydro.eos (consFields p.hydro.eos (S g) (Fx g)).cons = S g := toPrim_toCons he (hS g hg).1
    refine ⟨(hS g hg).1, ?_⟩
    have := congrArg Prim.P e1
    rw [toPrim_eq] at this
    dsimp only at this
    rw [this]
    exact (hS g hg).2
  have h1 := freshRun_invariant (q := p.loop) (t := p.tIni) (I := fun (W : Cell → Fields d n ℝ) => ∀ C, (W C).cons.Adm p.hydro.eos) hinit
  have key := fun j => runN_invariant_dt (q := p.loop) (hy := globHydro p nx ng X Gr order) (clock := clock)
    (I := fun (W : Cell → Fields d n ℝ) => ∀ C, (W C).cons.Adm p.hydro.eos) h1.1 h1.2 (by rw [htt]; exact ht)
    (fun W hW => mul_nonneg hc0 (glob_dt (Gr := Gr) (order := order) hd hd3 hpos hng he hgeom hκ hX hc0 hcfl hW).1.le)
    (fun W t dt hW q1 q2 => advance_adm hd hd3 hpos hng he hf hpe hlim hsol hgeom h0 hfix hs hκ hX hc0 hcfl hW t q1 q2) j
  have hbad : ∀ j, (globHydro p nx ng X Gr order).bad (runN p.loop (globHydro p nx ng X Gr order) clock (freshRun p.loop p.tIni W0) j).s.h = false := fun j => by
    rw [Bool.eq_false_iff, Ne, globHydro_bad]
    rintro ⟨g, -, hg⟩
    exact absurd (eint_pos he hf ((key j).1 (g + nghostOf d ng))) (not_lt.2 hg.le)
  refine ⟨z, e, fun r hr c hc => ?_, fun f hf' g hg => ?_, fun hq => ?_⟩
  · have hadm := (key k).1 (c + startCell nx A.dims r)
    rw [h.h.val r hr c hc]
    exact ⟨hadm.1, eint_pos he hf hadm⟩
  · obtain ⟨o, ho, hfo, -⟩ := forall₂_mem h.files hf'
    have hadm := (key k).2.2 o ho (g + nghostOf d ng)
    rw [FileOf.at hfo.rho hg, FileOf.at hfo.P hg, FileOf.at hfo.E hg]
    simp only [FileOf.at (hfo.u _) hg]
    rw [primGlob_toPrim, toPrim_eq]
    refine ⟨hadm.1, hadm.2, ?_⟩
    have hei := eint_pos he hf hadm
    have hr : (o.h (g + nghostOf d ng)).rho ≠ 0 := hadm.1.ne'
    have hsum : (o.h (g + nghostOf d ng)).rho * (∑ i, (o.h (g + nghostOf d ng)).cons.vel i ^ 2) / 2 =
        (∑ i, (o.h (g + nghostOf d ng)).rhou i ^ 2) / (2 * (o.h (g + nghostOf d ng)).rho) := by
      have : ∀ i, (o.h (g + nghostOf d ng)).cons.vel i ^ 2 = (o.h (g + nghostOf d ng)).rhou i ^ 2 / (o.h (g + nghostOf d ng)).rho ^ 2 := fun i => by
        simp only [Cons.vel, Fields.cons, div_pow]
      simp only [this, ← Finset.sum_div]
      field_simp
    rw [hsum]
    simpa [Cons.eint, Fields.cons] using hei
  · have hnf := fun j => runN_never_fails (q := p.loop) (hy := globHydro p nx ng X Gr order) (clock := clock) (r := freshRun p.loop p.tIni W0)
      (by rw [hst]; simp) hbad hq j
    refine ⟨by rw [h.status]; exact hnf k, fun hk hm => ?_⟩
    rw [h.status]
    rcases runN_count (q := p.loop) (hy := globHydro p nx ng X Gr order) (clock := clock) (hst _) (hit _) hq hnf k with c | ⟨-, -, c⟩
    · exact c
    · exact absurd (c hk) (by omega)

theorem PerfectGas.positive {g : Gas} (hg : g.Physical) : (PerfectGas.toEoS g).Positive := by
  intro rho e hr he
  show 0 < PerfectGas.presFromEvol g rho e
  have h1 := kB_pos
  have h2 := mP_pos
  have h3 := hg.mmw
  have h4 := hg.gammaM1_pos
  simp only [PerfectGas.presFromEvol, PerfectGas.presFromTemp, PerfectGas.tempFromEvol]
  positivity

/-- A 8 x 6 box with reflexive and free boundaries on 2 x 3 ranks, perfect gas, Courant number 1/4, any initial state of positive density and
pressure: the run is not stopped and its files are physical. -/
example (p : ProgParams 2 1) (hb : p.hydro.bcs = ![![.nullGradient, .nullGradient], ![.reflexive, .reflexive]])
    (hpo : p.hydro.order = [some 2, some 0, some 3, some 1]) (hs : p.step = .off) (hf : p.fix = none) (ht : p.top = 10 ^ 308) {g : Gas} (hg : g.Physical)
    (he : p.hydro.eos = PerfectGas.toEoS g) (hge : p.hydro.geom = .cartesian) (hl : p.hydro.lim = .constant) (hsol : p.hydro.sol = .hllc)
    (hq : p.loop.timeFreq = 0) (hm : p.loop.maxIter = 100) (hc : p.loop.cfl = 1 / 4) (h0 : p.tIni = 0) (h1 : p.loop.tEnd = 1)
    (S : Cell → Prim 2 ℝ) (hS : ∀ g, inBox 0 ![8, 6, 1] g → 0 < (S g).rho ∧ 0 < (S g).P) (Fx : Cell → Fin 1 → ℝ) (clock : ℕ → Bool) :
    ∃ (A : Machine 2 1) (IA : (Cell → View Cell (Fields 2 1 ℝ)) × (Cell → View Cell (VelPres 2 ℝ))) (z : ProgState 2 1), A.dims = ![2, 3, 1] ∧
      progRun p ![8, 6, 1] (nghostOf 2 2) (borderOf A.dims) A clock
        (progFresh p ![8, 6, 1] (nghostOf 2 2) (borderOf A.dims) A (fun _ i => (i : ℝ) / 10) IA.1 IA.2) 100 = some z ∧
      z.status = .finished ∧ ∀ f ∈ z.files, ∀ g, inBox 0 ![8, 6, 1] g → 0 < f.h.rho.at g ∧ 0 < f.h.P.at g := by
  have hpos : ∀ a, 0 < (![8, 6, 1] : Cell) a := by decide
  have hN : ∀ a, 0 ≤ (![8, 6, 1] : Cell) a := by decide
  have hp : ParamsOk p [2, 0, 3, 1] := ⟨by rw [hb]; decide, by decide, hpo, fun _ => one_pos, by rw [ht]; norm_num⟩
  have hA := mkMachine_ok (d := 2) (n := 1) hN (dims := ![2, 3, 1]) (by decide) 0 (by norm_num) (demo_size _ (.inl rfl))
  have hi := initArrays_ok (nx := ![8, 6, 1]) (ng := 2) (A := mkMachine 2 1 ![8, 6, 1] 2 hN ![2, 3, 1] (by decide) 0) S Fx
  have hX : SmoothMesh 2 ![8, 6, 1] 2 1 fun _ i => (i : ℝ) / 10 :=
    ⟨fun a i _ _ => by push_cast; linarith, fun a i j _ _ _ _ _ _ => by push_cast; linarith⟩
  obtain ⟨z, e, -, h2, h3⟩ := C74_run_partial (by norm_num) (by norm_num) hpos (by norm_num) hp hA hi clock (by rw [he]; exact PerfectGas.lawful hg)
    (by rw [he]; exact PerfectGas.fast hg) (by rw [he]; exact PerfectGas.positive hg) hl (.inr hsol) hge (fun _ _ _ => rfl) hf (by rw [hs]; simp)
    (by norm_num : (0 : ℝ) ≤ 1) hX (by rw [hc]; norm_num) (by rw [hc]; norm_num) (by rw [h0, h1]; norm_num) hS 100
  exact ⟨_, _, z, rfl, e, (h3 hq.le).2 (by norm_num) (by rw [hm]; norm_num), fun f hf g hg => ⟨(h2 f hf g hg).1, (h2 f hf g hg).2.1⟩⟩

end Runs

end Heracles

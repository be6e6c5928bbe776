import Verif.Props.Positivity

/-!
# Where physical states do not stay physical

C74 fails for the three reconstructions with slopes: the predictor can make the pressure of a face negative, and the step can make the
internal energy of a cell negative.
-/

namespace Heracles

section Slopes
variable {K : Type} [Field K] [LinearOrder K] [IsStrictOrderedRing K]

/-- Equal differences on both sides are the slope of every limiter other than `Constant`. -/
theorem slope_same {lim : Limiter} (h : lim ≠ .constant) {s : K} (hs : s ≠ 0) : lim.slope s s = s := by
  have h0 : s * s > 0 := mul_self_pos.2 hs
  have h1 : s / s = 1 := div_self hs
  cases lim
  · exact absurd rfl h
  all_goals
    simp only [Limiter.slope, if_pos h0, h1, min_self]
    ring

/-- At an extremum, and next to a flat part, every slope vanishes. -/
theorem slope_flat (lim : Limiter) {r l : K} (h : l * r ≤ 0) : lim.slope r l = 0 := by
  cases lim <;> simp [Limiter.slope, not_lt.2 h]

theorem reconFace_flat (lim : Limiter) {vm v vp : K} (h : (v - vm) * (vp - v) ≤ 0) (side : Fin 2) : reconFace lim 1 1 1 vm v vp side = v := by
  unfold reconFace
  have : lim.slope ((vp - v) / ((1 + 1) / 2)) ((v - vm) / ((1 + 1) / 2)) = 0 := slope_flat lim (by norm_num; exact h)
  simp only [this]
  split <;> ring

theorem reconFace_same {lim : Limiter} (h : lim ≠ .constant) {vm v vp s : K} (hs : s ≠ 0) (h1 : vp - v = s) (h2 : v - vm = s) (side : Fin 2) :
    reconFace lim 1 1 1 vm v vp side = if side = 0 then v - s / 2 else v + s / 2 := by
  unfold reconFace
  have : lim.slope ((vp - v) / ((1 + 1) / 2)) ((v - vm) / ((1 + 1) / 2)) = s := by
    rw [h1, h2]; norm_num; exact slope_same h hs
  simp only [this]
  split <;> ring

/-- The unit grid in one dimension. -/
def unitGrid (tr : Trig K) : PGrid 1 K := globGrid tr .cartesian (fun _ i => (i : K)) fun _ _ => 0

theorem unitGrid_recon (tr : Trig K) (lim : Limiter) (f : ℤ → K) (c : Cell) (side : Fin 2) (a : Fin 1) :
    reconVal lim (unitGrid tr).dx (fun c => f (c 0)) c side a = reconFace lim 1 1 1 (f (c 0 - 1)) (f (c 0)) (f (c 0 + 1)) side := by
  have ha : (ax a : Fin 3) = 0 := by fin_cases a; rfl
  unfold reconVal
  rw [ha]
  simp only [Function.update_self]
  congr 1 <;> simp [unitGrid, globGrid]

end Slopes

section Witness

/-- A perfect gas with `γ = 2`. -/
noncomputable def twoGas : EoS ℝ := PerfectGas.toEoS ⟨2, 2 - 1, 1⟩

theorem twoGas_pres {r : ℝ} (hr : 0 < r) (e : ℝ) : twoGas.presFromEvol r e = e := by
  have h1 := kB_pos.ne'
  have h2 := mP_pos.ne'
  have h3 := hr.ne'
  show PerfectGas.presFromEvol _ r e = e
  simp only [PerfectGas.presFromEvol, PerfectGas.presFromTemp, PerfectGas.tempFromEvol]
  field_simp
  norm_num

theorem twoGas_evol {r : ℝ} (hr : 0 < r) (P : ℝ) : twoGas.evolFromPres r P = P := by
  have := perfectGas_evol sampleGas_physical P hr
  rw [twoGas, this]
  norm_num

theorem twoGas_sound (r P : ℝ) : twoGas.sound r P = Real.sqrt (2 * P / r) := rfl

/-- One-dimensional state without scalars, of density `r`, velocity `u` and pressure `P`, for `γ = 2`. -/
noncomputable def st2 (r u P : ℝ) : Fields 1 0 ℝ := ⟨r, fun _ => r * u, P + r * u ^ 2 / 2, Fin.elim0⟩

theorem st2_prim {r : ℝ} (hr : 0 < r) (u P : ℝ) : toPrim twoGas (st2 r u P).cons = ⟨r, fun _ => u, P⟩ := by
  have e : (st2 r u P).cons.evol = P := by
    rw [Cons.evol_eq]
    simp [Cons.eint, st2, Fields.cons]
    field_simp
    ring
  unfold toPrim
  rw [e]
  simp only [st2, Fields.cons, twoGas_pres hr]
  congr 1
  funext _
  field_simp

theorem st2_pressure {r : ℝ} (hr : 0 < r) (u P : ℝ) : (st2 r u P).cons.pressure twoGas = P := by
  have := congrArg Prim.P (st2_prim hr u P)
  rwa [toPrim_eq] at this

/-- The predicted faces of a cell of constant density and pressure inside a constant expansion `s` at rest. -/
theorem unit_faces {lim : Limiter} (h : lim ≠ .constant) (tr : Trig ℝ) (dt : ℝ) {U : ℤ → Fields 1 0 ℝ} {up : ℤ → VelPres 1 ℝ} {c : Cell} {r P s : ℝ} (hr : 0 < r) (hs : s ≠ 0)
    (h0 : (U (c 0)).rho = r) (h1 : ((U (c 0)).rho - (U (c 0 - 1)).rho) * ((U (c 0 + 1)).rho - (U (c 0)).rho) ≤ 0)
    (hu0 : (up (c 0)).u 0 = 0) (hum : (up (c 0 - 1)).u 0 = -s) (hup : (up (c 0 + 1)).u 0 = s)
    (hP0 : (up (c 0)).P = P) (hP : ((up (c 0)).P - (up (c 0 - 1)).P) * ((up (c 0 + 1)).P - (up (c 0)).P) ≤ 0) :
    recVal lim twoGas tr .cartesian (unitGrid tr) dt (fun c => U (c 0)) (fun c => up (c 0)) c = fun side _ =>
      ⟨r - dt * r * s, fun _ => if side = 0 then -(r * s / 2) else r * s / 2, P + r * s ^ 2 / 8 - dt * s * (2 * P + r * s ^ 2 / 8), Fin.elim0⟩ := by
  have q1 : ∀ side (a : Fin 1), reconVal lim (unitGrid tr).dx (fun c => (U (c 0)).rho) c side a = r := fun side a => by
    rw [unitGrid_recon tr lim (fun i => (U i).rho), reconFace_flat lim h1, h0]
  have q2 : ∀ side (a : Fin 1), reconVal lim (unitGrid tr).dx (fun c => (up (c 0)).P) c side a = P := fun side a => by
    rw [unitGrid_recon tr lim (fun i => (up i).P), reconFace_flat lim hP, hP0]
  have q3 : ∀ side (a i : Fin 1), reconVal lim (unitGrid tr).dx (fun c => (up (c 0)).u i) c side a = if side = 0 then -(s / 2) else s / 2 := fun side a i => by
    have hi : i = 0 := by fin_cases i; rfl
    subst hi
    rw [unitGrid_recon tr lim (fun i => (up i).u 0), reconFace_same h hs (by rw [hup, hu0]; ring) (by rw [hum, hu0]; ring), hu0]
    split <;> ring
  have f1 : faceUP lim (unitGrid tr) (fun c => up (c 0)) c = fun side _ => ⟨fun _ => if side = 0 then -(s / 2) else s / 2, P⟩ := by
    funext side a
    unfold faceUP
    simp only [q2, q3]
  have f2 : faceFields lim twoGas (unitGrid tr) (fun c => U (c 0)) (fun c => up (c 0)) c =
      fun side _ => ⟨r, fun _ => if side = 0 then -(r * s / 2) else r * s / 2, P + r * s ^ 2 / 8, Fin.elim0⟩ := by
    funext side a
    unfold faceFields
    rw [f1]
    simp only [q1, toCons, Prim.ek, twoGas_evol hr, Fields.mk.injEq, true_and]
    refine ⟨funext fun _ => ?_, ?_, funext fun i => i.elim0⟩
    · split <;> ring
    · fin_cases side <;> simp <;> ring
  funext side a
  unfold recVal
  rw [f1, f2]
  have ha : (ax (0 : Fin 1) : Fin 3) = 0 := rfl
  unfold hanVal
  simp only [Fin.sum_univ_one, fluxDiff, momDiff, PGrid.dirGeo, unitGrid, globGrid, dsFun, dvFun, fluxPrim, facePrim, Prim.ek, twoGas_evol hr, ha]
  refine Fields.ext ?_ (funext fun i => ?_) ?_ (funext fun i => i.elim0)
  · simp; ring
  · fin_cases i
    simp
  · simp; ring

/-- Three states from left to right: `A` up to cell 1, `C` in cell 2, `B` from cell 3. -/
noncomputable def three (r Q R P s : ℝ) (i : ℤ) : Fields 1 0 ℝ := if i ≤ 1 then st2 r (-s) Q else if i = 2 then st2 R 0 P else st2 r s Q

noncomputable def threeUP (Q P s : ℝ) (i : ℤ) : VelPres 1 ℝ := if i ≤ 1 then ⟨fun _ => -s, Q⟩ else if i = 2 then ⟨fun _ => 0, P⟩ else ⟨fun _ => s, Q⟩

/-- What the claim C74 assumes, for data on the one-dimensional unit grid with five cells, of which one is interior. -/
structure PhysicalData (dt : ℝ) (U : Cell → Fields 1 0 ℝ) (up : Cell → VelPres 1 ℝ) : Prop where
  step : 0 < dt
  pos : ∀ c, 0 < (U c).rho ∧ 0 < (U c).cons.pressure twoGas
  prim : ∀ c, (∀ i, (up c).u i = (U c).rhou i / (U c).rho) ∧ (up c).P = (U c).cons.pressure twoGas
  cfl : ∀ c, 2 * dt * (|(up c).u 0| + twoGas.sound (U c).rho (up c).P) ≤ 1

theorem three_physical {dt r Q R P s cB cC : ℝ} (hdt : 0 < dt) (hr : 0 < r) (hQ : 0 < Q) (hR : 0 < R) (hP : 0 < P) (hs : 0 ≤ s)
    (hB : 0 ≤ cB) (hC : 0 ≤ cC) (hBs : 2 * Q / r ≤ cB ^ 2) (hCs : 2 * P / R ≤ cC ^ 2) (h1 : 2 * dt * (s + cB) ≤ 1) (h2 : 2 * dt * cC ≤ 1) :
    PhysicalData dt (fun c => three r Q R P s (c 0)) (fun c => threeUP Q P s (c 0)) := by
  have sB : twoGas.sound r Q ≤ cB := by rw [twoGas_sound]; exact Real.sqrt_le_iff.2 ⟨hB, hBs⟩
  have sC : twoGas.sound R P ≤ cC := by rw [twoGas_sound]; exact Real.sqrt_le_iff.2 ⟨hC, hCs⟩
  refine ⟨hdt, fun c => ?_, fun c => ?_, fun c => ?_⟩
  all_goals
    unfold three
    try unfold threeUP
    split
    on_goal 2 => split
  · exact ⟨hr, by rw [st2_pressure hr]; exact hQ⟩
  · exact ⟨hR, by rw [st2_pressure hR]; exact hP⟩
  · exact ⟨hr, by rw [st2_pressure hr]; exact hQ⟩
  · exact ⟨fun i => by simp only [st2]; field_simp, by rw [st2_pressure hr]⟩
  · exact ⟨fun i => by simp only [st2]; field_simp, by rw [st2_pressure hR]⟩
  · exact ⟨fun i => by simp only [st2]; field_simp, by rw [st2_pressure hr]⟩
  · simp only [st2, abs_neg, abs_of_nonneg hs]
    exact le_trans (mul_le_mul_of_nonneg_left (by linarith) (by linarith)) h1
  · simp only [st2, abs_zero]
    exact le_trans (mul_le_mul_of_nonneg_left (by linarith) (by linarith)) h2
  · simp only [st2, abs_of_nonneg hs]
    exact le_trans (mul_le_mul_of_nonneg_left (by linarith) (by linarith)) h1

theorem three_at (r Q R P s : ℝ) : three r Q R P s 1 = st2 r (-s) Q ∧ three r Q R P s 2 = st2 R 0 P ∧ three r Q R P s 3 = st2 r s Q ∧
    three r Q R P s 0 = st2 r (-s) Q ∧ three r Q R P s 4 = st2 r s Q := by
  refine ⟨?_, ?_, ?_, ?_, ?_⟩ <;> simp [three]

theorem threeUP_at (Q P s : ℝ) : threeUP Q P s 1 = ⟨fun _ => -s, Q⟩ ∧ threeUP Q P s 2 = ⟨fun _ => 0, P⟩ ∧ threeUP Q P s 3 = ⟨fun _ => s, Q⟩ ∧
    threeUP Q P s 0 = ⟨fun _ => -s, Q⟩ ∧ threeUP Q P s 4 = ⟨fun _ => s, Q⟩ := by
  refine ⟨?_, ?_, ?_, ?_, ?_⟩ <;> simp [threeUP]

/-- The predicted faces of the middle cell. -/
theorem three_mid {lim : Limiter} (h : lim ≠ .constant) (tr : Trig ℝ) (dt : ℝ) {r Q R P s : ℝ} (hR : 0 < R) (hs : s ≠ 0) {c : Cell} (hc : c 0 = 2) :
    recVal lim twoGas tr .cartesian (unitGrid tr) dt (fun c => three r Q R P s (c 0)) (fun c => threeUP Q P s (c 0)) c = fun side _ =>
      ⟨R - dt * R * s, fun _ => if side = 0 then -(R * s / 2) else R * s / 2, P + R * s ^ 2 / 8 - dt * s * (2 * P + R * s ^ 2 / 8), Fin.elim0⟩ := by
  obtain ⟨a1, a2, a3, -, -⟩ := three_at r Q R P s
  obtain ⟨b1, b2, b3, -, -⟩ := threeUP_at Q P s
  have e1 : c 0 - 1 = 1 := by omega
  have e2 : c 0 + 1 = 3 := by omega
  refine unit_faces h tr dt (U := three r Q R P s) (up := threeUP Q P s) hR hs ?_ ?_ ?_ ?_ ?_ ?_ ?_
  all_goals try rw [e1]
  all_goals try rw [e2]
  all_goals try rw [hc]
  · rw [a2]; rfl
  · rw [a1, a2, a3]
    simp only [st2]
    nlinarith [sq_nonneg (R - r)]
  · rw [b2]
  · rw [b1]
  · rw [b3]
  · rw [b2]
  · rw [b1, b2, b3]
    simp only
    nlinarith [sq_nonneg (P - Q)]

/-- The neighbours have no slopes. -/
theorem three_side (lim : Limiter) (tr : Trig ℝ) (dt : ℝ) {r Q R P s : ℝ} (hr : 0 < r) {c : Cell} (hc : c 0 = 1 ∨ c 0 = 3) :
    recVal lim twoGas tr .cartesian (unitGrid tr) dt (fun c => three r Q R P s (c 0)) (fun c => threeUP Q P s (c 0)) c = fun _ _ => three r Q R P s (c 0) := by
  obtain ⟨a1, a2, a3, a0, a4⟩ := three_at r Q R P s
  obtain ⟨b1, b2, b3, b0, b4⟩ := threeUP_at Q P s
  have fl : ∀ f : ℤ → ℝ, (f (c 0) - f (c 0 - 1)) * (f (c 0 + 1) - f (c 0)) ≤ 0 → ∀ side (a : Fin 1),
      reconVal lim (unitGrid tr).dx (fun c => f (c 0)) c side a = f (c 0) := fun f hf side a => by
    rw [unitGrid_recon tr lim f, reconFace_flat lim hf]
  have fl' : (∀ f : Fields 1 0 ℝ → ℝ, (f (three r Q R P s (c 0)) - f (three r Q R P s (c 0 - 1))) * (f (three r Q R P s (c 0 + 1)) - f (three r Q R P s (c 0))) ≤ 0) ∧
      ∀ f : VelPres 1 ℝ → ℝ, (f (threeUP Q P s (c 0)) - f (threeUP Q P s (c 0 - 1))) * (f (threeUP Q P s (c 0 + 1)) - f (threeUP Q P s (c 0))) ≤ 0 := by
    rcases hc with hc | hc
    · have e1 : c 0 - 1 = 0 := by omega
      rw [e1, hc, a1, a0, b1, b0]
      exact ⟨fun f => by simp, fun f => by simp⟩
    · have e1 : c 0 + 1 = 4 := by omega
      rw [e1, hc, a3, a4, b3, b4]
      exact ⟨fun f => by simp, fun f => by simp⟩
  refine recVal_flat lim (PerfectGas.lawful sampleGas_physical) tr _ dt ?_ ?_ ?_ ?_ ?_ ?_ (fun _ => rfl) (fun a => ?_)
  · exact fl (fun i => (three r Q R P s i).rho) (fl'.1 _)
  · exact fun _ _ i => i.elim0
  · exact fun side a i => fl (fun j => (threeUP Q P s j).u i) (fl'.2 fun x => x.u i) side a
  · exact fl (fun i => (threeUP Q P s i).P) (fl'.2 _)
  · rcases hc with hc | hc <;> rw [hc]
    · rw [a1]; exact hr
    · rw [a3]; exact hr
  · change _ = (⟨(toPrim twoGas _).u, (toPrim twoGas _).P⟩ : VelPres 1 ℝ)
    rcases hc with hc | hc <;> rw [hc]
    · rw [a1, b1, st2_prim hr]
    · rw [a3, b3, st2_prim hr]
  · exact dsFun_nb tr (fun _ i => (i : ℝ)) (fun _ i => ((i + 1 : ℤ) : ℝ) - (i : ℝ)) c a

/-- C74, predictor. With each reconstruction that has slopes there are physical data satisfying the Courant condition of `C74_step_partial` (density
1, pressure 1/2 and velocities -4, 0, 4, with γ = 2) for which the predictor, before any Riemann solver, gives the left and the right face of
the interior cell a state of positive density and negative pressure. The solvers take the square root of that pressure. -/
theorem C74_predictor_violated {lim : Limiter} (hl : lim ≠ .constant) (tr : Trig ℝ) : ∃ dt U up, PhysicalData dt U up ∧
    ∀ {g : GridData ℝ} {grav : GravField 1 ℝ} {sc : RecScheds 1 0} {l l' : List Cell}, StepOk g grav ![5, 1, 1] (unitGrid tr) 2 sc l l' →
    ∀ upRec rec, ∃ out, hydroReconstruct lim twoGas tr .cartesian g grav (dt / 2) sc ⟨inExt ![5, 1, 1], U⟩ ⟨inExt ![5, 1, 1], up⟩ ⟨inExt ![5, 1, 1], upRec⟩
        ⟨inExt ![5, 1, 1], rec⟩ = some ⟨inExt ![5, 1, 1], out⟩ ∧
      ∀ side, 0 < (out ![2, 0, 0] side 0).rho ∧ (out ![2, 0, 0] side 0).cons.pressure twoGas < 0 := by
  refine ⟨1 / 10, _, _, three_physical (r := 1) (Q := 1 / 2) (R := 1) (P := 1 / 2) (s := 4) (cB := 1) (cC := 1) (by norm_num) (by norm_num) (by norm_num) (by norm_num)
    (by norm_num) (by norm_num) (by norm_num) (by norm_num) (by norm_num) (by norm_num) (by norm_num) (by norm_num), fun {g grav sc l l'} h upRec rec => ?_⟩
  refine ⟨_, hydroReconstruct_eq (by norm_num) lim twoGas tr .cartesian h.fits _ h.sc (fun c hc => layer_inExt (m := 1) hc (by omega))
    (fun c hc => layer_stencil (by norm_num) (m := 1) hc (by omega)) _ _ upRec rec, fun side => ?_⟩
  have hb : inBox (nghostOf 1 (2 - 1)) (fun a => (![5, 1, 1] : Cell) a - nghostOf 1 (2 - 1) a) ![2, 0, 0] := by
    intro a; fin_cases a <;> simp [nghostOf]
  simp only [if_pos hb]
  rw [three_mid hl tr _ (by norm_num) (by norm_num) rfl]
  refine ⟨by norm_num, ?_⟩
  rw [Cons.pressure, twoGas_pres (by norm_num [Fields.cons])]
  simp only [Cons.eint, Fields.cons, Fin.sum_univ_one]
  fin_cases side <;> norm_num

/-- The HLL flux between two states, from its wave speeds. -/
theorem hll_st2 {r₁ r₂ : ℝ} (h₁ : 0 < r₁) (h₂ : 0 < r₂) {u₁ u₂ P₁ P₂ w₁ w₂ : ℝ}
    (hw₁ : min (min (u₁ - twoGas.sound r₁ P₁) (u₂ - twoGas.sound r₂ P₂)) 0 = w₁) (hw₂ : max (max (u₁ + twoGas.sound r₁ P₁) (u₂ + twoGas.sound r₂ P₂)) 0 = w₂) :
    hllFlux twoGas (st2 r₁ u₁ P₁).cons (st2 r₂ u₂ P₂).cons 0 =
      ⟨fluxHll r₁ r₂ (r₁ * u₁) (r₂ * u₂) w₁ w₂, fun _ => fluxHll (r₁ * u₁) (r₂ * u₂) (r₁ * u₁ * u₁ + P₁) (r₂ * u₂ * u₂ + P₂) w₁ w₂,
        fluxHll (P₁ + r₁ * u₁ ^ 2 / 2) (P₂ + r₂ * u₂ ^ 2 / 2) (u₁ * (P₁ + r₁ * u₁ ^ 2 / 2 + P₁)) (u₂ * (P₂ + r₂ * u₂ ^ 2 / 2 + P₂)) w₁ w₂⟩ := by
  unfold hllFlux
  rw [st2_prim h₁, st2_prim h₂]
  simp only [waveL, waveR, hw₁, hw₂, fluxPrim, Prim.ek, twoGas_evol h₁, twoGas_evol h₂, Fin.sum_univ_one, Fields.cons, st2]
  refine Flux.ext rfl (funext fun i => ?_) ?_
  · fin_cases i
    simp
  · simp only
    congr 1 <;> ring

theorem witness_sound : twoGas.sound (1 / 162) 1 = 18 := by
  rw [twoGas_sound, Real.sqrt_eq_iff_mul_self_eq (by norm_num) (by norm_num)]
  norm_num

/-- C74, step. With each reconstruction that has slopes and the HLL solver there are physical data satisfying the Courant condition of
`C74_step_partial` for which the step gives the interior cell a positive density and a negative internal energy. -/
theorem C74_second_order_violated {lim : Limiter} (hl : lim ≠ .constant) (tr : Trig ℝ) : ∃ dt U up, PhysicalData dt U up ∧
    ∀ {g : GridData ℝ} {grav : GravField 1 ℝ} {sc : RecScheds 1 0} {l l' : List Cell}, StepOk g grav ![5, 1, 1] (unitGrid tr) 2 sc l l' →
    ∀ upRec rec new, ∃ out, hydroStep lim .hll twoGas tr .cartesian g grav dt sc l l' ⟨inExt ![5, 1, 1], U⟩ ⟨inExt ![5, 1, 1], up⟩ ⟨inExt ![5, 1, 1], upRec⟩
        ⟨inExt ![5, 1, 1], rec⟩ ⟨inExt ![5, 1, 1], new⟩ = some ⟨inExt ![5, 1, 1], out⟩ ∧
      0 < (out ![2, 0, 0]).rho ∧ (out ![2, 0, 0]).E - (∑ i, (out ![2, 0, 0]).rhou i ^ 2) / (2 * (out ![2, 0, 0]).rho) < 0 := by
  refine ⟨1 / 40, _, _, three_physical (r := 1 / 162) (Q := 1) (R := 8) (P := 1 / 2) (s := 2) (cB := 18) (cC := 1) (by norm_num) (by norm_num) (by norm_num) (by norm_num)
    (by norm_num) (by norm_num) (by norm_num) (by norm_num) (by norm_num) (by norm_num) (by norm_num) (by norm_num), fun {g grav sc l l'} h upRec rec new => ?_⟩
  refine ⟨_, h.step lim .hll twoGas tr .cartesian _ _ _ upRec rec new, ?_⟩
  have hb : layer 1 (![5, 1, 1] : Cell) 2 ![2, 0, 0] := by
    intro a; fin_cases a <;> simp [nghostOf]
  simp only [if_pos hb]
  obtain ⟨a1, a2, a3, -, -⟩ := three_at (1 / 162) 1 8 (1 / 2) 2
  have n1 : nb ![2, 0, 0] (ax (0 : Fin 1)) (-1) 0 = 1 := rfl
  have n2 : nb ![2, 0, 0] (ax (0 : Fin 1)) 1 0 = 3 := rfl
  have m0 := three_mid hl tr (1 / 40 / 2) (r := 1 / 162) (Q := 1) (R := 8) (P := 1 / 2) (s := 2) (by norm_num) (by norm_num) (c := ![2, 0, 0]) rfl
  have m1 := three_side lim tr (1 / 40 / 2) (r := 1 / 162) (Q := 1) (R := 8) (P := 1 / 2) (s := 2) (by norm_num) (c := nb ![2, 0, 0] (ax (0 : Fin 1)) (-1)) (Or.inl n1)
  have m2 := three_side lim tr (1 / 40 / 2) (r := 1 / 162) (Q := 1) (R := 8) (P := 1 / 2) (s := 2) (by norm_num) (c := nb ![2, 0, 0] (ax (0 : Fin 1)) 1) (Or.inr n2)
  rw [n1, a1] at m1
  rw [n2, a3] at m2
  have s1 : twoGas.sound (39 / 5) (85 / 312) ≤ 1 := by
    rw [twoGas_sound]; exact Real.sqrt_le_iff.2 ⟨by norm_num, by norm_num⟩
  have s0 : 0 ≤ twoGas.sound (39 / 5) (85 / 312) := Real.sqrt_nonneg _
  have FR := hll_st2 (r₁ := 39 / 5) (r₂ := 1 / 162) (by norm_num) (by norm_num) (u₁ := 40 / 39) (u₂ := 2) (P₁ := 85 / 312) (P₂ := 1) (w₁ := -16) (w₂ := 20)
    (by rw [witness_sound, min_eq_right (a := 40 / 39 - _) (by linarith)]; norm_num) (by rw [witness_sound, max_eq_right (a := 40 / 39 + _) (by linarith)]; norm_num)
  have FL := hll_st2 (r₁ := 1 / 162) (r₂ := 39 / 5) (by norm_num) (by norm_num) (u₁ := -2) (u₂ := -(40 / 39)) (P₁ := 1) (P₂ := 85 / 312) (w₁ := -20) (w₂ := 16)
    (by rw [witness_sound, min_eq_left (b := -(40 / 39) - _) (by linarith)]; norm_num) (by rw [witness_sound, max_eq_left (b := -(40 / 39) + _) (by linarith)]; norm_num)
  have c0 : recVal lim twoGas tr .cartesian (unitGrid tr) (1 / 40 / 2) (fun c => three (1 / 162) 1 8 (1 / 2) 2 (c 0)) (fun c => threeUP 1 (1 / 2) 2 (c 0)) ![2, 0, 0] 0 0 =
      st2 (39 / 5) (-(40 / 39)) (85 / 312) := by
    rw [m0]
    refine Fields.ext ?_ (funext fun _ => ?_) ?_ rfl <;> simp only [st2] <;> norm_num
  have c1 : recVal lim twoGas tr .cartesian (unitGrid tr) (1 / 40 / 2) (fun c => three (1 / 162) 1 8 (1 / 2) 2 (c 0)) (fun c => threeUP 1 (1 / 2) 2 (c 0)) ![2, 0, 0] 1 0 =
      st2 (39 / 5) (40 / 39) (85 / 312) := by
    rw [m0]
    refine Fields.ext ?_ (funext fun _ => ?_) ?_ rfl <;> simp only [st2] <;> norm_num
  have a2' : three (1 / 162) 1 8 (1 / 2) 2 ((![2, 0, 0] : Cell) 0) = st2 8 0 (1 / 2) := a2
  unfold stepVal godVal
  simp only [Fin.sum_univ_one, Solver.flux, c0, c1, m1, m2, FL, FR, a2']
  have ha : (ax (0 : Fin 1) : Fin 3) = 0 := rfl
  simp only [fluxDiff, momDiff, PGrid.dirGeo, unitGrid, globGrid, dsFun, dvFun, ha, st2, fluxHll, reduceCtorEq, if_false]
  norm_num

/-- The grid and the loop orders of the two theorems above exist. -/
theorem unitGrid_stepOk (tr : Trig ℝ) : StepOk (gridOf ![5, 1, 1] (unitGrid tr)) (fun c a => some ((unitGrid tr).grav c a)) ![5, 1, 1] (unitGrid tr) 2
    (RecScheds.box (d := 1) (n := 0) (nghostOf 1 (2 - 1)) (fun a => (![5, 1, 1] : Cell) a - nghostOf 1 (2 - 1) a))
    (boxList (nghostOf 1 2) (fun a => (![5, 1, 1] : Cell) a - nghostOf 1 2 a)) (boxList (nghostOf 1 2) (fun a => (![5, 1, 1] : Cell) a - nghostOf 1 2 a)) :=
  globStepOk (by norm_num) (le_refl 2) (unitGrid tr) ![5, 1, 1]

example (tr : Trig ℝ) := C74_predictor_violated (lim := .vanLeer) (by simp) tr

example (tr : Trig ℝ) : ∃ (dt : ℝ) (U : Cell → Fields 1 0 ℝ) (out : Cell → Fields 1 0 ℝ) (g : GridData ℝ) (grav : GravField 1 ℝ) (sc : RecScheds 1 0) (l l' : List Cell)
    (up : View Cell (VelPres 1 ℝ)) (upRec : FaceArr 1 (VelPres 1 ℝ)) (rec : FaceArr 1 (Fields 1 0 ℝ)),
    hydroStep .minmod .hll twoGas tr .cartesian g grav dt sc l l' ⟨inExt ![5, 1, 1], U⟩ up upRec rec ⟨inExt ![5, 1, 1], U⟩ = some ⟨inExt ![5, 1, 1], out⟩ ∧
    (∀ c, 0 < (U c).cons.pressure twoGas) ∧ (out ![2, 0, 0]).E - (∑ i, (out ![2, 0, 0]).rhou i ^ 2) / (2 * (out ![2, 0, 0]).rho) < 0 := by
  obtain ⟨dt, U, up, hP, h⟩ := C74_second_order_violated (lim := .minmod) (by simp) tr
  obtain ⟨out, e, -, h2⟩ := h (unitGrid_stepOk tr) (fun _ _ _ => ⟨0, 0⟩) (fun _ _ _ => ⟨0, 0, 0, 0⟩) U
  exact ⟨dt, U, out, _, _, _, _, _, _, _, _, e, fun c => (hP.pos c).2, h2⟩

/-- The same data satisfy the hypotheses of `C74_step_partial`: without slopes they stay physical. -/
example (tr : Trig ℝ) : ∃ out, hydroStep .constant .hll twoGas tr .cartesian (gridOf ![5, 1, 1] (unitGrid tr)) (fun c a => some ((unitGrid tr).grav c a)) (1 / 40)
      (RecScheds.box (d := 1) (n := 0) (nghostOf 1 (2 - 1)) (fun a => (![5, 1, 1] : Cell) a - nghostOf 1 (2 - 1) a))
      (boxList (nghostOf 1 2) (fun a => (![5, 1, 1] : Cell) a - nghostOf 1 2 a)) (boxList (nghostOf 1 2) (fun a => (![5, 1, 1] : Cell) a - nghostOf 1 2 a))
      ⟨inExt ![5, 1, 1], fun c => three (1 / 162) 1 8 (1 / 2) 2 (c 0)⟩ ⟨inExt ![5, 1, 1], fun c => threeUP 1 (1 / 2) 2 (c 0)⟩
      ⟨inExt ![5, 1, 1], fun _ _ _ => ⟨0, 0⟩⟩ ⟨inExt ![5, 1, 1], fun _ _ _ => ⟨0, 0, 0, 0⟩⟩ ⟨inExt ![5, 1, 1], fun _ => ⟨0, 0, 0, 0⟩⟩ = some ⟨inExt ![5, 1, 1], out⟩ ∧
    ∀ c, layer 1 ![5, 1, 1] 2 c → 0 < (out c).rho ∧ 0 < (out c).E - (∑ i, (out c).rhou i ^ 2) / (2 * (out c).rho) ∧
        (twoGas.Positive → 0 < (out c).cons.pressure twoGas) := by
  have hP := three_physical (dt := 1 / 40) (r := 1 / 162) (Q := 1) (R := 8) (P := 1 / 2) (s := 2) (cB := 18) (cC := 1) (by norm_num) (by norm_num) (by norm_num) (by norm_num)
    (by norm_num) (by norm_num) (by norm_num) (by norm_num) (by norm_num) (by norm_num) (by norm_num) (by norm_num)
  refine C74_step_partial (unitGrid_stepOk tr) (globGeoOf _ _ _ _ _) one_pos (PerfectGas.lawful sampleGas_physical) (PerfectGas.fast sampleGas_physical) (.inl rfl)
    (fun _ _ => rfl) (fun a i _ _ => ?_) (by norm_num) (fun c _ => hP.pos c) (fun c _ => hP.prim c) (fun c _ a t _ _ => ?_)
  · simp [unitGrid, globGrid]
  · have ha : a = 0 := by fin_cases a; rfl
    subst ha
    have := hP.cfl (nb c (ax (0 : Fin 1)) t)
    have h1 : (unitGrid tr).dx (ax (0 : Fin 1)) (c (ax (0 : Fin 1))) = 1 := by simp [unitGrid, globGrid]
    rw [h1]
    simpa using this

end Witness

end Heracles

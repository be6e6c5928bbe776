import Verif.Lemmas.Units
import Verif.Lemmas.Simulation
import Verif.Lemmas.Program

/-!
# Whole runs in other units
-/

namespace Heracles

variable {d n : ℕ} {k : Units ℝ}

theorem Fields.scale_flip (f : Fields d n ℝ) (b : Fin d) : (f.scale k).flip b = (f.flip b).scale k := by
  refine Fields.ext rfl ?_ rfl rfl
  funext i
  rw [Fields.flip_rhou]
  show _ = k.mom * (f.flip b).rhou i
  rw [Fields.flip_rhou]
  split_ifs
  · exact (mul_neg _ _).symm
  · rfl

theorem condPure_scale (kind : BcKind) (ext : Cell) (ng : ℤ) (a : Fin d) (f : Fin 2) (val : Cell → Fields d n ℝ) :
    condPure kind ext ng a f (fun c => (val c).scale k) = fun c => (condPure kind ext ng a f val c).scale k := by
  funext c
  rw [condPure_eq, condPure_eq]
  split_ifs
  · cases kind
    case reflexive => exact Fields.scale_flip _ _
    all_goals rfl
  · rfl

theorem bcPure_scale (bcs : Fin d → Fin 2 → BcKind) (ext nghost : Cell) (val : Cell → Fields d n ℝ) (id : ℕ) :
    bcPure bcs (fun _ _ => true) ext nghost (fun c => (val c).scale k) id = fun c => (bcPure bcs (fun _ _ => true) ext nghost val id c).scale k := by
  unfold bcPure
  by_cases h : id / 2 < d
  · simp only [dif_pos h, if_true]
    exact condPure_scale ..
  · simp only [dif_neg h]

theorem bcGlob_scale (bcs : Fin d → Fin 2 → BcKind) (nx nghost : Cell) (order : List ℕ) (G : Cell → Fields d n ℝ) :
    bcGlob bcs nx nghost order (fun g => (G g).scale k) = fun C => (bcGlob bcs nx nghost order G C).scale k := by
  unfold bcGlob
  suffices h : ∀ V : Cell → Fields d n ℝ, order.foldl (bcPure bcs (fun _ _ => true) (globExt nx nghost) nghost) (fun C => (V C).scale k) =
      fun C => (order.foldl (bcPure bcs (fun _ _ => true) (globExt nx nghost) nghost) V C).scale k from h fun C => G (wrap nx (C - nghost))
  induction order with
  | nil => exact fun V => rfl
  | cons id l ih =>
    intro V
    rw [List.foldl_cons, List.foldl_cons, bcPure_scale]
    exact ih _

/-- The nodes in the new units. -/
noncomputable def scaleNodes (k : Units ℝ) (geom : Geom) (X : Fin 3 → ℤ → ℝ) : Fin 3 → ℤ → ℝ := fun a i => k.axis geom a * X a i

theorem Units.axis_cart (a : Fin 3) : k.axis .cartesian a = k.len := if_neg fun h => by cases h.1

theorem Units.axis_zero (geom : Geom) : k.axis geom 0 = k.len := if_neg fun h => h.2 rfl

theorem Units.axis_one : k.axis .spherical 1 = 1 := if_pos ⟨rfl, by decide⟩

theorem Units.axis_two : k.axis .spherical 2 = 1 := if_pos ⟨rfl, by decide⟩

theorem globGrid_rescaled (tr : Trig ℝ) (geom : Geom) (X : Fin 3 → ℤ → ℝ) {Gr Gr' : Cell → Fin d → ℝ} (hg : ∀ C a, Gr' C a = k.acc * Gr C a) :
    (globGrid tr geom X Gr).Rescaled k geom (globGrid tr geom (scaleNodes k geom X) Gr') where
  x := fun a i => rfl
  dx := fun a i => (mul_sub _ _ _).symm
  ds := fun c a => by
    simp only [globGrid]
    cases geom
    · simp only [dsFun, scaleNodes, Units.axis_cart]
      fin_cases a <;> simp <;> ring
    · simp only [dsFun, scaleNodes, Units.axis_zero, Units.axis_one, Units.axis_two]
      split_ifs <;> fin_cases a <;> simp <;> ring
  dv := fun c => by
    simp only [globGrid]
    cases geom
    · simp only [dvFun, scaleNodes, Units.axis_cart]
      ring
    · simp only [dvFun, scaleNodes, Units.axis_zero, Units.axis_one, Units.axis_two]
      split_ifs
      · ring
      · ring
      · ring
      · simp
  grav := hg

variable {eos eos' : EoS ℝ}

theorem primGlob_scale (h : k.Pos) (he : eos.Rescaled k eos') (W : Cell → Fields d n ℝ) :
    primGlob eos' (fun C => (W C).scale k) = fun C => (primGlob eos W C).scale k := by
  funext C
  rw [primGlob_toPrim, primGlob_toPrim]
  have := toPrim_scale h he (W C).cons
  show VelPres.mk (toPrim eos' ((W C).cons.scale k)).u (toPrim eos' ((W C).cons.scale k)).P = _
  rw [this]
  rfl

theorem consFields_scale (he : eos.Rescaled k eos') (s : Prim d ℝ) (fx : Fin n → ℝ) :
    consFields eos' (s.scale k) fx = (consFields eos s fx).scale k := by
  have e := toCons_scale he s
  exact Fields.ext (congrArg Cons.rho e) (congrArg Cons.rhou e) (congrArg Cons.E e) rfl

theorem kinetic_scale (h : k.Pos) (s : Fields d n ℝ) : kinetic (s.scale k) = k.pres * kinetic s := by
  simp only [kinetic, Fields.scale]
  have : ∑ i, (k.mom * s.rhou i) ^ 2 = k.dens * (k.pres * ∑ i, s.rhou i ^ 2) := by
    rw [Finset.mul_sum, Finset.mul_sum]
    exact Finset.sum_congr rfl fun i _ => by unfold Units.mom Units.pres; ring
  rw [this, mul_left_comm 2, mul_div_mul_left _ _ h.dens.ne', mul_div_assoc]

theorem internal_scale (h : k.Pos) (s : Fields d n ℝ) : internal (s.scale k) = k.pres * internal s := by
  unfold internal
  rw [kinetic_scale h, mul_sub]
  rfl

theorem pressureFixEnergy_scale (h : k.Pos) (he : eos.Rescaled k eos') (dt eps : ℝ) (s q : Fields d n ℝ) (um uPl : Fin d → Fields d n ℝ)
    (r0 : Fin 2 → Fin d → Fields d n ℝ) (rm rp : Fin d → Fin 2 → Fin d → Fields d n ℝ) (ds : Fin 3 → ℝ) (dsp : Fin d → Fin 3 → ℝ) (dv : ℝ) :
    pressureFixEnergy eos' (k.time * dt) eps (s.scale k) (q.scale k) (fun a => (um a).scale k) (fun a => (uPl a).scale k)
      (fun i a => (r0 i a).scale k) (fun b i a => (rm b i a).scale k) (fun b i a => (rp b i a).scale k) (fun a => k.len ^ 2 * ds a)
      (fun b a => k.len ^ 2 * dsp b a) (k.len ^ 3 * dv) = k.pres * pressureFixEnergy eos dt eps s q um uPl r0 rm rp ds dsp dv := by
  have ec : ∀ f : Fields d n ℝ, (f.scale k).cons = f.cons.scale k := fun f => rfl
  have c1 : ∀ x : ℝ, (k.vel * x > 0) = (x > 0) := fun x => propext (mul_pos_iff_of_pos_left h.vel)
  have c2 : ∀ x : ℝ, (k.vel * x < 0) = (x < 0) := fun x => propext (by rw [← not_le, ← not_le, mul_nonneg_iff_of_pos_left h.vel])
  have eE : ∀ f : Fields d n ℝ, (f.scale k).E = k.pres * f.E := fun f => rfl
  have eP : ∀ f : Prim d ℝ, (f.scale k).P = k.pres * f.P := fun f => rfl
  have eu : ∀ (f : Prim d ℝ) i, (f.scale k).u i = k.vel * f.u i := fun f i => rfl
  simp only [pressureFixEnergy, ec, toPrim_scale h he, Cons.scale_ek h, eE, eP, eu, ← mul_add, ← mul_sub]
  have es : ∀ x : ℝ, (k.vel * x / 2) = k.vel * (x / 2) := fun x => mul_div_assoc ..
  simp only [es, c1, c2, ← mul_ite]
  have hv : k.vel * k.len ^ 2 / k.len ^ 3 = k.time⁻¹ := by
    have := h.len.ne'
    have := h.time.ne'
    unfold Units.vel
    field_simp
  have ea : ∀ x y : ℝ, (if k.pres * x < eps / 10 * (k.pres * y) then 0 else k.pres * x * (k.pres * x) / (k.pres * y * (k.pres * y) * eps * eps)) =
      if x < eps / 10 * y then 0 else x * x / (y * y * eps * eps) := fun x y => by
    rw [mul_left_comm, show k.pres * x * (k.pres * x) = k.pres ^ 2 * (x * x) by ring,
      show k.pres * y * (k.pres * y) * eps * eps = k.pres ^ 2 * (y * y * eps * eps) by ring, mul_div_mul_left _ _ (pow_pos h.pres 2).ne']
    simp only [mul_lt_mul_iff_right₀ h.pres]
  have e1 : ∀ a b s s' : ℝ, (k.vel * a * (k.len ^ 2 * s') - k.vel * b * (k.len ^ 2 * s)) / (k.len ^ 3 * dv) = k.time⁻¹ * ((a * s' - b * s) / dv) :=
    fun a b s s' => by
      rw [← hv, div_mul_div_comm]
      ring
  have e2 : ∀ a b e e' s s' : ℝ, (k.vel * a * (k.pres * e') * (k.len ^ 2 * s') - k.vel * b * (k.pres * e) * (k.len ^ 2 * s)) / (k.len ^ 3 * dv) =
      k.time⁻¹ * k.pres * ((a * e' * s' - b * e * s) / dv) := fun a b e e' s s' => by
    rw [← hv, div_mul_eq_mul_div, div_mul_div_comm]
    ring
  have e3 : ∀ i, (s.scale k).rhou i * (s.scale k).rhou i / (s.scale k).rho = k.pres * (s.rhou i * s.rhou i / s.rho) := fun i => by
    show k.mom * s.rhou i * (k.mom * s.rhou i) / (k.dens * s.rho) = _
    rw [show k.mom * s.rhou i * (k.mom * s.rhou i) = k.dens * (k.pres * (s.rhou i * s.rhou i)) by unfold Units.mom Units.pres; ring,
      mul_div_mul_left _ _ h.dens.ne', mul_div_assoc]
  simp only [ea, e1, e2, e3, ← Finset.mul_sum]
  set D := ∑ x, ∑ x_1, (((toPrim eos (r0 1 x).cons).u x_1 + (toPrim eos (rp x 0 x).cons).u x_1) / 2 * dsp x (ax x_1) -
    ((toPrim eos (rm x 1 x).cons).u x_1 + (toPrim eos (r0 0 x).cons).u x_1) / 2 * ds (ax x_1)) / dv
  have e4 : ∀ P F : ℝ, k.time * dt * (-(k.pres * P) * (k.time⁻¹ * D) - k.time⁻¹ * k.pres * F) = k.pres * (dt * (-P * D - F)) := fun P F => by
    have := h.time.ne'
    field_simp
  rw [e4]
  ring

theorem fixPure_scale (h : k.Pos) (he : eos.Rescaled k eos') {geom : Geom} {G G' : PGrid d ℝ} (hG : G.Rescaled k geom G') (dt eps : ℝ)
    (U : Cell → Fields d n ℝ) (R : Cell → Fin 2 → Fin d → Fields d n ℝ) (q : Fields d n ℝ) (c : Cell) :
    fixPure eos' G' (k.time * dt) eps (fun c => (U c).scale k) (fun c i a => (R c i a).scale k) (q.scale k) c =
      k.pres * fixPure eos G dt eps U R q c := by
  unfold fixPure
  rw [internal_scale h, kinetic_scale h, mul_left_comm]
  simp only [mul_lt_mul_iff_right₀ h.pres]
  split_ifs
  · have e1 : G'.ds c = fun a => k.len ^ 2 * G.ds c a := funext fun a => hG.ds c a
    have e2 : (fun a : Fin d => G'.ds (rindex a.val c)) = fun b a => k.len ^ 2 * G.ds (rindex b.val c) a := funext fun b => funext fun a => hG.ds _ a
    rw [e1, e2, hG.dv]
    exact pressureFixEnergy_scale h he ..
  · rfl

/-- The same choices in the new units; the temperature has a unit of its own, `θ`. -/
structure ProgParams.Rescaled (k : Units ℝ) (θ : ℝ) (p p' : ProgParams d n) : Prop where
  lim : p'.hydro.lim = p.hydro.lim
  sol : p'.hydro.sol = p.hydro.sol
  eos : p.hydro.eos.Rescaled k p'.hydro.eos
  tr : p'.hydro.tr = p.hydro.tr
  geom : p'.hydro.geom = p.hydro.geom
  bcs : p'.hydro.bcs = p.hydro.bcs
  loop : p'.loop = p.loop.scaleTime k.time
  tIni : p'.tIni = k.time * p.tIni
  temp : ∀ rho P, p'.temp (k.dens * rho) (k.pres * P) = θ * p.temp rho P
  fix : p'.fix = p.fix
  step : p.step ≠ .heatNickel
  step' : p'.step ≠ .heatNickel

variable {p p' : ProgParams d n} {θ : ℝ}

theorem heatVal_off {s : UserStepKind} (hs : s ≠ .heatNickel) (t dt : ℝ) (q : Fields d n ℝ) : heatVal s t dt q = q := by
  unfold heatVal
  cases s <;> first | rfl | exact absurd rfl hs

theorem progVal_scale (h : k.Pos) (hp : p.Rescaled k θ p') {G G' : PGrid d ℝ} (hG : G.Rescaled k p.hydro.geom G') (t t' dt : ℝ)
    (U : Cell → Fields d n ℝ) (up : Cell → VelPres d ℝ) (c : Cell) :
    progVal p' G' t' (k.time * dt) (fun c => (U c).scale k) (fun c => (up c).scale k) c = (progVal p G t dt U up c).scale k := by
  unfold progVal
  simp only [heatVal_off hp.step, heatVal_off hp.step', hp.lim, hp.sol, hp.tr, hp.geom, hp.fix]
  rw [stepVal_scale h hp.eos hG]
  cases p.fix with
  | none => rfl
  | some eps =>
    have e : recVal p.hydro.lim p'.hydro.eos p.hydro.tr p.hydro.geom G' (k.time * dt / 2) (fun c => (U c).scale k) (fun c => (up c).scale k) =
        fun c i a => (recVal p.hydro.lim p.hydro.eos p.hydro.tr p.hydro.geom G (dt / 2) U up c i a).scale k := by
      funext c i a
      rw [mul_div_assoc]
      exact recVal_scale h hp.eos hG ..
    simp only
    rw [e, fixPure_scale h hp.eos hG]
    rfl

/-- The rates are inverse times. -/
theorem rate_scale (h : k.Pos) (he : eos.Rescaled k eos') (hd3 : d ≤ 3) (tr : Trig ℝ) (geom : Geom) (nx nghost : Cell) (X : Fin 3 → ℤ → ℝ)
    (W : Cell → Fields d n ℝ) (C : Cell) :
    (globRank eos' nx nghost (scaleNodes k geom X) fun C => (W C).scale k).rate eos' tr geom C =
      k.time⁻¹ * (globRank eos nx nghost X W).rate eos tr geom C := by
  unfold RankData.rate
  rw [Finset.mul_sum]
  refine Finset.sum_congr rfl fun a _ => ?_
  simp only [globRank, primGlob_scale h he]
  have hl : cellLength (geom = .spherical) tr.sin (fun i => scaleNodes k geom X i (C i + 1) - scaleNodes k geom X i (C i))
      ((scaleNodes k geom X 0 (C 0) + scaleNodes k geom X 0 (C 0 + 1)) / 2)
      ((scaleNodes k geom X 1 (C 1) + scaleNodes k geom X 1 (C 1 + 1)) / 2) (ax a) =
      k.len * cellLength (geom = .spherical) tr.sin (fun i => X i (C i + 1) - X i (C i)) ((X 0 (C 0) + X 0 (C 0 + 1)) / 2)
        ((X 1 (C 1) + X 1 (C 1 + 1)) / 2) (ax a) := by
    cases geom
    · simp only [cellLength, scaleNodes, Units.axis_cart, reduceCtorEq, if_false]
      ring
    · simp only [cellLength, scaleNodes, Units.axis_zero, Units.axis_one, Units.axis_two, if_true, one_mul]
      generalize ax a = b
      fin_cases b <;> simp <;> ring
  rw [hl]
  simp only [VelPres.scale, Fields.scale, he.sound, abs_mul, abs_of_pos h.vel, ← mul_add]
  rw [mul_div_mul_comm]
  congr 1
  have := h.len.ne'
  have := h.time.ne'
  unfold Units.vel
  field_simp

/-- What the time step of the loop asks for: a cell, ghosts included, of non-negative lengths; sound speeds that are not negative; an
identity of the maximum that is not positive. -/
structure RateOk (p p' : ProgParams d n) (nx : Cell) (ng : ℤ) (X : Fin 3 → ℤ → ℝ) : Prop where
  lo : p.hydro.lo ≤ 0
  lo' : p'.hydro.lo ≤ 0
  sound : ∀ rho P, 0 ≤ p.hydro.eos.sound rho P
  cell : ∃ C, inExt (globExt nx (nghostOf d ng)) C = true ∧ ∀ a : Fin d,
    0 ≤ cellLength (p.hydro.geom = .spherical) p.hydro.tr.sin (fun i => X i (C i + 1) - X i (C i)) ((X 0 (C 0) + X 0 (C 0 + 1)) / 2)
      ((X 1 (C 1) + X 1 (C 1 + 1)) / 2) (ax a)

theorem isRate_scale (h : k.Pos) (hd3 : d ≤ 3) (hp : p.Rescaled k θ p') {nx : Cell} {ng : ℤ} {X : Fin 3 → ℤ → ℝ} (hr : RateOk p p' nx ng X)
    {W : Cell → Fields d n ℝ} {m : ℝ} (hm : IsRate p.hydro.lo p.hydro.eos p.hydro.tr p.hydro.geom nx (nghostOf d ng) X W m) :
    IsRate p'.hydro.lo p'.hydro.eos p'.hydro.tr p'.hydro.geom nx (nghostOf d ng) (scaleNodes k p.hydro.geom X) (fun C => (W C).scale k)
      (k.time⁻¹ * m) := by
  obtain ⟨C0, hC0, hl⟩ := hr.cell
  have hT : 0 < k.time⁻¹ := inv_pos.2 h.time
  have h0 : 0 ≤ (globRank p.hydro.eos nx (nghostOf d ng) X W).rate p.hydro.eos p.hydro.tr p.hydro.geom C0 :=
    Finset.sum_nonneg fun a _ => div_nonneg (add_nonneg (abs_nonneg _) (hr.sound _ _)) (hl a)
  have hm0 := h0.trans (hm.le C0 hC0)
  have e := fun C => rate_scale h hp.eos hd3 p.hydro.tr p.hydro.geom nx (nghostOf d ng) X W C
  rw [hp.tr, hp.geom]
  refine ⟨hr.lo'.trans (mul_nonneg hT.le hm0), fun C hC => ?_, Or.inr ?_⟩
  · rw [e]
    exact mul_le_mul_of_nonneg_left (hm.le C hC) hT.le
  · rcases hm.mem with hlo | ⟨C, hC, hC'⟩
    · refine ⟨C0, hC0, ?_⟩
      rw [e]
      have h1 : m ≤ 0 := hlo ▸ hr.lo
      have h2 := hm.le C0 hC0
      congr 1
      linarith
    · exact ⟨C, hC, by rw [e, hC']⟩

theorem globHydro_related (h : k.Pos) (hd3 : d ≤ 3) (hp : p.Rescaled k θ p') {nx : Cell} {ng : ℤ} {X : Fin 3 → ℤ → ℝ} (hr : RateOk p p' nx ng X)
    {Gr Gr' : (Cell → Fields d n ℝ) → Cell → Fin d → ℝ} (hg : ∀ W C a, Gr' (fun C => (W C).scale k) C a = k.acc * Gr W C a) (order : List ℕ)
    (hex : ∀ W : Cell → Fields d n ℝ, ∃ m, IsRate p.hydro.lo p.hydro.eos p.hydro.tr p.hydro.geom nx (nghostOf d ng) X W m) :
    (globHydro p nx ng X Gr order).Related k.time (fun W W' => W' = fun C => (W C).scale k)
      (globHydro p' nx ng (scaleNodes k p.hydro.geom X) Gr' order) where
  timeStep := by
    rintro W _ rfl
    obtain ⟨m, hm⟩ := hex W
    rw [globHydro_timeStep hm, globHydro_timeStep (isRate_scale h hd3 hp hr hm), one_div, one_div, mul_inv, inv_inv]
  bad := by
    rintro W _ rfl
    rw [Bool.eq_iff_iff, globHydro_bad, globHydro_bad]
    refine exists_congr fun g => and_congr_right fun _ => ?_
    rw [internal_scale h]
    constructor
    · intro h1
      by_contra h2
      exact absurd h1 (not_lt.2 (mul_nonneg h.pres.le (not_lt.1 h2)))
    · exact fun h1 => mul_neg_of_pos_of_neg h.pres h1
  advance := by
    rintro W _ rfl t dt
    simp only [globHydro]
    rw [hp.bcs, ← bcGlob_scale]
    congr 1
    funext g
    rw [primGlob_scale h hp.eos, hp.tr, hp.geom]
    exact progVal_scale h hp (globGrid_rescaled p.hydro.tr p.hydro.geom X (hg W)) ..

end Heracles

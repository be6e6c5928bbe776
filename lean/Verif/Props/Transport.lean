import Verif.Props.Uniform
import Verif.Props.Limiter
import Mathlib.Analysis.SpecialFunctions.Integrals.Basic

/-!
# C63 Transport by a uniform flow

A reference for the whole update (reconstruction, half step, Riemann solver, flux difference): when velocity and pressure are uniform the exact
solution carries the density profile along with the flow.
-/

namespace Heracles

variable {d n : ℕ} {K : Type} [Field K] [LinearOrder K] [IsStrictOrderedRing K]

section
variable (lim : Limiter) (p : PGrid d K) (v : Cell → K) (c : Cell)

/-- Slope along `b` of the line through the two reconstructed face values of the cell. -/
def profSlope (b : Fin d) : K := (reconVal lim p.dx v c 1 b - reconVal lim p.dx v c 0 b) / p.dx (ax b) (c (ax b))

/-- The linear profile of the cell, at the displacement `y` from its centre. -/
def profile (y : Fin d → K) : K := v c + ∑ b, profSlope lim p v c b * y b

/-- Displacement from the centre of the cell to the point that reaches the centre of face `side` along `a` after a time `t` in a flow of
velocity `w`. -/
def footPoint (t : K) (w : Fin d → K) (side : Fin 2) (a : Fin d) : Fin d → K := fun b =>
  (if b = a then (if side = 0 then - (p.dx (ax a) (c (ax a)) / 2) else p.dx (ax a) (c (ax a)) / 2) else 0) - t * w b

variable {lim p v c}

omit [IsStrictOrderedRing K] in
theorem reconVal_profile [NeZero (2 : K)] (a : Fin d) (side : Fin 2) (hx : p.dx (ax a) (c (ax a)) ≠ 0) :
    reconVal lim p.dx v c side a = v c + profSlope lim p v c a *
      (if side = 0 then - (p.dx (ax a) (c (ax a)) / 2) else p.dx (ax a) (c (ax a)) / 2) := by
  have h2 : (2 : K) ≠ 0 := NeZero.ne 2
  unfold profSlope reconVal reconFace
  fin_cases side <;> simp <;> field_simp <;> ring

theorem profile_footPoint (a : Fin d) (side : Fin 2) (hx : p.dx (ax a) (c (ax a)) ≠ 0) (t : K) (w : Fin d → K) :
    profile lim p v c (footPoint p c t w side a) = reconVal lim p.dx v c side a - t * ∑ b, w b * profSlope lim p v c b := by
  rw [reconVal_profile a side hx, profile]
  have : ∀ b, profSlope lim p v c b * footPoint p c t w side a b =
      (if b = a then profSlope lim p v c a * (if side = 0 then - (p.dx (ax a) (c (ax a)) / 2) else p.dx (ax a) (c (ax a)) / 2) else 0)
        - t * (w b * profSlope lim p v c b) := by
    intro b
    unfold footPoint
    by_cases h : b = a
    · subst h; rw [if_pos rfl, if_pos rfl]; ring
    · simp [h]; ring
  rw [Finset.sum_congr rfl fun b _ => this b, Finset.sum_sub_distrib, Finset.sum_ite_eq' Finset.univ a, if_pos (Finset.mem_univ _), ← Finset.mul_sum]
  ring

end

section
variable {ext : Cell} {p : PGrid d K} {c : Cell} {tr : Trig K}

/-- Area over volume of a Cartesian cell. -/
theorem fluxDiff_cart (hG : GeoOf tr .cartesian ext p) (hd : d ≤ 3) (a : Fin d) (hc : inExt ext c = true)
    (hc' : inExt ext (nb c (ax a) 1) = true) (hx : ∀ b, p.dx b (c b) ≠ 0) (k f g : K) :
    fluxDiff (p.dirGeo .cartesian a c) (k / p.dv c) f g = k / p.dx (ax a) (c (ax a)) * (f - g) := by
  have e : (p.dirGeo .cartesian a c).dsR = (p.dirGeo .cartesian a c).dsL := hG.cartesian_ds hd a hc hc'
  have e' : (p.dirGeo .cartesian a c).dsL = p.dv c / p.dx (ax a) (c (ax a)) := by
    show p.ds c (ax a) = _
    rw [hG.ds c hc, hG.dv c hc]
    have h0 := hx 0
    have h1 := hx 1
    have h2 := hx 2
    simp only [dsFun, dvFun]
    generalize ax a = b
    fin_cases b <;> simp <;> field_simp
  have hv : p.dv c ≠ 0 := by
    rw [hG.dv c hc]
    exact mul_ne_zero (mul_ne_zero (hx 0) (hx 1)) (hx 2)
  have hxa := hx (ax a)
  unfold fluxDiff
  rw [e, e']
  field_simp

/-- The data of a fluid of uniform velocity and pressure `w` and density `rho`, in the stencil of `c`. -/
structure Carried (eos : EoS K) (w : VelPres d K) (rho : Cell → K) (U : Cell → Fields d n K) (up : Cell → VelPres d K) (c : Cell) : Prop where
  here : (U c).rho = rho c
  U : ∀ (a : Fin d) (t : ℤ), -1 ≤ t → t ≤ 1 → (U (nb c (ax a) t)).rho = rho (nb c (ax a) t)
  up : ∀ (a : Fin d) (t : ℤ), -1 ≤ t → t ≤ 1 → up (nb c (ax a) t) = w

variable {lim : Limiter} {eos : EoS K} {w : VelPres d K} {rho : Cell → K} {U : Cell → Fields d n K} {up : Cell → VelPres d K}

omit [IsStrictOrderedRing K] in
theorem reconVal_congr {v v' : Cell → K} (a : Fin d) (h0 : v c = v' c) (h : ∀ t : ℤ, -1 ≤ t → t ≤ 1 → v (nb c (ax a) t) = v' (nb c (ax a) t))
    (dx : Fin 3 → ℤ → K) (side : Fin 2) : reconVal lim dx v c side a = reconVal lim dx v' c side a := by
  have h1 := h 1 (by norm_num) (by norm_num)
  have h2 := h (-1) (by norm_num) (by norm_num)
  have e : c (ax a) - 1 = c (ax a) + (-1) := by ring
  unfold nb at h1 h2
  unfold reconVal
  rw [e, h0, h1, h2]

/-- The face states predicted at the half step are those of the linear profile, carried by the flow. -/
theorem carried_rec (hG : GeoOf tr .cartesian ext p) (hd : d ≤ 3) (hc : inExt ext c = true)
    (hc' : ∀ a : Fin d, inExt ext (nb c (ax a) 1) = true) (hx : ∀ b, p.dx b (c b) ≠ 0) (h0 : ∀ a, p.grav c a = 0)
    {e : K} (he : ∀ r, 0 < r → eos.evolFromPres r w.P = e) (h : Carried eos w rho U up c) (t : K)
    (hpos : ∀ s, s = 0 ∨ s = t → ∀ side a, 0 < profile lim p rho c (footPoint p c s w.u side a)) (side : Fin 2) (a : Fin d) :
    (recVal lim eos tr .cartesian p t U up c side a).cons = toCons eos ⟨profile lim p rho c (footPoint p c t w.u side a), w.u, w.P⟩ := by
  have hrho : ∀ s b, reconVal lim p.dx (fun c => (U c).rho) c s b = reconVal lim p.dx rho c s b := fun s b =>
    reconVal_congr b h.here (h.U b) _ s
  have hS : ∀ b, t / p.dx (ax b) (c (ax b)) * (reconVal lim p.dx rho c 0 b - reconVal lim p.dx rho c 1 b) = - (t * profSlope lim p rho c b) := by
    intro b
    unfold profSlope
    ring
  have he0 : ∀ s b, eos.evolFromPres (reconVal lim p.dx rho c s b) w.P = e := fun s b => he _ (by
    have := hpos 0 (Or.inl rfl) s b
    rwa [profile_footPoint b s (hx _), zero_mul, sub_zero] at this)
  have het := he _ (hpos t (Or.inr rfl) side a)
  rw [profile_footPoint a side (hx _)] at het ⊢
  unfold recVal
  rw [faceUP_const h.up]
  unfold hanVal facePrim faceFields
  rw [faceUP_const h.up]
  simp only [fluxDiff_cart hG hd _ hc (hc' _) hx, h0, hrho, Fields.cons, toCons, momDiff, fluxPrim, Prim.ek, he0, het, mul_zero, zero_mul, ite_self, add_zero]
  have e1 : ∑ b, t / p.dx (ax b) (c (ax b)) * (reconVal lim p.dx rho c 0 b * w.u b - reconVal lim p.dx rho c 1 b * w.u b) =
      - (t * ∑ b, w.u b * profSlope lim p rho c b) := by
    rw [Finset.mul_sum, ← Finset.sum_neg_distrib]
    exact Finset.sum_congr rfl fun b _ => by linear_combination w.u b * hS b
  have e2 : ∀ i, ∑ b, (t / p.dx (ax b) (c (ax b)) * ((Function.update (fun i => reconVal lim p.dx rho c 0 b * w.u b * w.u i) b
        (reconVal lim p.dx rho c 0 b * w.u b * w.u b + w.P)) i - (Function.update (fun i => reconVal lim p.dx rho c 1 b * w.u b * w.u i) b
        (reconVal lim p.dx rho c 1 b * w.u b * w.u b + w.P)) i)) =
      - (t * ∑ b, w.u b * profSlope lim p rho c b) * w.u i := by
    intro i
    rw [← e1, Finset.sum_mul]
    refine Finset.sum_congr rfl fun b _ => ?_
    by_cases hib : i = b
    · subst hib; simp only [Function.update_self]; ring
    · simp only [Function.update_of_ne hib]; ring
  have e3 : ∀ k : K, ∑ b, t / p.dx (ax b) (c (ax b)) * (w.u b * (reconVal lim p.dx rho c 0 b * k / 2 + e + w.P)
        - w.u b * (reconVal lim p.dx rho c 1 b * k / 2 + e + w.P)) = - (t * ∑ b, w.u b * profSlope lim p rho c b) * k / 2 := by
    intro k
    rw [← e1, Finset.sum_mul, Finset.sum_div]
    exact Finset.sum_congr rfl fun b _ => by ring
  apply Cons.ext
  · simp only [e1]; ring
  · funext i
    have := e2 i
    simp only [Function.update_apply, if_neg (show ¬ (Geom.cartesian = Geom.spherical) by decide), add_zero] at this ⊢
    rw [this]
    ring
  · simp only [e3]; ring

/-- The density of the profile, upstream of the lower face of `c` normal to `a`, at the point that reaches the centre of the face after half of
the time step. -/
def upstream (lim : Limiter) (p : PGrid d K) (v : Cell → K) (dt : K) (w : Fin d → K) (c : Cell) (a : Fin d) : K :=
  if 0 < w a then profile lim p v (nb c (ax a) (-1)) (footPoint p (nb c (ax a) (-1)) (dt / 2) w 1 a)
  else profile lim p v c (footPoint p c (dt / 2) w 0 a)

end

section
variable {g : GridData K} {grav : GravField d K} {ext : Cell} {p : PGrid d K} {ng : ℤ} {sc : RecScheds d n} {l l' : List Cell}
  (lim : Limiter) (eos : EoS K) (tr : Trig K) (dt : K) (U : Cell → Fields d n K)
  (up : Cell → VelPres d K) (upRec : Cell → Fin 2 → Fin d → VelPres d K) (rec : Cell → Fin 2 → Fin d → Fields d n K)
  (new : Cell → Fields d n K)

theorem adm_carried {eos : EoS K} (he : eos.Lawful) {q : Prim d K} (hr : 0 < q.rho) (hP : 0 < q.P) :
    (toCons eos q).Adm eos ∧ (toCons eos q).vel = q.u ∧ (toCons eos q).pressure eos = q.P := by
  have h := toPrim_toCons (d := d) he hr
  rw [toPrim_eq] at h
  have hv : (toCons eos q).vel = q.u := congrArg Prim.u h
  have hp : (toCons eos q).pressure eos = q.P := congrArg Prim.P h
  exact ⟨⟨hr, by rw [hp]; exact hP⟩, hv, hp⟩

/-- **C63, transport.** On a Cartesian mesh without gravity, with the HLLC solver and a gas whose energy per volume depends on pressure
only (perfect gas), data of uniform velocity and pressure are carried: after a whole step velocity and pressure are the same, and the density has
changed by the transport at speed `w` of the values found upstream of each face, on the linear profile, at the distance travelled in half a step. -/
theorem C63_carried (h : StepOk g grav ext p ng sc l l') (hG : GeoOf tr .cartesian ext p) (h0 : ∀ c a, p.grav c a = 0)
    (he : eos.Lawful) {w : VelPres d K} {e : K} (hev : ∀ r, 0 < r → eos.evolFromPres r w.P = e) (hP : 0 < w.P)
    (hx : ∀ c, inExt ext c = true → ∀ b, 0 < p.dx b (c b)) {rho : Cell → K} {fx : Cell → Fin n → K}
    (hU : ∀ c, inExt ext c = true → U c = uniformFields eos (rho c) w (fx c)) (hup : ∀ c, inExt ext c = true → up c = w)
    (hrho : ∀ c, inExt ext c = true → 0 < rho c)
    (hpos : ∀ c, layer d ext 1 c → ∀ t, t = 0 ∨ t = dt / 2 → ∀ side a, 0 < profile lim p rho c (footPoint p c t w.u side a)) :
    ∃ out, hydroStep lim .hllc eos tr .cartesian g grav dt sc l l' ⟨inExt ext, U⟩ ⟨inExt ext, up⟩ ⟨inExt ext, upRec⟩
        ⟨inExt ext, rec⟩ ⟨inExt ext, new⟩ = some ⟨inExt ext, out⟩ ∧
      ∀ c, layer d ext ng c → (out c).rho = rho c + ∑ a, dt / p.dx (ax a) (c (ax a)) *
          (w.u a * (upstream lim p rho dt w.u c a - upstream lim p rho dt w.u (nb c (ax a) 1) a)) ∧
        (0 < (out c).rho → (out c).cons = toCons eos ⟨(out c).rho, w.u, w.P⟩) := by
  refine ⟨_, h.step lim .hllc eos tr .cartesian dt U up upRec rec new, fun c hc => ?_⟩
  have hng := h.ghosts
  have hrec : ∀ c, layer d ext 1 c → ∀ side a, (recVal lim eos tr .cartesian p (dt / 2) U up c side a).cons =
      toCons eos ⟨profile lim p rho c (footPoint p c (dt / 2) w.u side a), w.u, w.P⟩ := by
    intro c hc side a
    have hst := layer_stencil h.dim hc le_rfl
    have hin := layer_inExt hc (by norm_num)
    refine carried_rec hG h.dim hin (fun a => hst a 1 (by norm_num) (by norm_num)) (fun b => (hx c hin b).ne') (h0 c) hev
      ⟨by rw [hU c hin]; rfl, fun a t h1 h2 => by rw [hU _ (hst a t h1 h2)]; rfl, fun a t h1 h2 => hup _ (hst a t h1 h2)⟩ _ (hpos c hc) side a
  have hin := layer_inExt hc (by omega)
  have hc1 : layer d ext 1 c := layer_mono hc (by omega)
  have hst := layer_stencil h.dim hc1 le_rfl
  have hl : ∀ a : Fin d, ∀ t : ℤ, -1 ≤ t → t ≤ 1 → layer d ext 1 (nb c (ax a) t) := fun a t h1 h2 =>
    layer_mono (layer_nb h.dim hc a h1 h2) (by omega)
  show (if layer d ext ng c then _ else _ : Fields d n K).rho = _ ∧ (0 < (if layer d ext ng c then _ else _ : Fields d n K).rho →
    (if layer d ext ng c then _ else _ : Fields d n K).cons = toCons eos ⟨(if layer d ext ng c then _ else _ : Fields d n K).rho, w.u, w.P⟩)
  rw [if_pos hc]
  unfold stepVal
  rw [hU c hin]
  have hdx : ∀ b, p.dx b (c b) ≠ 0 := fun b => (hx c hin b).ne'
  have hflux : ∀ (a : Fin d) (q q' : K), 0 < q → 0 < q' → Solver.hllc.flux eos (toCons eos ⟨q, w.u, w.P⟩) (toCons eos ⟨q', w.u, w.P⟩) a =
      fluxPrim eos ⟨if 0 < w.u a then q else q', w.u, w.P⟩ a := by
    intro a q q' hq hq'
    obtain ⟨a1, v1, p1⟩ := adm_carried (d := d) he (q := ⟨q, w.u, w.P⟩) hq hP
    obtain ⟨a2, v2, p2⟩ := adm_carried (d := d) he (q := ⟨q', w.u, w.P⟩) hq' hP
    rw [(C27_contacts he a1 a2 a (by rw [v1, v2]) (by rw [p1, p2])).1, v1]
    by_cases hw : 0 < w.u a
    · rw [if_pos hw, if_pos hw, ← fluxPrim_toPrim he a1.1, toPrim_toCons he hq]
    · rw [if_neg hw, if_neg hw, ← fluxPrim_toPrim he a2.1, toPrim_toCons he hq']
  have hfL : ∀ a, Solver.hllc.flux eos (recVal lim eos tr .cartesian p (dt / 2) U up (nb c (ax a) (-1)) 1 a).cons
      (recVal lim eos tr .cartesian p (dt / 2) U up c 0 a).cons a = fluxPrim eos ⟨upstream lim p rho dt w.u c a, w.u, w.P⟩ a := by
    intro a
    rw [hrec _ (hl a (-1) (by norm_num) (by norm_num)), hrec c hc1, hflux a _ _ (hpos _ (hl a (-1) (by norm_num) (by norm_num)) _ (Or.inr rfl) _ _) (hpos c hc1 _ (Or.inr rfl) _ _)]
    rfl
  have hfR : ∀ a, Solver.hllc.flux eos (recVal lim eos tr .cartesian p (dt / 2) U up c 1 a).cons
      (recVal lim eos tr .cartesian p (dt / 2) U up (nb c (ax a) 1) 0 a).cons a =
        fluxPrim eos ⟨upstream lim p rho dt w.u (nb c (ax a) 1) a, w.u, w.P⟩ a := by
    intro a
    rw [hrec _ (hl a 1 (by norm_num) (by norm_num)), hrec c hc1, hflux a _ _ (hpos c hc1 _ (Or.inr rfl) _ _) (hpos _ (hl a 1 (by norm_num) (by norm_num)) _ (Or.inr rfl) _ _)]
    have : nb (nb c (ax a) 1) (ax a) (-1) = c := by
      unfold nb
      simp
    unfold upstream
    rw [this]
  have hup0 : ∀ a, 0 < upstream lim p rho dt w.u c a := fun a => by
    unfold upstream
    split
    · exact hpos _ (hl a (-1) (by norm_num) (by norm_num)) _ (Or.inr rfl) _ _
    · exact hpos c hc1 _ (Or.inr rfl) _ _
  have hup1 : ∀ a, 0 < upstream lim p rho dt w.u (nb c (ax a) 1) a := fun a => by
    unfold upstream
    rw [show nb (nb c (ax a) 1) (ax a) (-1) = c by unfold nb; simp]
    split
    · exact hpos c hc1 _ (Or.inr rfl) _ _
    · exact hpos _ (hl a 1 (by norm_num) (by norm_num)) _ (Or.inr rfl) _ _
  unfold godVal
  simp only [hfL, hfR]
  simp only [fluxDiff_cart hG h.dim _ hin (hst _ 1 (by norm_num) (by norm_num)) hdx, h0, Fields.cons, uniformFields, toCons, momDiff, fluxPrim, Prim.ek,
    hev _ (hup0 _), hev _ (hup1 _), hev _ (hrho c hin), mul_zero, zero_mul, ite_self, add_zero, if_neg (show ¬ (Geom.cartesian = Geom.spherical) by decide)]
  have e1 : ∀ A B : Fin d → K, ∑ a, dt / p.dx (ax a) (c (ax a)) * (w.u a * (A a - B a)) = ∑ a, dt / p.dx (ax a) (c (ax a)) * (A a * w.u a - B a * w.u a) := fun A B =>
    Finset.sum_congr rfl fun a _ => by ring
  have e2 : ∀ (A B : Fin d → K) i, ∑ b, (dt / p.dx (ax b) (c (ax b)) * ((Function.update (fun i => A b * w.u b * w.u i) b (A b * w.u b * w.u b + w.P)) i
        - (Function.update (fun i => B b * w.u b * w.u i) b (B b * w.u b * w.u b + w.P)) i)) =
      (∑ a, dt / p.dx (ax a) (c (ax a)) * (A a * w.u a - B a * w.u a)) * w.u i := by
    intro A B i
    rw [Finset.sum_mul]
    refine Finset.sum_congr rfl fun b _ => ?_
    by_cases hib : i = b
    · subst hib; simp only [Function.update_self]; ring
    · simp only [Function.update_of_ne hib]; ring
  have e3 : ∀ (A B : Fin d → K) (k : K), ∑ b, dt / p.dx (ax b) (c (ax b)) * (w.u b * (A b * k / 2 + e + w.P) - w.u b * (B b * k / 2 + e + w.P)) =
      (∑ a, dt / p.dx (ax a) (c (ax a)) * (A a * w.u a - B a * w.u a)) * k / 2 := by
    intro A B k
    rw [Finset.sum_mul, Finset.sum_div]
    exact Finset.sum_congr rfl fun b _ => by ring
  refine ⟨congrArg (rho c + ·) (e1 _ _).symm, fun hnew => ?_⟩
  rw [hev _ hnew]
  apply Cons.ext
  · rfl
  · funext i
    have := e2 (fun a => upstream lim p rho dt w.u c a) (fun a => upstream lim p rho dt w.u (nb c (ax a) 1) a) i
    dsimp only at this ⊢
    rw [this]
    ring
  · have := e3 (fun a => upstream lim p rho dt w.u c a) (fun a => upstream lim p rho dt w.u (nb c (ax a) 1) a) (∑ i, w.u i * w.u i)
    dsimp only at this ⊢
    rw [this]
    ring

/-- **C63, scalars.** In a uniform flow the mass fractions are carried in the same way, for every solver and equation of state (the result is
clamped to `[0, 1]`). -/
theorem C63_scalars_carried (sol : Solver) (h : StepOk g grav ext p ng sc l l') (hG : GeoOf tr .cartesian ext p) (h0 : ∀ c a, p.grav c a = 0)
    (he : eos.Lawful) {w : VelPres d K} (hP : 0 < w.P) (hx : ∀ c, inExt ext c = true → ∀ b, 0 < p.dx b (c b)) {rho : K} (hr : 0 < rho)
    {fx : Cell → Fin n → K} (hU : ∀ c, inExt ext c = true → U c = uniformFields eos rho w (fx c)) (hup : ∀ c, inExt ext c = true → up c = w) :
    ∃ out, hydroStep lim sol eos tr .cartesian g grav dt sc l l' ⟨inExt ext, U⟩ ⟨inExt ext, up⟩ ⟨inExt ext, upRec⟩
        ⟨inExt ext, rec⟩ ⟨inExt ext, new⟩ = some ⟨inExt ext, out⟩ ∧
      ∀ c, layer d ext ng c → ∀ i, (out c).fx i = clamp (fx c i + ∑ a, dt / p.dx (ax a) (c (ax a)) *
        (w.u a * (upstream lim p (fun c => fx c i) dt w.u c a - upstream lim p (fun c => fx c i) dt w.u (nb c (ax a) 1) a))) 0 1 := by
  refine ⟨_, h.step lim sol eos tr .cartesian dt U up upRec rec new, fun c hc i => ?_⟩
  have hng := h.ghosts
  have hrec : ∀ c, layer d ext 1 c → ∀ side a, (recVal lim eos tr .cartesian p (dt / 2) U up c side a).cons = toCons eos ⟨rho, w.u, w.P⟩ ∧
      (recVal lim eos tr .cartesian p (dt / 2) U up c side a).fx i = profile lim p (fun c => fx c i) c (footPoint p c (dt / 2) w.u side a) := by
    intro c hc side a
    have hst := layer_stencil h.dim hc le_rfl
    have hin := layer_inExt hc (by norm_num)
    have hdx : ∀ b, p.dx b (c b) ≠ 0 := fun b => (hx c hin b).ne'
    have hrho : ∀ s b, reconVal lim p.dx (fun c => (U c).rho) c s b = rho := fun s b =>
      reconVal_const lim p.dx b (v := fun c => (U c).rho) (fun t h1 h2 => by rw [hU _ (hst b t h1 h2)]; rfl) s
    have hfx : ∀ s b, reconVal lim p.dx (fun c => (U c).fx i) c s b = reconVal lim p.dx (fun c => fx c i) c s b := fun s b =>
      reconVal_congr b (by rw [hU _ hin]; rfl) (fun t h1 h2 => by rw [hU _ (hst b t h1 h2)]; rfl) _ s
    have hup' : ∀ (a : Fin d) (t : ℤ), -1 ≤ t → t ≤ 1 → up (nb c (ax a) t) = w := fun a t h1 h2 => hup _ (hst a t h1 h2)
    unfold recVal
    rw [faceUP_const hup']
    unfold hanVal facePrim faceFields
    rw [faceUP_const hup']
    simp only [fluxDiff_cart hG h.dim _ hin (hst _ 1 (by norm_num) (by norm_num)) hdx, h0, hrho, hfx, momDiff, sub_self, mul_zero, zero_mul, ite_self, add_zero,
      Finset.sum_const_zero, Fields.cons, toCons, if_neg (show ¬ (Geom.cartesian = Geom.spherical) by decide), true_and]
    rw [profile_footPoint a side (hdx _), div_eq_iff hr.ne', sub_mul, Finset.mul_sum, Finset.sum_mul, sub_eq_add_neg, ← Finset.sum_neg_distrib]
    congr 1
    refine Finset.sum_congr rfl fun b _ => ?_
    simp only [fluxPrim, profSlope]
    ring
  have hin := layer_inExt hc (by omega)
  have hc1 : layer d ext 1 c := layer_mono hc (by omega)
  have hst := layer_stencil h.dim hc1 le_rfl
  have hl : ∀ a : Fin d, ∀ t : ℤ, -1 ≤ t → t ≤ 1 → layer d ext 1 (nb c (ax a) t) := fun a t h1 h2 =>
    layer_mono (layer_nb h.dim hc a h1 h2) (by omega)
  have hdx : ∀ b, p.dx b (c b) ≠ 0 := fun b => (hx c hin b).ne'
  show (if layer d ext ng c then _ else _ : Fields d n K).fx i = _
  rw [if_pos hc]
  unfold stepVal
  rw [hU c hin]
  obtain ⟨a1, v1, p1⟩ := adm_carried (d := d) he (q := ⟨rho, w.u, w.P⟩) hr hP
  have hflux : ∀ a : Fin d, (sol.flux eos (toCons eos ⟨rho, w.u, w.P⟩) (toCons eos ⟨rho, w.u, w.P⟩) a).rho = rho * w.u a := fun a => by
    rw [C24_consistency sol he a1 a]
    rfl
  have hfL : ∀ a, (sol.flux eos (recVal lim eos tr .cartesian p (dt / 2) U up (nb c (ax a) (-1)) 1 a).cons
      (recVal lim eos tr .cartesian p (dt / 2) U up c 0 a).cons a).rho = rho * w.u a := by
    intro a
    rw [(hrec _ (hl a (-1) (by norm_num) (by norm_num)) _ _).1, (hrec c hc1 _ _).1, hflux]
  have hfR : ∀ a, (sol.flux eos (recVal lim eos tr .cartesian p (dt / 2) U up c 1 a).cons
      (recVal lim eos tr .cartesian p (dt / 2) U up (nb c (ax a) 1) 0 a).cons a).rho = rho * w.u a := by
    intro a
    rw [(hrec _ (hl a 1 (by norm_num) (by norm_num)) _ _).1, (hrec c hc1 _ _).1, hflux]
  unfold godVal
  simp only [hfL, hfR]
  simp only [fluxDiff_cart hG h.dim _ hin (hst _ 1 (by norm_num) (by norm_num)) hdx, sub_self, mul_zero, Finset.sum_const_zero, add_zero]
  congr 1
  show (fx c i * rho + _) / rho = _
  rw [div_eq_iff hr.ne', add_mul, Finset.sum_mul]
  congr 1
  refine Finset.sum_congr rfl fun a _ => ?_
  have hback : nb (nb c (ax a) 1) (ax a) (-1) = c := by unfold nb; simp
  unfold upstream
  rw [(hrec _ (hl a (-1) (by norm_num) (by norm_num)) _ _).2, (hrec c hc1 _ _).2, (hrec c hc1 _ _).2,
    (hrec _ (hl a 1 (by norm_num) (by norm_num)) _ _).2, hback]
  rcases lt_trichotomy (w.u a) 0 with hw | hw | hw
  · have : rho * w.u a < 0 := mul_neg_of_pos_of_neg hr hw
    rw [if_pos this, if_pos this, if_neg hw.not_gt, if_neg hw.not_gt]
    ring
  · rw [hw]; ring
  · have : ¬ rho * w.u a < 0 := (mul_pos hr hw).le.not_gt
    rw [if_neg this, if_neg this, if_pos hw, if_pos hw]
    ring

end

/-! ### One dimension: the profile is moved exactly -/

theorem integral_line (v s A B : ℝ) : ∫ y in A..B, (v + s * y) = (B - A) * (v + s * ((A + B) / 2)) := by
  rw [intervalIntegral.integral_add (Continuous.intervalIntegrable (by fun_prop) _ _) (Continuous.intervalIntegrable (by fun_prop) _ _), intervalIntegral.integral_const, intervalIntegral.integral_const_mul, integral_id]
  simp only [smul_eq_mul]
  ring

/-- **C63, one dimension.** The new content of a cell is the exact integral of the piecewise linear profile over the segment that the flow brings
into the cell: what was in the upstream cell within a distance `|w| dt` of the common face, and what was in the cell itself and does not leave. -/
theorem C63_exact_1d (lim : Limiter) (p : PGrid 1 ℝ) (v : Cell → ℝ) (dt : ℝ) (w : Fin 1 → ℝ) (c : Cell) (hx : p.dx 0 (c 0) ≠ 0) :
    let dx := p.dx 0 (c 0)
    let new := v c + ∑ a, dt / p.dx (ax a) (c (ax a)) * (w a * (upstream lim p v dt w c a - upstream lim p v dt w (nb c (ax a) 1) a))
    (0 < w 0 → new * dx =
      (∫ y in (p.dx 0 (c 0 - 1) / 2 - w 0 * dt)..(p.dx 0 (c 0 - 1) / 2), profile lim p v (nb c 0 (-1)) fun _ => y) +
      ∫ y in (- (dx / 2))..(dx / 2 - w 0 * dt), profile lim p v c fun _ => y) ∧
    (w 0 < 0 → new * dx =
      (∫ y in (- (dx / 2) - w 0 * dt)..(dx / 2), profile lim p v c fun _ => y) +
      ∫ y in (- (p.dx 0 (c 0 + 1) / 2))..(- (p.dx 0 (c 0 + 1) / 2) - w 0 * dt), profile lim p v (nb c 0 1) fun _ => y) := by
  have e0 : ax (0 : Fin 1) = 0 := rfl
  have n1 : nb c 0 (-1) 0 = c 0 - 1 := by rw [nb_self]; ring
  have n2 : nb c 0 1 0 = c 0 + 1 := by rw [nb_self]
  have n3 : nb (nb c 0 1) 0 (-1) = c := by unfold nb; simp
  refine ⟨fun hw => ?_, fun hw => ?_⟩
  · simp only [profile, integral_line, Fin.sum_univ_one, Finset.univ_unique, Fin.default_eq_zero, Finset.sum_singleton, upstream, if_pos hw, footPoint,
      e0, n1, n3, if_true, if_neg (show ¬ ((1 : Fin 2) = 0) by decide)]
    field_simp
    ring
  · simp only [profile, integral_line, Fin.sum_univ_one, Finset.univ_unique, Fin.default_eq_zero, Finset.sum_singleton, upstream, if_neg hw.not_gt, footPoint,
      e0, n2, if_true]
    field_simp
    ring

/-- The perfect gas meets the hypothesis of `C63_carried` on the equation of state: its energy per volume is `P / (gamma - 1)`. -/
theorem perfectGas_evol {g : Gas} (hg : g.Physical) (P : ℝ) {r : ℝ} (hr : 0 < r) : (PerfectGas.toEoS g).evolFromPres r P = P / g.gammaM1 := by
  have h1 := kB_pos.ne'
  have h2 := mP_pos.ne'
  have h3 := hg.mmw.ne'
  have h4 := hr.ne'
  simp only [PerfectGas.toEoS, PerfectGas.evolFromPres, PerfectGas.evolFromTemp, PerfectGas.tempFromPres]
  field_simp

/-! ### Examples -/

/-- A density that varies along both axes. -/
noncomputable def rampRho (c : Cell) : ℝ := 10 + c 0 - c 1 / 2

theorem ramp_profile {lim : Limiter} (hl : lim ≠ .constant) (c : Cell) (y : Fin 2 → ℝ) :
    profile lim (demoGrid 2 0) rampRho c y = 10 + c 0 - c 1 / 2 + y 0 - y 1 / 2 := by
  have h0 : profSlope lim (demoGrid (K := ℝ) 2 0) rampRho c 0 = 1 := by
    have := C22_exact_on_linear_data hl (rampRho (Function.update c 0 (c 0 - 1))) (rampRho c) (rampRho (Function.update c 0 (c 0 + 1))) 1 one_pos one_pos one_pos
      (by simp [rampRho]) (by simp [rampRho])
    show (reconFace lim 1 1 1 _ _ _ 1 - reconFace lim 1 1 1 _ _ _ 0) / 1 = _
    rw [show ax (0 : Fin 2) = 0 from rfl, this.1, this.2]
    norm_num
  have h1 : profSlope lim (demoGrid (K := ℝ) 2 0) rampRho c 1 = - (1 / 2) := by
    have := C22_exact_on_linear_data hl (rampRho (Function.update c 1 (c 1 - 1))) (rampRho c) (rampRho (Function.update c 1 (c 1 + 1))) (- (1 / 2)) one_pos one_pos
      one_pos (by simp [rampRho]; ring) (by simp [rampRho]; ring)
    show (reconFace lim 1 1 1 _ _ _ 1 - reconFace lim 1 1 1 _ _ _ 0) / 1 = _
    rw [show ax (1 : Fin 2) = 1 from rfl, this.1, this.2]
    norm_num
  rw [profile, Fin.sum_univ_two, h0, h1, rampRho]
  ring

/-- C63: a density ramp in a uniform wind oblique to the mesh, perfect gas, every limiter with slopes. The hypotheses hold, and the new density is the
old one moved by the wind: `rho - dt (w · ∇ rho)`. -/
example {lim : Limiter} (hl : lim ≠ .constant) (tr : Trig ℝ) (new : Cell → Fields 2 1 ℝ) (rec : Cell → Fin 2 → Fin 2 → Fields 2 1 ℝ) :
    ∃ out, hydroStep lim .hllc (PerfectGas.toEoS ⟨2, 2 - 1, 1⟩) tr .cartesian (gridOf (demoExt 2) (demoGrid 2 0))
        (fun c a => some ((demoGrid (K := ℝ) 2 0).grav c a)) (1 / 10) (RecScheds.box (nghostOf 2 1) (fun a => demoExt 2 a - nghostOf 2 1 a))
        (boxList (nghostOf 2 2) (fun a => demoExt 2 a - nghostOf 2 2 a)) (boxList (nghostOf 2 2) (fun a => demoExt 2 a - nghostOf 2 2 a))
        ⟨inExt (demoExt 2), fun c => uniformFields (PerfectGas.toEoS ⟨2, 2 - 1, 1⟩) (rampRho c) ⟨![1, -2], 5⟩ fun _ => 1 / 2⟩
        ⟨inExt (demoExt 2), fun _ => ⟨![1, -2], 5⟩⟩ ⟨inExt (demoExt 2), fun _ _ _ => ⟨0, 0⟩⟩ ⟨inExt (demoExt 2), rec⟩ ⟨inExt (demoExt 2), new⟩ =
          some ⟨inExt (demoExt 2), out⟩ ∧
      ∀ c, layer 2 (demoExt 2) 2 c → (out c).cons = toCons (PerfectGas.toEoS ⟨2, 2 - 1, 1⟩) ⟨rampRho c - 1 / 5, ![1, -2], 5⟩ := by
  have hrho : ∀ c, (∀ a, 0 ≤ c a ∧ c a < demoExt 2 a) → 5 < rampRho c := by
    intro c hc
    have h0 := (hc 0).1
    have h1 := (hc 1).2
    simp [demoExt, nghostOf] at h1
    have e0 : (0 : ℝ) ≤ c 0 := by exact_mod_cast h0
    have e1 : (c 1 : ℝ) ≤ 7 := by exact_mod_cast (show c 1 ≤ 7 by omega)
    unfold rampRho
    linarith
  obtain ⟨out, h1, h2⟩ := C63_carried (d := 2) (n := 1) (ext := demoExt 2) lim (PerfectGas.toEoS ⟨2, 2 - 1, 1⟩) tr (1 / 10) _ _ (fun _ _ _ => ⟨0, 0⟩) rec new
    (demo_stepOk (by norm_num) 0) (demoGrid_geo tr 0) (fun _ _ => rfl) (PerfectGas.lawful sampleGas_physical) (w := ⟨![1, -2], 5⟩) (e := 5)
    (fun r hr => by rw [perfectGas_evol sampleGas_physical 5 hr]; norm_num)
    (by norm_num) (fun _ _ _ => one_pos) (rho := rampRho) (fx := fun _ _ => 1 / 2) (fun _ _ => rfl) (fun _ _ => rfl)
    (fun c hc => by linarith [hrho c (inExt_iff.1 hc)])
    (fun c hc t ht side a => by
      rw [ramp_profile hl]
      have h0 := hc 0
      have h1 := hc 1
      simp [demoExt, nghostOf] at h0 h1
      have e0 : (1 : ℝ) ≤ c 0 := by exact_mod_cast h0.1
      have e1 : (c 1 : ℝ) ≤ 6 := by exact_mod_cast (show c 1 ≤ 6 by omega)
      have ht0 : 0 ≤ t ∧ t ≤ 1 / 20 := by rcases ht with rfl | rfl <;> norm_num
      unfold footPoint
      fin_cases side <;> fin_cases a <;> simp [demoGrid] <;> linarith)
  refine ⟨out, h1, fun c hc => ?_⟩
  obtain ⟨q1, q2⟩ := h2 c hc
  have q : (out c).rho = rampRho c - 1 / 5 := by
    rw [q1]
    simp only [Fin.sum_univ_two, upstream, ramp_profile hl, footPoint, rampRho, show ax (0 : Fin 2) = 0 from rfl, show ax (1 : Fin 2) = 1 from rfl]
    simp [demoGrid, nb]
    norm_num
    ring
  rw [q] at q2
  refine q2 ?_
  have := hrho c (inExt_iff.1 (layer_inExt hc (by norm_num)))
  linarith

/-- C63: a mass fraction that varies in a uniform oblique wind. -/
example (lim : Limiter) (sol : Solver) (tr : Trig ℝ) (new : Cell → Fields 2 1 ℝ) (rec : Cell → Fin 2 → Fin 2 → Fields 2 1 ℝ) :=
  C63_scalars_carried (d := 2) (n := 1) (ext := demoExt 2) lim (PerfectGas.toEoS ⟨2, 2 - 1, 1⟩) tr (1 / 10)
    (fun c => uniformFields (PerfectGas.toEoS ⟨2, 2 - 1, 1⟩) 3 ⟨![1, -2], 5⟩ fun _ => rampRho c / 20) (fun _ => ⟨![1, -2], 5⟩) (fun _ _ _ => ⟨0, 0⟩) rec new sol
    (demo_stepOk (by norm_num) 0) (demoGrid_geo tr 0) (fun _ _ => rfl) (PerfectGas.lawful sampleGas_physical) (w := ⟨![1, -2], 5⟩) (by norm_num)
    (fun _ _ _ => one_pos) (rho := 3) (by norm_num) (fun _ _ => rfl) (fun _ _ => rfl)

/-- C63: one cell of width 1, wind to the right; both segments have positive length. -/
example (lim : Limiter) (v : Cell → ℝ) := (C63_exact_1d lim (demoGrid 1 0) v (1 / 4) (fun _ => 2) 3 one_ne_zero).1 two_pos

end Heracles

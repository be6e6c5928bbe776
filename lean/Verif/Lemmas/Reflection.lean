import Verif.Lemmas.Symmetry

/-! Lemmas on a reversed axis. -/

namespace Heracles

variable {d n : ℕ} {K : Type}

theorem Fields.flip_rhou [Neg K] (b : Fin d) (f : Fields d n K) (i : Fin d) : (f.flip b).rhou i = if i = b then -f.rhou i else f.rhou i := by
  unfold Fields.flip
  by_cases h : i = b
  · subst h; simp
  · simp [h]

section Flip
variable [Field K] (b : Fin d)

theorem Fields.flip_cons (f : Fields d n K) : (f.flip b).cons = f.cons.mirror b := by
  apply Cons.ext
  · rfl
  · funext i; exact f.flip_rhou b i
  · rfl

theorem Cons.mirror_ek (c : Cons d K) : (c.mirror b).ek = c.ek := by
  unfold Cons.ek Cons.mirror
  have : ∀ i, (if i = b then -c.rhou i else c.rhou i) * (if i = b then -c.rhou i else c.rhou i) = c.rhou i * c.rhou i := fun i => by split_ifs <;> ring
  simp only [this]

theorem Prim.flip_ek (p : Prim d K) : (p.flip b).ek = p.ek := by
  unfold Prim.ek Prim.flip
  have : ∀ i, (if i = b then -p.u i else p.u i) * (if i = b then -p.u i else p.u i) = p.u i * p.u i := fun i => by split_ifs <;> ring
  simp only [this]

theorem toPrim_flip (eos : EoS K) (c : Cons d K) : toPrim eos (c.mirror b) = (toPrim eos c).flip b := by
  unfold toPrim Cons.evol
  rw [Cons.mirror_ek]
  apply Prim.ext
  · rfl
  · funext i
    simp only [Cons.mirror, Prim.flip]
    split_ifs <;> ring
  · rfl

theorem toCons_flip (eos : EoS K) (p : Prim d K) : toCons eos (p.flip b) = (toCons eos p).mirror b := by
  unfold toCons
  rw [Prim.flip_ek]
  apply Cons.ext
  · rfl
  · funext i
    simp only [Cons.mirror, Prim.flip]
    split_ifs <;> ring
  · rfl

theorem fluxPrim_flip (eos : EoS K) (p : Prim d K) {a : Fin d} (h : a ≠ b) : fluxPrim eos (p.flip b) a = (fluxPrim eos p a).flip b := by
  unfold fluxPrim
  rw [Prim.flip_ek]
  have e : (p.flip b).u a = p.u a := by simp [Prim.flip, h]
  apply Flux.ext
  · simp only [e]; rfl
  · funext i
    by_cases hi : i = b
    · subst hi
      simp only [Flux.flip, Prim.flip, if_true, Function.update_of_ne (Ne.symm h), h, if_false]
      ring
    · by_cases hia : i = a
      · subst hia; simp [Flux.flip, Prim.flip, hi]
      · simp [Flux.flip, Prim.flip, hi, hia, h]
  · simp only [e]; rfl

theorem fluxPrim_mirror (eos : EoS K) (p : Prim d K) : fluxPrim eos (p.flip b) b = (fluxPrim eos p b).mirror b := by
  unfold fluxPrim
  rw [Prim.flip_ek]
  have e : (p.flip b).u b = -p.u b := by simp [Prim.flip]
  have e1 : (p.flip b).rho = p.rho := rfl
  have e2 : (p.flip b).P = p.P := rfl
  apply Flux.ext
  · simp only [e, e1, Flux.mirror]; ring
  · funext i
    by_cases hi : i = b
    · subst hi
      simp only [Flux.mirror, if_true, Function.update_self, e, e1, e2]
      ring
    · simp only [Flux.mirror, if_neg hi, Function.update_of_ne hi, e, e1, Prim.flip, if_true]
      ring
  · simp only [e, e1, e2, Flux.mirror]; ring

variable [LinearOrder K]

theorem flux_flip (s : Solver) (eos : EoS K) (cL cR : Cons d K) {a : Fin d} (h : a ≠ b) :
    s.flux eos (cL.mirror b) (cR.mirror b) a = (s.flux eos cL cR a).flip b := by
  have eu : ∀ p : Prim d K, (p.flip b).u a = p.u a := fun p => by simp [Prim.flip, h]
  have er : ∀ p : Prim d K, (p.flip b).rho = p.rho := fun _ => rfl
  have eP : ∀ p : Prim d K, (p.flip b).P = p.P := fun _ => rfl
  have em : ∀ c : Cons d K, (c.mirror b).rhou a = c.rhou a := fun c => by simp [Cons.mirror, h]
  have eL : ∀ pL pR : Prim d K, waveL eos (pL.flip b) (pR.flip b) a = waveL eos pL pR a := fun pL pR => by simp only [waveL, eu, er, eP]
  have eR : ∀ pL pR : Prim d K, waveR eos (pL.flip b) (pR.flip b) a = waveR eos pL pR a := fun pL pR => by simp only [waveR, eu, er, eP]
  have hba : b ≠ a := Ne.symm h
  cases s with
  | hll =>
    change hllFlux eos _ _ _ = (hllFlux eos _ _ _).flip b
    unfold hllFlux
    simp only [toPrim_flip, eL, eR, fluxPrim_flip b eos _ h]
    apply Flux.ext
    · rfl
    · funext i
      simp only [Flux.flip, Cons.mirror, fluxHll]
      split_ifs <;> ring
    · rfl
  | hllc =>
    change hllcFlux eos _ _ _ = (hllcFlux eos _ _ _).flip b
    have hu : ∀ (pL pR : Prim d K) wL wR, hllcUstar (pL.flip b) (pR.flip b) a wL wR = hllcUstar pL pR a wL wR := fun pL pR wL wR => by
      simp only [hllcUstar, eu, er, eP]
    have hp : ∀ (pL pR : Prim d K) wL wR, hllcPstar (pL.flip b) (pR.flip b) a wL wR = hllcPstar pL pR a wL wR := fun pL pR wL wR => by
      simp only [hllcPstar, hu, eu, er, eP]
    have hs : ∀ (c : Cons d K) (p : Prim d K) (f : Flux d K) S us ps, hllcStar (c.mirror b) (p.flip b) (f.flip b) a S us ps = (hllcStar c p f a S us ps).flip b := by
      intro c p f S us ps
      unfold hllcStar
      simp only [eu]
      apply Flux.ext
      · rfl
      · funext i
        by_cases hi : i = b
        · subst hi
          simp only [Flux.flip, Prim.flip, Cons.mirror, if_true, Function.update_of_ne hba]
          ring
        · by_cases hia : i = a
          · subst hia; simp [Flux.flip, Cons.mirror, hi]
          · simp [Flux.flip, Prim.flip, Cons.mirror, hi, hia]
      · rfl
    unfold hllcFlux
    simp only [toPrim_flip, eL, eR, fluxPrim_flip b eos _ h, hu, hp]
    by_cases h : hllcUstar (toPrim eos cL) (toPrim eos cR) a (waveL eos (toPrim eos cL) (toPrim eos cR) a) (waveR eos (toPrim eos cL) (toPrim eos cR) a) > 0
    · simp only [if_pos h, hs]
      split_ifs <;> rfl
    · simp only [if_neg h, hs]
      split_ifs <;> rfl
  | splitting =>
    change splittingFlux eos _ _ _ = (splittingFlux eos _ _ _).flip b
    unfold splittingFlux
    simp only [toPrim_flip, eu, er, eP]
    by_cases h : ((toPrim eos cL).u a + (toPrim eos cR).u a) / 2 -
        1 / (2 * (11 / 10 * max ((toPrim eos cL).rho * eos.sound (toPrim eos cL).rho (toPrim eos cL).P)
          ((toPrim eos cR).rho * eos.sound (toPrim eos cR).rho (toPrim eos cR).P))) * ((toPrim eos cR).P - (toPrim eos cL).P) > 0
    · simp only [if_pos h, em]
      apply Flux.ext
      · rfl
      · funext i
        by_cases hi : i = b
        · subst hi; simp [Flux.flip, Cons.mirror, hba]
        · by_cases hia : i = a
          · subst hia; simp [Flux.flip, hba.symm]
          · simp [Flux.flip, Cons.mirror, hi, hia]
      · rfl
    · simp only [if_neg h, em]
      apply Flux.ext
      · rfl
      · funext i
        by_cases hi : i = b
        · subst hi; simp [Flux.flip, Cons.mirror, hba]
        · by_cases hia : i = a
          · subst hia; simp [Flux.flip, hba.symm]
          · simp [Flux.flip, Cons.mirror, hi, hia]
      · rfl

/-- Exchanging the two states and reversing the velocity along `a` gives the mirrored flux. HLL and the low-Mach solver do so for any two states,
HLLC for states of positive density and pressure. -/
theorem solver_mirror [IsStrictOrderedRing K] (s : Solver) {eos : EoS K} (he : eos.Lawful) {cL cR : Cons d K}
    (hL : s = .hllc → cL.Adm eos) (hR : s = .hllc → cR.Adm eos) (a : Fin d) :
    s.flux eos (cR.mirror a) (cL.mirror a) a = (s.flux eos cL cR a).mirror a := by
  cases s with
  | hll =>
    have hwL : waveL eos ((toPrim eos cR).flip a) ((toPrim eos cL).flip a) a = -waveR eos (toPrim eos cL) (toPrim eos cR) a := by
      unfold waveL waveR
      rw [← min_neg_neg, min_comm]
      simp only [Prim.flip, if_true, neg_add']
    have hwR : waveR eos ((toPrim eos cR).flip a) ((toPrim eos cL).flip a) a = -waveL eos (toPrim eos cL) (toPrim eos cR) a := by
      unfold waveL waveR
      rw [← max_neg_neg, max_comm]
      simp only [Prim.flip, if_true, neg_sub, neg_add_eq_sub]
    show hllFlux eos (cR.mirror a) (cL.mirror a) a = (hllFlux eos cL cR a).mirror a
    unfold hllFlux
    simp only [toPrim_flip, hwL, hwR, fluxPrim_mirror]
    have m1 : min (-waveR eos (toPrim eos cL) (toPrim eos cR) a) 0 = -max (waveR eos (toPrim eos cL) (toPrim eos cR) a) 0 := by
      rw [← min_neg_neg, neg_zero]
    have m2 : max (-waveL eos (toPrim eos cL) (toPrim eos cR) a) 0 = -min (waveL eos (toPrim eos cL) (toPrim eos cR) a) 0 := by
      rw [← max_neg_neg, neg_zero]
    rw [m1, m2]
    generalize min (waveL eos (toPrim eos cL) (toPrim eos cR) a) 0 = x
    generalize max (waveR eos (toPrim eos cL) (toPrim eos cR) a) 0 = y
    have e : -x - -y = y - x := by ring
    have h1 : ∀ U U' F F', fluxHll U U' (-F) (-F') (-y) (-x) = -fluxHll U' U F' F x y := by
      intro U U' F F'; simp only [fluxHll, e]; rw [← neg_div]; congr 1; ring
    have h2 : ∀ U U' F F', fluxHll (-U) (-U') F F' (-y) (-x) = fluxHll U' U F' F x y := by
      intro U U' F F'; simp only [fluxHll, e]; congr 1; ring
    apply Flux.ext
    · exact h1 _ _ _ _
    · funext i
      simp only [Flux.mirror, Cons.mirror]
      split_ifs
      · exact h2 _ _ _ _
      · exact h1 _ _ _ _
    · exact h1 _ _ _ _
  | hllc => exact C26_mirror_symmetry .hllc he (hL rfl) (hR rfl) a
  | splitting =>
    show splittingFlux eos (cR.mirror a) (cL.mirror a) a = (splittingFlux eos cL cR a).mirror a
    have rr : ∀ c : Cons d K, (c.mirror a).rho = c.rho := fun c => rfl
    simp only [splittingFlux, toPrim_eq, Cons.mirror_vel, Cons.mirror_pressure, if_pos, rr]
    rw [max_comm (cR.rho * _), min_comm (eos.sound cR.rho _)]
    generalize max (cL.rho * eos.sound cL.rho (cL.pressure eos)) (cR.rho * eos.sound cR.rho (cR.pressure eos)) = m
    generalize min (eos.sound cL.rho (cL.pressure eos)) (eos.sound cR.rho (cR.pressure eos)) = n
    have eu : (-cR.vel a + -cL.vel a) / 2 - 1 / (2 * (11 / 10 * m)) * (cL.pressure eos - cR.pressure eos) =
        -((cL.vel a + cR.vel a) / 2 - 1 / (2 * (11 / 10 * m)) * (cR.pressure eos - cL.pressure eos)) := by ring
    rw [eu]
    generalize (cL.vel a + cR.vel a) / 2 - 1 / (2 * (11 / 10 * m)) * (cR.pressure eos - cL.pressure eos) = us
    rw [abs_neg]
    have ep : (cR.pressure eos + cL.pressure eos) / 2 - min 1 (|us| / n) * (11 / 10 * m) / 2 * (-cL.vel a - -cR.vel a) =
        (cL.pressure eos + cR.pressure eos) / 2 - min 1 (|us| / n) * (11 / 10 * m) / 2 * (cR.vel a - cL.vel a) := by ring
    rw [ep]
    generalize (cL.pressure eos + cR.pressure eos) / 2 - min 1 (|us| / n) * (11 / 10 * m) / 2 * (cR.vel a - cL.vel a) = ps
    rcases lt_trichotomy us 0 with h | h | h
    · rw [if_pos (by linarith : -us > 0), if_neg (by linarith : ¬ us > 0)]
      apply Flux.ext
      · simp [Flux.mirror, Cons.mirror]
      · funext i
        by_cases hi : i = a
        · subst hi; simp [Flux.mirror, Cons.mirror]
        · simp [Flux.mirror, Cons.mirror, Function.update_apply, hi]
      · simp [Flux.mirror, Cons.mirror]; ring
    · subst h
      apply Flux.ext
      · simp [Flux.mirror]
      · funext i
        by_cases hi : i = a
        · subst hi; simp [Flux.mirror]
        · simp [Flux.mirror, Function.update_apply, hi]
      · simp [Flux.mirror]
    · rw [if_neg (by linarith : ¬ -us > 0), if_pos (by linarith : us > 0)]
      apply Flux.ext
      · simp [Flux.mirror, Cons.mirror]
      · funext i
        by_cases hi : i = a
        · subst hi; simp [Flux.mirror, Cons.mirror]
        · simp [Flux.mirror, Cons.mirror, Function.update_apply, hi]
      · simp [Flux.mirror, Cons.mirror]; ring

end Flip

section Step
variable [Field K] [LinearOrder K] [IsStrictOrderedRing K]

theorem reconFace_smul (lim : Limiter) (k dlm dl dlp vm v vp : K) (side : Fin 2) :
    reconFace lim dlm dl dlp (k * vm) (k * v) (k * vp) side = k * reconFace lim dlm dl dlp vm v vp side := by
  unfold reconFace
  have e1 : (k * vp - k * v) / ((dl + dlp) / 2) = k * ((vp - v) / ((dl + dlp) / 2)) := by ring
  have e2 : (k * v - k * vm) / ((dlm + dl) / 2) = k * ((v - vm) / ((dlm + dl) / 2)) := by ring
  simp only [e1, e2, Limiter.slope_smul]
  split_ifs <;> ring

theorem reconFace_rev (lim : Limiter) (dlm dl dlp vm v vp : K) (side : Fin 2) :
    reconFace lim dlp dl dlm vp v vm side = reconFace lim dlm dl dlp vm v vp side.rev := by
  unfold reconFace
  have e1 : (vm - v) / ((dl + dlm) / 2) = -1 * ((v - vm) / ((dlm + dl) / 2)) := by rw [add_comm dl]; ring
  have e2 : (v - vp) / ((dlp + dl) / 2) = -1 * ((vp - v) / ((dl + dlp) / 2)) := by rw [add_comm dlp]; ring
  simp only [e1, e2, Limiter.slope_smul]
  rw [Limiter.slope_comm]
  rcases face_cases side with rfl | rfl
  · simp
  · simp; ring

/-- The grid `p'` is `p` with the axis `b` reversed. -/
structure Reflected (b : Fin d) (ext : Cell) (p p' : PGrid d K) : Prop where
  dx : ∀ i, 0 ≤ i → i < ext (ax b) → p'.dx (ax b) i = p.dx (ax b) (ext (ax b) - 1 - i)
  dx' : ∀ x, x ≠ ax b → ∀ i, 0 ≤ i → i < ext x → p'.dx x i = p.dx x i
  ds : ∀ c, StencilIn d ext c → p'.ds c (ax b) = p.ds (nb (reflect (ax b) (ext (ax b)) c) (ax b) 1) (ax b) ∧
    p'.ds (nb c (ax b) 1) (ax b) = p.ds (reflect (ax b) (ext (ax b)) c) (ax b)
  ds' : ∀ c, inExt ext c = true → ∀ a : Fin d, a ≠ b → p'.ds c (ax a) = p.ds (reflect (ax b) (ext (ax b)) c) (ax a)
  dv : ∀ c, inExt ext c = true → p'.dv c = p.dv (reflect (ax b) (ext (ax b)) c)
  grav : ∀ c, inExt ext c = true → ∀ a, p'.grav c a = (if a = b then -1 else 1) * p.grav (reflect (ax b) (ext (ax b)) c) a

theorem reflect_self (x : Fin 3) (m : ℤ) (c : Cell) : reflect x m c x = m - 1 - c x := Function.update_self ..

theorem reflect_ne {x y : Fin 3} (h : y ≠ x) (m : ℤ) (c : Cell) : reflect x m c y = c y := Function.update_of_ne h ..

theorem reflect_nb_self (x : Fin 3) (m : ℤ) (c : Cell) (s : ℤ) : reflect x m (nb c x s) = nb (reflect x m c) x (-s) := by
  funext y
  by_cases h : y = x
  · subst h; rw [reflect_self, nb_self, nb_self, reflect_self]; ring
  · rw [reflect_ne h, nb_ne _ h, nb_ne _ h, reflect_ne h]

theorem reflect_nb_ne {x z : Fin 3} (hz : z ≠ x) (m : ℤ) (c : Cell) (s : ℤ) : reflect x m (nb c z s) = nb (reflect x m c) z s := by
  funext y
  by_cases h : y = x
  · subst h; rw [reflect_self, nb_ne _ hz.symm, nb_ne _ hz.symm, reflect_self]
  · rw [reflect_ne h]
    by_cases h' : y = z
    · subst h'; rw [nb_self, nb_self, reflect_ne h]
    · rw [nb_ne _ h', nb_ne _ h', reflect_ne h]

theorem reflect_inExt {x : Fin 3} {ext c : Cell} (h : inExt ext c = true) : inExt ext (reflect x (ext x) c) = true := by
  refine inExt_iff.2 fun y => ?_
  have := inExt_iff.1 h y
  by_cases e : y = x
  · subst e; rw [reflect_self]; omega
  · rw [reflect_ne e]; exact this

variable {b : Fin d} {ext : Cell} {p p' : PGrid d K}

/-- The side of a cell that takes the place of `side`. -/
def revSide (b a : Fin d) (side : Fin 2) : Fin 2 := if a = b then side.rev else side

omit [IsStrictOrderedRing K] [LinearOrder K] in
theorem dx_reflect (hd : d ≤ 3) (h : Reflected b ext p p') {c : Cell} (hc : StencilIn d ext c) (a : Fin d) {s : ℤ} (h1 : -1 ≤ s) (h2 : s ≤ 1) :
    p'.dx (ax a) (c (ax a) + s) = p.dx (ax a) (reflect (ax b) (ext (ax b)) c (ax a) + if a = b then -s else s) := by
  have := inExt_iff.1 (hc a s h1 h2) (ax a)
  rw [nb_self] at this
  by_cases e : a = b
  · subst e
    rw [h.dx _ this.1 this.2, if_pos rfl, reflect_self]
    congr 1; ring
  · have e' : ax a ≠ ax b := fun h => e (ax_injective hd h)
    rw [h.dx' _ e' _ this.1 this.2, if_neg e, reflect_ne e']

theorem reconVal_reflect (hd : d ≤ 3) (h : Reflected b ext p p') (lim : Limiter) (k : K) {var var' : Cell → K}
    (hv : ∀ c, inExt ext c = true → var' c = k * var (reflect (ax b) (ext (ax b)) c)) {c : Cell} (hc : StencilIn d ext c) (side : Fin 2) (a : Fin d) :
    reconVal lim p'.dx var' c side a = k * reconVal lim p.dx var (reflect (ax b) (ext (ax b)) c) (revSide b a side) a := by
  have hn : ∀ s : ℤ, -1 ≤ s → s ≤ 1 → var' (nb c (ax a) s) = k * var (nb (reflect (ax b) (ext (ax b)) c) (ax a) (if a = b then -s else s)) := by
    intro s h1 h2
    rw [hv _ (hc a s h1 h2)]
    by_cases e : a = b
    · subst e; rw [reflect_nb_self, if_pos rfl]
    · rw [reflect_nb_ne (fun h => e (ax_injective hd h)), if_neg e]
  have d0 := dx_reflect hd h hc a (s := 0) (by norm_num) (by norm_num)
  have d1 := dx_reflect hd h hc a (s := 1) (by norm_num) (by norm_num)
  have dm := dx_reflect hd h hc a (s := -1) (by norm_num) (by norm_num)
  have v1 := hn 1 (by norm_num) le_rfl
  have vm := hn (-1) le_rfl (by norm_num)
  simp only [neg_zero, ite_self, add_zero] at d0
  simp only [nb] at v1 vm
  unfold reconVal
  rw [sub_eq_add_neg, dm, d0, d1, vm, v1, hv c (stencil_self hc a), reconFace_smul]
  congr 1
  by_cases e : a = b
  · simp only [if_pos e, neg_neg, revSide, ← sub_eq_add_neg]
    exact reconFace_rev ..
  · simp only [if_neg e, revSide, ← sub_eq_add_neg]

theorem faceUP_reflect (hd : d ≤ 3) (h : Reflected b ext p p') (lim : Limiter) {up up' : Cell → VelPres d K}
    (hv : ∀ c, inExt ext c = true → up' c = (up (reflect (ax b) (ext (ax b)) c)).flip b) {c : Cell} (hc : StencilIn d ext c) (side : Fin 2) (a : Fin d) :
    faceUP lim p' up' c side a = (faceUP lim p up (reflect (ax b) (ext (ax b)) c) (revSide b a side) a).flip b := by
  unfold faceUP VelPres.flip
  congr 1
  · funext i
    by_cases hi : i = b
    · rw [if_pos hi]
      refine (reconVal_reflect hd h lim (-1) (var := fun c => (up c).u i) (var' := fun c => (up' c).u i) (fun c hc => ?_) hc side a).trans (neg_one_mul _)
      rw [hv c hc]; simp [VelPres.flip, hi]
    · rw [if_neg hi]
      refine (reconVal_reflect hd h lim 1 (var := fun c => (up c).u i) (var' := fun c => (up' c).u i) (fun c hc => ?_) hc side a).trans (one_mul _)
      rw [hv c hc]; simp [VelPres.flip, hi]
  · refine (reconVal_reflect hd h lim 1 (var := fun c => (up c).P) (var' := fun c => (up' c).P) (fun c hc => ?_) hc side a).trans (one_mul _)
    rw [hv c hc]; simp [VelPres.flip]

theorem faceFields_reflect (hd : d ≤ 3) (h : Reflected b ext p p') (lim : Limiter) (eos : EoS K) {U U' : Cell → Fields d n K} {up up' : Cell → VelPres d K}
    (hU : ∀ c, inExt ext c = true → U' c = (U (reflect (ax b) (ext (ax b)) c)).flip b)
    (hv : ∀ c, inExt ext c = true → up' c = (up (reflect (ax b) (ext (ax b)) c)).flip b) {c : Cell} (hc : StencilIn d ext c) (side : Fin 2) (a : Fin d) :
    faceFields lim eos p' U' up' c side a = (faceFields lim eos p U up (reflect (ax b) (ext (ax b)) c) (revSide b a side) a).flip b := by
  have e1 : reconVal lim p'.dx (fun c => (U' c).rho) c side a =
      reconVal lim p.dx (fun c => (U c).rho) (reflect (ax b) (ext (ax b)) c) (revSide b a side) a :=
    (reconVal_reflect hd h lim 1 (var := fun c => (U c).rho) (fun c hc => by rw [hU c hc, one_mul]; rfl) hc side a).trans (one_mul _)
  have e2 : ∀ i, reconVal lim p'.dx (fun c => (U' c).fx i) c side a =
      reconVal lim p.dx (fun c => (U c).fx i) (reflect (ax b) (ext (ax b)) c) (revSide b a side) a := fun i =>
    (reconVal_reflect hd h lim 1 (var := fun c => (U c).fx i) (fun c hc => by rw [hU c hc, one_mul]; rfl) hc side a).trans (one_mul _)
  unfold faceFields
  simp only [e1, e2, faceUP_reflect hd h lim hv hc side a]
  have e3 := toCons_flip b eos (Prim.mk (reconVal lim p.dx (fun c => (U c).rho) (reflect (ax b) (ext (ax b)) c) (revSide b a side) a)
    (faceUP lim p up (reflect (ax b) (ext (ax b)) c) (revSide b a side) a).u (faceUP lim p up (reflect (ax b) (ext (ax b)) c) (revSide b a side) a).P)
  apply Fields.ext
  · rfl
  · funext i
    rw [Fields.flip_rhou]
    exact congrFun (congrArg Cons.rhou e3) i
  · exact (congrArg (fun c : Cons d K => c.E) e3 :)
  · rfl

/-- Difference of the fluxes through the two faces of a cell along `a`, when the axis is reversed. -/
theorem fluxDiff_reflect (hd : d ≤ 3) (h : Reflected b ext p p') {c : Cell} (hc : StencilIn d ext c) (a : Fin d) (w k : K) {fL fR fL' fR' : K}
    (e : a ≠ b → fL' = k * fL ∧ fR' = k * fR) (e' : a = b → fL' = -(k * fR) ∧ fR' = -(k * fL)) :
    fluxDiff (p'.dirGeo .cartesian a c) w fL' fR' = k * fluxDiff (p.dirGeo .cartesian a (reflect (ax b) (ext (ax b)) c)) w fL fR := by
  unfold fluxDiff PGrid.dirGeo
  simp only
  by_cases hab : a = b
  · obtain ⟨h1, h2⟩ := e' hab
    subst hab
    obtain ⟨h3, h4⟩ := h.ds c hc
    rw [h1, h2, h3, h4]; ring
  · obtain ⟨h1, h2⟩ := e hab
    rw [h1, h2, h.ds' _ (stencil_self hc a) a hab, h.ds' _ (hc a 1 (by norm_num) le_rfl) a hab,
      reflect_nb_ne (fun h => hab (ax_injective hd h))]
    ring

theorem revSide_self (b : Fin d) : revSide b b 0 = 1 ∧ revSide b b 1 = 0 := by simp [revSide]

theorem revSide_ne {b a : Fin d} (h : a ≠ b) (s : Fin 2) : revSide b a s = s := by simp [revSide, h]

theorem hanVal_reflect (hd : d ≤ 3) (h : Reflected b ext p p') (eos : EoS K) (tr : Trig K) (dt : K) {up up' : Fin 2 → Fin d → VelPres d K}
    {old old' : Fin 2 → Fin d → Fields d n K} (hup : ∀ s a, up' s a = (up (revSide b a s) a).flip b)
    (hold : ∀ s a, old' s a = (old (revSide b a s) a).flip b) {c : Cell} (hc : StencilIn d ext c) (side : Fin 2) (a : Fin d) :
    hanVal eos tr .cartesian p' dt up' old' c side a =
      (hanVal eos tr .cartesian p dt up old (reflect (ax b) (ext (ax b)) c) (revSide b a side) a).flip b := by
  have hf : ∀ (f : Fields d n K) (q : VelPres d K), facePrim (f.flip b) (q.flip b) = (facePrim f q).flip b := fun _ _ => rfl
  have hdv := h.dv c (stencil_self hc a)
  have hg := h.grav c (stencil_self hc a)
  have hr : ∀ f : Fields d n K, (f.flip b).rho = f.rho := fun _ => rfl
  have hE : ∀ f : Fields d n K, (f.flip b).E = f.E := fun _ => rfl
  have hx : ∀ f : Fields d n K, (f.flip b).fx = f.fx := fun _ => rfl
  have hne : ∀ a, a ≠ b → ∀ s, fluxPrim eos (facePrim (old' s a) (up' s a)) a = (fluxPrim eos (facePrim (old s a) (up s a)) a).flip b := fun a ha s => by
    rw [hup, hold, hf, revSide_ne ha, fluxPrim_flip b eos _ ha]
  have h0 : fluxPrim eos (facePrim (old' 0 b) (up' 0 b)) b = (fluxPrim eos (facePrim (old 1 b) (up 1 b)) b).mirror b := by
    rw [hup, hold, hf, (revSide_self b).1, fluxPrim_mirror]
  have h1 : fluxPrim eos (facePrim (old' 1 b) (up' 1 b)) b = (fluxPrim eos (facePrim (old 0 b) (up 0 b)) b).mirror b := by
    rw [hup, hold, hf, (revSide_self b).2, fluxPrim_mirror]
  have hrho : (hanVal eos tr .cartesian p' dt up' old' c side a).rho =
      (hanVal eos tr .cartesian p dt up old (reflect (ax b) (ext (ax b)) c) (revSide b a side) a).rho := by
    unfold hanVal
    simp only
    rw [hold side a, hr, hdv]
    congr 1
    refine Finset.sum_congr rfl fun a _ => ?_
    refine (fluxDiff_reflect hd h hc a _ 1 (fun e => ?_) (fun e => ?_)).trans (one_mul _)
    · rw [hne a e, hne a e]; simp [Flux.flip]
    · subst e; rw [h0, h1]; simp [Flux.mirror]
  apply Fields.ext
  · exact hrho
  · funext i
    rw [Fields.flip_rhou]
    unfold hanVal
    simp only [momDiff_cart]
    rw [hold side a, Fields.flip_rhou, hr, hdv]
    have key : ∀ a', fluxDiff (p'.dirGeo .cartesian a' c) (dt / p.dv (reflect (ax b) (ext (ax b)) c))
          ((fluxPrim eos (facePrim (old' 0 a') (up' 0 a')) a').rhou i) ((fluxPrim eos (facePrim (old' 1 a') (up' 1 a')) a').rhou i) +
          (if i = a' then dt * p'.grav c a' * (old (revSide b a side) a).rho else 0) =
        (if i = b then -1 else 1) * (fluxDiff (p.dirGeo .cartesian a' (reflect (ax b) (ext (ax b)) c)) (dt / p.dv (reflect (ax b) (ext (ax b)) c))
          ((fluxPrim eos (facePrim (old 0 a') (up 0 a')) a').rhou i) ((fluxPrim eos (facePrim (old 1 a') (up 1 a')) a').rhou i) +
          (if i = a' then dt * p.grav (reflect (ax b) (ext (ax b)) c) a' * (old (revSide b a side) a).rho else 0)) := by
      intro a'
      rw [fluxDiff_reflect hd h hc a' _ (if i = b then -1 else 1) (fL := (fluxPrim eos (facePrim (old 0 a') (up 0 a')) a').rhou i)
        (fR := (fluxPrim eos (facePrim (old 1 a') (up 1 a')) a').rhou i) (fun e => ?_) (fun e => ?_)]
      · rw [mul_add]
        congr 1
        by_cases e : i = a'
        · subst e; rw [if_pos rfl, if_pos rfl, hg]; ring
        · rw [if_neg e, if_neg e, mul_zero]
      · rw [hne a' e, hne a' e]
        simp only [Flux.flip]
        by_cases hi : i = b <;> simp [hi]
      · subst e; rw [h0, h1]
        simp only [Flux.mirror]
        by_cases hi : i = a' <;> simp [hi]
    rw [Finset.sum_congr rfl fun a' _ => key a', ← Finset.mul_sum]
    split_ifs <;> ring
  · unfold hanVal
    simp only
    rw [hold side a, hE, hdv]
    refine congrArg _ (Finset.sum_congr rfl fun a' _ => ?_)
    rw [fluxDiff_reflect hd h hc a' _ 1 (fL := (fluxPrim eos (facePrim (old 0 a') (up 0 a')) a').E)
        (fR := (fluxPrim eos (facePrim (old 1 a') (up 1 a')) a').E) (fun e => ?_) (fun e => ?_), one_mul, hg, Fields.flip_rhou]
    · congr 1
      split_ifs <;> ring
    · rw [hne a' e, hne a' e]; simp [Flux.flip]
    · subst e; rw [h0, h1]; simp [Flux.mirror]
  · funext i
    change (_ / (hanVal eos tr .cartesian p' dt up' old' c side a).rho : K) =
      _ / (hanVal eos tr .cartesian p dt up old (reflect (ax b) (ext (ax b)) c) (revSide b a side) a).rho
    rw [hrho]
    refine congrArg (fun z : K => z / _) ?_
    rw [hold side a, hx, hr, hdv]
    refine congrArg _ (Finset.sum_congr rfl fun a' _ => ?_)
    refine (fluxDiff_reflect hd h hc a' _ 1 (fun e => ?_) (fun e => ?_)).trans (one_mul _) <;> dsimp only
    · rw [hne a' e, hne a' e, hold, hold, revSide_ne e, revSide_ne e]; simp [Flux.flip, hx]
    · subst e; rw [h0, h1, hold, hold, (revSide_self _).1, (revSide_self _).2]; simp [Flux.mirror, hx]

theorem recVal_reflect (hd : d ≤ 3) (h : Reflected b ext p p') (lim : Limiter) (eos : EoS K) (tr : Trig K) (dt : K) {U U' : Cell → Fields d n K}
    {up up' : Cell → VelPres d K} (hU : ∀ c, inExt ext c = true → U' c = (U (reflect (ax b) (ext (ax b)) c)).flip b)
    (hv : ∀ c, inExt ext c = true → up' c = (up (reflect (ax b) (ext (ax b)) c)).flip b) {c : Cell} (hc : StencilIn d ext c) (side : Fin 2) (a : Fin d) :
    recVal lim eos tr .cartesian p' dt U' up' c side a =
      (recVal lim eos tr .cartesian p dt U up (reflect (ax b) (ext (ax b)) c) (revSide b a side) a).flip b :=
  hanVal_reflect hd h eos tr dt (fun s a => faceUP_reflect hd h lim hv hc s a) (fun s a => faceFields_reflect hd h lim eos hU hv hc s a) hc side a

theorem godVal_reflect (hd : d ≤ 3) (h : Reflected b ext p p') (sol : Solver) {eos : EoS K} (he : eos.Lawful) (tr : Trig K) (dt : K) {s s' : Fields d n K}
    (hs : s' = s.flip b) {R R' : Cell → Fin 2 → Fin d → Fields d n K} {c : Cell} (hin : inExt ext c = true) (hc : StencilIn d ext c)
    (hR : ∀ (a : Fin d) (k : ℤ), -1 ≤ k → k ≤ 1 → ∀ side a', R' (nb c (ax a) k) side a' = (R (reflect (ax b) (ext (ax b)) (nb c (ax a) k)) (revSide b a' side) a').flip b)
    (hA : sol = .hllc → ∀ k : ℤ, -1 ≤ k → k ≤ 1 → ∀ side, (R (nb (reflect (ax b) (ext (ax b)) c) (ax b) k) side b).cons.Adm eos) :
    godVal sol eos tr .cartesian p' dt s' R' c = (godVal sol eos tr .cartesian p dt s R (reflect (ax b) (ext (ax b)) c)).flip b := by
  subst hs
  have hdv := h.dv c hin
  have hg := h.grav c hin
  have hr : ∀ f : Fields d n K, (f.flip b).rho = f.rho := fun _ => rfl
  have hE : ∀ f : Fields d n K, (f.flip b).E = f.E := fun _ => rfl
  have hx : ∀ f : Fields d n K, (f.flip b).fx = f.fx := fun _ => rfl
  set c' := reflect (ax b) (ext (ax b)) c with hc'
  have hRc : ∀ side a, R' c side a = (R c' (revSide b a side) a).flip b := by
    intro side a
    have := hR b 0 (by norm_num) (by norm_num) side a
    rwa [nb_zero] at this
  have hRne : ∀ a, a ≠ b → ∀ k : ℤ, -1 ≤ k → k ≤ 1 → ∀ side, R' (nb c (ax a) k) side a = (R (nb c' (ax a) k) side a).flip b := by
    intro a ha k k1 k2 side
    rw [hR a k k1 k2, reflect_nb_ne (fun h => ha (ax_injective hd h)), revSide_ne ha]
  have hRb : ∀ k : ℤ, -1 ≤ k → k ≤ 1 → ∀ side, R' (nb c (ax b) k) side b = (R (nb c' (ax b) (-k)) (revSide b b side) b).flip b := by
    intro k k1 k2 side
    rw [hR b k k1 k2, reflect_nb_self]
  have hA0 : sol = .hllc → ∀ side, (R c' side b).cons.Adm eos := fun hs side => by
    have := hA hs 0 (by norm_num) (by norm_num) side
    rwa [nb_zero] at this
  have fLne : ∀ a, a ≠ b → sol.flux eos (R' (nb c (ax a) (-1)) 1 a).cons (R' c 0 a).cons a =
      (sol.flux eos (R (nb c' (ax a) (-1)) 1 a).cons (R c' 0 a).cons a).flip b := fun a ha => by
    rw [hRne a ha _ le_rfl (by norm_num), hRc, revSide_ne ha, Fields.flip_cons, Fields.flip_cons, flux_flip b sol eos _ _ ha]
  have fRne : ∀ a, a ≠ b → sol.flux eos (R' c 1 a).cons (R' (nb c (ax a) 1) 0 a).cons a =
      (sol.flux eos (R c' 1 a).cons (R (nb c' (ax a) 1) 0 a).cons a).flip b := fun a ha => by
    rw [hRne a ha _ (by norm_num) le_rfl, hRc, revSide_ne ha, Fields.flip_cons, Fields.flip_cons, flux_flip b sol eos _ _ ha]
  have fLb : sol.flux eos (R' (nb c (ax b) (-1)) 1 b).cons (R' c 0 b).cons b =
      (sol.flux eos (R c' 1 b).cons (R (nb c' (ax b) 1) 0 b).cons b).mirror b := by
    rw [hRb _ le_rfl (by norm_num), hRc, (revSide_self b).1, (revSide_self b).2, Fields.flip_cons, Fields.flip_cons, neg_neg]
    exact solver_mirror sol he (fun hs => hA0 hs 1) (fun hs => hA hs 1 (by norm_num) le_rfl 0) b
  have fRb : sol.flux eos (R' c 1 b).cons (R' (nb c (ax b) 1) 0 b).cons b =
      (sol.flux eos (R (nb c' (ax b) (-1)) 1 b).cons (R c' 0 b).cons b).mirror b := by
    rw [hRb _ (by norm_num) le_rfl, hRc, (revSide_self b).1, (revSide_self b).2, Fields.flip_cons, Fields.flip_cons]
    exact solver_mirror sol he (fun hs => hA hs (-1) le_rfl (by norm_num) 1) (fun hs => hA0 hs 0) b
  have hrho : (godVal sol eos tr .cartesian p' dt (s.flip b) R' c).rho = (godVal sol eos tr .cartesian p dt s R c').rho := by
    unfold godVal
    simp only
    rw [hr, hdv]
    congr 1
    refine Finset.sum_congr rfl fun a _ => ?_
    refine (fluxDiff_reflect hd h hc a _ 1 (fun e => ?_) (fun e => ?_)).trans (one_mul _)
    · rw [fLne a e, fRne a e]; simp [Flux.flip]
    · subst e; rw [fLb, fRb]; simp [Flux.mirror]
  apply Fields.ext
  · exact hrho
  · funext i
    rw [Fields.flip_rhou]
    unfold godVal
    simp only [momDiff_cart]
    rw [Fields.flip_rhou, hr, hdv]
    have key : ∀ a', fluxDiff (p'.dirGeo .cartesian a' c) (dt / p.dv c')
          ((sol.flux eos (R' (nb c (ax a') (-1)) 1 a').cons (R' c 0 a').cons a').rhou i) ((sol.flux eos (R' c 1 a').cons (R' (nb c (ax a') 1) 0 a').cons a').rhou i) +
          (if i = a' then dt * p'.grav c a' * s.rho else 0) =
        (if i = b then -1 else 1) * (fluxDiff (p.dirGeo .cartesian a' c') (dt / p.dv c')
          ((sol.flux eos (R (nb c' (ax a') (-1)) 1 a').cons (R c' 0 a').cons a').rhou i) ((sol.flux eos (R c' 1 a').cons (R (nb c' (ax a') 1) 0 a').cons a').rhou i) +
          (if i = a' then dt * p.grav c' a' * s.rho else 0)) := by
      intro a'
      rw [fluxDiff_reflect hd h hc a' _ (if i = b then -1 else 1) (fL := (sol.flux eos (R (nb c' (ax a') (-1)) 1 a').cons (R c' 0 a').cons a').rhou i)
        (fR := (sol.flux eos (R c' 1 a').cons (R (nb c' (ax a') 1) 0 a').cons a').rhou i) (fun e => ?_) (fun e => ?_)]
      · rw [mul_add]
        congr 1
        by_cases e : i = a'
        · subst e; rw [if_pos rfl, if_pos rfl, hg]; ring
        · rw [if_neg e, if_neg e, mul_zero]
      · rw [fLne a' e, fRne a' e]
        simp only [Flux.flip]
        by_cases hi : i = b <;> simp [hi]
      · subst e; rw [fLb, fRb]
        simp only [Flux.mirror]
        by_cases hi : i = a' <;> simp [hi]
    rw [Finset.sum_congr rfl fun a' _ => key a', ← Finset.mul_sum]
    split_ifs <;> ring
  · unfold godVal
    simp only
    rw [hE, hdv]
    refine congrArg _ (Finset.sum_congr rfl fun a' _ => ?_)
    rw [fluxDiff_reflect hd h hc a' _ 1 (fL := (sol.flux eos (R (nb c' (ax a') (-1)) 1 a').cons (R c' 0 a').cons a').E)
        (fR := (sol.flux eos (R c' 1 a').cons (R (nb c' (ax a') 1) 0 a').cons a').E) (fun e => ?_) (fun e => ?_), one_mul, hg, Fields.flip_rhou]
    · congr 1
      split_ifs <;> ring
    · rw [fLne a' e, fRne a' e]; simp [Flux.flip]
    · subst e; rw [fLb, fRb]; simp [Flux.mirror]
  · funext i
    change clamp (_ / (godVal sol eos tr .cartesian p' dt (s.flip b) R' c).rho) 0 1 = clamp (_ / (godVal sol eos tr .cartesian p dt s R c').rho) 0 1
    rw [hrho]
    refine congrArg (fun z : K => clamp (z / _) 0 1) ?_
    rw [hx, hr, hdv]
    refine congrArg _ (Finset.sum_congr rfl fun a' _ => ?_)
    refine (fluxDiff_reflect hd h hc a' _ 1 (fun e => ?_) (fun e => ?_)).trans (one_mul _) <;> dsimp only
    · have same : ∀ f' f x y x' y' : K, f' = f → x' = x → y' = y → (if f' < 0 then x' else y') * f' = 1 * ((if f < 0 then x else y) * f) := by
        rintro _ f x y _ _ rfl rfl rfl
        rw [one_mul]
      refine ⟨same _ _ _ _ _ _ (by rw [fLne a' e]; rfl) (by rw [hRc, revSide_ne e]; rfl) (by rw [hRne a' e _ le_rfl (by norm_num)]; rfl),
        same _ _ _ _ _ _ (by rw [fRne a' e]; rfl) (by rw [hRne a' e _ (by norm_num) le_rfl]; rfl) (by rw [hRc, revSide_ne e]; rfl)⟩
    · subst e
      have tie : ∀ f' f x y x' y' : K, f' = -f → x' = x → y' = y → (if f' < 0 then x' else y') * f' = -(1 * ((if f < 0 then y else x) * f)) := by
        rintro _ f x y _ _ rfl rfl rfl
        rcases lt_trichotomy f 0 with hf | hf | hf
        · rw [if_neg (by linarith), if_pos hf]; ring
        · subst hf; simp
        · rw [if_pos (by linarith), if_neg (by linarith)]; ring
      refine ⟨tie _ _ _ _ _ _ (by rw [fLb]; rfl) (by rw [hRc, (revSide_self _).1]; rfl) (by rw [hRb _ le_rfl (by norm_num), neg_neg, (revSide_self _).2]; rfl),
        tie _ _ _ _ _ _ (by rw [fRb]; rfl) (by rw [hRb _ (by norm_num) le_rfl, (revSide_self _).1]; rfl) (by rw [hRc, (revSide_self _).2]; rfl)⟩

theorem layer_reflect {m : ℤ} {x : Fin 3} {c : Cell} (hc : layer d ext m c) : layer d ext m (reflect x (ext x) c) := by
  intro y
  have := hc y
  by_cases e : y = x
  · subst e
    simp only [reflect_self]
    simp only at this
    omega
  · simp only [reflect_ne e]
    exact this

theorem stepVal_reflect (hd : d ≤ 3) (h : Reflected b ext p p') (lim : Limiter) (sol : Solver) {eos : EoS K} (he : eos.Lawful) (tr : Trig K) (dt : K)
    {U U' : Cell → Fields d n K} {up up' : Cell → VelPres d K} (hU : ∀ c, inExt ext c = true → U' c = (U (reflect (ax b) (ext (ax b)) c)).flip b)
    (hv : ∀ c, inExt ext c = true → up' c = (up (reflect (ax b) (ext (ax b)) c)).flip b) {ng : ℤ} (hng : 2 ≤ ng)
    (hA : sol = .hllc → ∀ c, layer d ext (ng - 1) c → ∀ side, (recVal lim eos tr .cartesian p (dt / 2) U up c side b).cons.Adm eos)
    {c : Cell} (hc : layer d ext ng c) :
    stepVal lim sol eos tr .cartesian p' dt U' up' c = (stepVal lim sol eos tr .cartesian p dt U up (reflect (ax b) (ext (ax b)) c)).flip b :=
  godVal_reflect hd h sol he tr dt (hU c (layer_inExt hc (by omega))) (layer_inExt hc (by omega)) (layer_stencil hd hc (by omega))
    (fun _ _ h1 h2 side a' => recVal_reflect hd h lim eos tr (dt / 2) hU hv (layer_stencil hd (layer_nb hd hc _ h1 h2) (by omega)) side a')
    (fun hs _ h1 h2 side => hA hs _ (layer_nb hd (layer_reflect hc) _ h1 h2) side)

/-- A Cartesian grid whose cell lengths are those of `p` with the axis `b` reversed. -/
theorem reflected_of_dx (hd : d ≤ 3) {tr : Trig K} (hp : GeoOf tr .cartesian ext p) (hp' : GeoOf tr .cartesian ext p')
    (hdx : ∀ i, 0 ≤ i → i < ext (ax b) → p'.dx (ax b) i = p.dx (ax b) (ext (ax b) - 1 - i))
    (hdx' : ∀ y, y ≠ ax b → ∀ i, 0 ≤ i → i < ext y → p'.dx y i = p.dx y i)
    (hg : ∀ c, inExt ext c = true → ∀ a, p'.grav c a = (if a = b then -1 else 1) * p.grav (reflect (ax b) (ext (ax b)) c) a) :
    Reflected b ext p p' := by
  have hdc : ∀ c, inExt ext c = true → ∀ y, p'.dx y (c y) = p.dx y (reflect (ax b) (ext (ax b)) c y) := by
    intro c hc y
    have := inExt_iff.1 hc y
    by_cases e : y = ax b
    · subst e; rw [reflect_self]; exact hdx _ this.1 this.2
    · rw [reflect_ne e]; exact hdx' y e _ this.1 this.2
  have eds : ∀ (q : PGrid d K) (c : Cell) (x : Fin 3), dsFun tr .cartesian d q.x q.dx 0 c x = ∏ y, if x = y then 1 else q.dx y (c y) := by
    intro q c x
    rw [Fin.prod_univ_three]
    rfl
  have edv : ∀ (q : PGrid d K) (c : Cell), dvFun tr .cartesian d q.x q.dx 0 c = ∏ y, q.dx y (c y) := by
    intro q c
    rw [Fin.prod_univ_three]
    rfl
  have hds : ∀ c, inExt ext c = true → ∀ x, p'.ds c x = p.ds (reflect (ax b) (ext (ax b)) c) x := by
    intro c hc x
    rw [hp'.ds c hc, hp.ds _ (reflect_inExt hc), eds, eds]
    exact Finset.prod_congr rfl fun y _ => by rw [hdc c hc y]
  have hdn : ∀ c, inExt ext c = true → inExt ext (nb c (ax b) 1) = true → p.ds (nb c (ax b) 1) (ax b) = p.ds c (ax b) := by
    intro c hc hc1
    rw [hp.ds c hc, hp.ds _ hc1, eds, eds]
    refine Finset.prod_congr rfl fun y _ => ?_
    by_cases e : ax b = y
    · rw [if_pos e, if_pos e]
    · rw [if_neg e, if_neg e, nb_ne _ (Ne.symm e)]
  refine ⟨hdx, hdx', fun c hc => ?_, fun c hc a _ => hds c hc _, fun c hc => ?_, hg⟩
  · have h0 := stencil_self hc b
    have e1 : inExt ext (nb (reflect (ax b) (ext (ax b)) c) (ax b) 1) = true := by
      have := reflect_inExt (x := ax b) (hc b (-1) le_rfl (by norm_num))
      rwa [reflect_nb_self, neg_neg] at this
    have e2 := reflect_inExt (x := ax b) (hc b 1 (by norm_num) le_rfl)
    rw [reflect_nb_self] at e2
    refine ⟨(hds c h0 _).trans (hdn _ (reflect_inExt h0) e1).symm, (hds _ (hc b 1 (by norm_num) le_rfl) _).trans ?_⟩
    rw [reflect_nb_self]
    have e3 : nb (nb (reflect (ax b) (ext (ax b)) c) (ax b) (-1)) (ax b) 1 = reflect (ax b) (ext (ax b)) c := by
      rw [nb_nb]; simp [nb_zero]
    have := hdn _ e2 (by rw [e3]; exact reflect_inExt h0)
    rw [e3] at this
    exact this.symm
  · rw [hp'.dv c hc, hp.dv _ (reflect_inExt hc), edv, edv]
    exact Finset.prod_congr rfl fun y _ => hdc c hc y

theorem geoOf_reflected (hd : d ≤ 3) {tr : Trig K} (hp : GeoOf tr .cartesian ext p) (hp' : GeoOf tr .cartesian ext p') (L : K)
    (hx : ∀ i, 0 ≤ i → i ≤ ext (ax b) → p'.x (ax b) i = L - p.x (ax b) (ext (ax b) - i))
    (hx' : ∀ y, y ≠ ax b → ∀ i, 0 ≤ i → i ≤ ext y → p'.x y i = p.x y i)
    (hg : ∀ c, inExt ext c = true → ∀ a, p'.grav c a = (if a = b then -1 else 1) * p.grav (reflect (ax b) (ext (ax b)) c) a) :
    Reflected b ext p p' := by
  have hdx : ∀ i, 0 ≤ i → i < ext (ax b) → p'.dx (ax b) i = p.dx (ax b) (ext (ax b) - 1 - i) := by
    intro i h1 h2
    rw [hp'.dx _ _ h1 h2, hp.dx _ _ (by omega) (by omega), hx i h1 h2.le, hx (i + 1) (by omega) (by omega),
      show ext (ax b) - 1 - i + 1 = ext (ax b) - i by ring, show ext (ax b) - 1 - i = ext (ax b) - (i + 1) by ring]
    ring
  have hdx' : ∀ y, y ≠ ax b → ∀ i, 0 ≤ i → i < ext y → p'.dx y i = p.dx y i := by
    intro y hy i h1 h2
    rw [hp'.dx _ _ h1 h2, hp.dx _ _ h1 h2, hx' y hy i h1 h2.le, hx' y hy (i + 1) (by omega) (by omega)]
  exact reflected_of_dx hd hp hp' hdx hdx' hg

end Step

end Heracles

import Verif.Model.Riemann
import Verif.Lemmas.Euler
import Verif.Spec.Euler
import Mathlib.Algebra.BigOperators.Field
import Mathlib.Tactic.FieldSimp
import Mathlib.Tactic.LinearCombination
import Mathlib.Tactic.Positivity
import Mathlib.Tactic.Linarith

namespace Heracles

variable {d : ℕ} {K : Type} [Field K] [LinearOrder K] [IsStrictOrderedRing K]

omit [LinearOrder K] [IsStrictOrderedRing K] in
theorem Cons.evol_eq (c : Cons d K) : c.evol = c.eint := by
  simp only [Cons.evol, Cons.ek, Cons.eint, pow_two, div_div]
  rw [mul_comm c.rho 2]

omit [LinearOrder K] [IsStrictOrderedRing K] in
theorem toPrim_eq (eos : EoS K) (c : Cons d K) : toPrim eos c = ⟨c.rho, c.vel, c.pressure eos⟩ := by
  simp only [toPrim, Cons.evol_eq]
  rfl

omit [IsStrictOrderedRing K] in
theorem Cons.Adm.pres {eos : EoS K} {c : Cons d K} (h : c.Adm eos) : 0 < (toPrim eos c).P := by
  rw [toPrim_eq]; exact h.2

/-- The physical flux computed by the solvers from the primitive state is the textbook flux. -/
theorem fluxPrim_toPrim {eos : EoS K} (he : eos.Lawful) {c : Cons d K} (hr : 0 < c.rho) (a : Fin d) :
    fluxPrim eos (toPrim eos c) a = physFlux eos c a := by
  have e : physFlux eos c a = eulerFlux c.rho c.rhou c.E (toPrim eos c).P a := by rw [toPrim_eq]; rfl
  rw [e]
  have hr' := hr.ne'
  have hE : (toPrim eos c).ek + eos.evolFromPres c.rho (eos.presFromEvol c.rho c.evol) = c.E := by
    rw [ek_toPrim hr, he.evol_pres _ _ hr, Cons.evol]; ring
  apply Flux.ext
  · simp only [fluxPrim, eulerFlux, toPrim]; field_simp
  · funext i
    simp only [fluxPrim, eulerFlux, toPrim, Function.update_apply]
    split_ifs with h
    · subst h; field_simp
    · field_simp; ring
  · have : (fluxPrim eos (toPrim eos c) a).E = c.rhou a / c.rho *
        ((toPrim eos c).ek + eos.evolFromPres c.rho (eos.presFromEvol c.rho c.evol) + (toPrim eos c).P) := rfl
    rw [this, hE]
    simp only [eulerFlux]
    ring

/-- Sound speed of an admissible state. -/
theorem Cons.Adm.sound {eos : EoS K} (he : eos.Lawful) {c : Cons d K} (h : c.Adm eos) :
    0 < c.cs eos ∧ c.pressure eos < c.rho * c.cs eos ^ 2 :=
  ⟨he.sound_pos _ _ h.1 h.2, he.sound_sq _ _ h.1 h.2⟩

omit [IsStrictOrderedRing K] in
/-- The wave speed estimates in terms of the specification. -/
theorem wave_eq (eos : EoS K) (cL cR : Cons d K) (a : Fin d) :
    waveL eos (toPrim eos cL) (toPrim eos cR) a = min (cL.vel a - cL.cs eos) (cR.vel a - cR.cs eos) ∧
    waveR eos (toPrim eos cL) (toPrim eos cR) a = max (cL.vel a + cL.cs eos) (cR.vel a + cR.cs eos) := by
  simp only [waveL, waveR, toPrim_eq]
  exact ⟨rfl, rfl⟩

/-- Scalar core of HLLC: contact speed between the wave speeds, equal star pressures. -/
theorem hllc_scalar {rL rR uL uR PL PR cL cR wL wR us ps : K} (hrL : 0 < rL) (hrR : 0 < rR) (hPL : 0 < PL) (hPR : 0 < PR)
    (hcL : 0 < cL) (hcR : 0 < cR) (hsL : PL < rL * cL ^ 2) (hsR : PR < rR * cR ^ 2)
    (h1 : wL ≤ uL - cL) (h2 : wL ≤ uR - cR) (h3 : uL + cL ≤ wR) (h4 : uR + cR ≤ wR)
    (hus : us = (PR - PL + rL * (wL - uL) * uL - rR * (wR - uR) * uR) / (rL * (wL - uL) - rR * (wR - uR)))
    (hps : ps = 1 / 2 * (PL + PR + rL * (wL - uL) * (us - uL) + rR * (wR - uR) * (us - uR))) :
    rL * (wL - uL) - rR * (wR - uR) < 0 ∧ wL < us ∧ us < wR ∧ ps = PL + rL * (wL - uL) * (us - uL) ∧
      ps = PR + rR * (wR - uR) * (us - uR) := by
  have a1 : 0 < rL * (uL - wL) := mul_pos hrL (by linarith)
  have a2 : 0 < rR * (wR - uR) := mul_pos hrR (by linarith)
  have hD : rL * (wL - uL) - rR * (wR - uR) < 0 := by nlinarith
  have key : us * (rL * (wL - uL) - rR * (wR - uR)) = PR - PL + rL * (wL - uL) * uL - rR * (wR - uR) * uR := by
    rw [hus, div_mul_cancel₀ _ hD.ne]
  have q1 : rL * cL ^ 2 ≤ rL * ((uL - wL) * (uL - wL)) := by
    apply mul_le_mul_of_nonneg_left _ hrL.le
    nlinarith
  have q2 : rR * cR ^ 2 ≤ rR * ((wR - uR) * (wR - uR)) := by
    apply mul_le_mul_of_nonneg_left _ hrR.le
    nlinarith
  have q3 : 0 ≤ rR * ((wR - uR) * (uR - wL)) :=
    mul_nonneg hrR.le (mul_nonneg (by linarith) (by linarith))
  have q4 : 0 ≤ rL * ((uL - wL) * (wR - uL)) :=
    mul_nonneg hrL.le (mul_nonneg (by linarith) (by linarith))
  have q5 : rR * cR ^ 2 ≤ rR * ((wR - uR) * (uR - wL)) := by
    apply mul_le_mul_of_nonneg_left _ hrR.le
    nlinarith
  have q6 : rL * cL ^ 2 ≤ rL * ((uL - wL) * (wR - uL)) := by
    apply mul_le_mul_of_nonneg_left _ hrL.le
    nlinarith
  refine ⟨hD, ?_, ?_, ?_, ?_⟩
  · by_contra hc
    have := mul_le_mul_of_nonpos_right (not_lt.1 hc) hD.le
    rw [key] at this
    linarith
  · by_contra hc
    have := mul_le_mul_of_nonpos_right (not_lt.1 hc) hD.le
    rw [key] at this
    linarith
  · rw [hps]; linear_combination (-1 / 2) * key
  · rw [hps]; linear_combination (1 / 2) * key

/-- Intermediate state of HLLC on one side, as a conservative state. Auxiliary definition. -/
def starState (eos : EoS K) (c : Cons d K) (a : Fin d) (S us : K) : Cons d K :=
  { rho := c.rho * (S - c.vel a) / (S - us)
    rhou := fun i => c.rho * (S - c.vel a) / (S - us) * (if i = a then us else c.vel i)
    E := (S - c.vel a) / (S - us) * c.E +
      (us - c.vel a) / (S - us) * (us * c.rho * (S - c.vel a) + c.pressure eos) }

/-- The star branch returns the textbook flux of the intermediate state with pressure `ps`, and the
intermediate state is connected to the given state by the jump relations. -/
theorem hllcStar_eq {eos : EoS K} {c : Cons d K} (hr : 0 < c.rho) (a : Fin d) {S us ps : K}
    (hS : S - us ≠ 0) (hSu : S - c.vel a ≠ 0)
    (hps : ps = c.pressure eos + c.rho * (S - c.vel a) * (us - c.vel a)) :
    let U := starState eos c a S us
    hllcStar c (toPrim eos c) (physFlux eos c a) a S us ps = eulerFlux U.rho U.rhou U.E ps a ∧
    Jump c U (physFlux eos c a) (eulerFlux U.rho U.rhou U.E ps a) S := by
  have hr' := hr.ne'
  rw [toPrim_eq]
  simp only [physFlux, starState]
  have hm : ∀ i, c.rhou i = c.rho * c.vel i := fun i => by unfold Cons.vel; field_simp
  generalize c.pressure eos = P at *
  have hR : c.rho * (S - c.vel a) / (S - us) ≠ 0 := div_ne_zero (mul_ne_zero hr' hSu) hS
  refine ⟨?_, ?_, ?_, ?_⟩
  · apply Flux.ext
    · simp only [hllcStar, fluxHllc, eulerFlux, hm, if_pos]
      field_simp
      ring
    · funext i
      simp only [hllcStar, eulerFlux, Function.update_apply, if_pos]
      split_ifs with h
      · field_simp
      · field_simp; ring
    · simp only [hllcStar, fluxHllc, eulerFlux, hm, if_pos]
      rw [hps]
      field_simp
      ring
  · simp only [eulerFlux, hm, if_pos]
    field_simp
    ring
  · intro i
    simp only [eulerFlux, hm, if_pos]
    split_ifs with h
    · subst h
      rw [hps]
      field_simp
      ring
    · field_simp
      ring
  · simp only [eulerFlux, hm, if_pos]
    rw [hps]
    field_simp
    ring

/-- What `HLLC::operator()` computes, with the facts that make it well defined. -/
theorem hllc_summary {eos : EoS K} (he : eos.Lawful) {cL cR : Cons d K} (hL : cL.Adm eos) (hR : cR.Adm eos)
    (a : Fin d) {wL wR : K} (hwL : wL = min (cL.vel a - cL.cs eos) (cR.vel a - cR.cs eos))
    (hwR : wR = max (cL.vel a + cL.cs eos) (cR.vel a + cR.cs eos)) :
    cL.rho * (wL - cL.vel a) - cR.rho * (wR - cR.vel a) < 0 ∧
    ∃ us ps, wL < us ∧ us < wR ∧ ps = cL.pressure eos + cL.rho * (wL - cL.vel a) * (us - cL.vel a) ∧
      ps = cR.pressure eos + cR.rho * (wR - cR.vel a) * (us - cR.vel a) ∧
      us * (cL.rho * (wL - cL.vel a) - cR.rho * (wR - cR.vel a)) =
        cR.pressure eos - cL.pressure eos + cL.rho * (wL - cL.vel a) * cL.vel a - cR.rho * (wR - cR.vel a) * cR.vel a ∧
      hllcFlux eos cL cR a =
        if wL * wR > 0 then (if us > 0 then physFlux eos cL a else physFlux eos cR a)
        else if us > 0 then hllcStar cL (toPrim eos cL) (physFlux eos cL a) a wL us ps
        else hllcStar cR (toPrim eos cR) (physFlux eos cR a) a wR us ps := by
  obtain ⟨us, hus⟩ : ∃ us, us = hllcUstar (toPrim eos cL) (toPrim eos cR) a wL wR := ⟨_, rfl⟩
  obtain ⟨ps, hps⟩ : ∃ ps, ps = hllcPstar (toPrim eos cL) (toPrim eos cR) a wL wR := ⟨_, rfl⟩
  have e1 : us = (cR.pressure eos - cL.pressure eos + cL.rho * (wL - cL.vel a) * cL.vel a
      - cR.rho * (wR - cR.vel a) * cR.vel a) / (cL.rho * (wL - cL.vel a) - cR.rho * (wR - cR.vel a)) := by
    rw [hus, hllcUstar]
    simp only [toPrim_eq]
  have e2 : ps = 1 / 2 * (cL.pressure eos + cR.pressure eos + cL.rho * (wL - cL.vel a) * (us - cL.vel a)
      + cR.rho * (wR - cR.vel a) * (us - cR.vel a)) := by
    rw [hps, hllcPstar, ← hus]
    simp only [toPrim_eq]
  obtain ⟨sL1, sL2⟩ := hL.sound he
  obtain ⟨sR1, sR2⟩ := hR.sound he
  obtain ⟨hD, h1, h2, h3, h4⟩ := hllc_scalar hL.1 hR.1 hL.2 hR.2 sL1 sR1 sL2 sR2
    (hwL ▸ min_le_left _ _) (hwL ▸ min_le_right _ _) (hwR ▸ le_max_left _ _) (hwR ▸ le_max_right _ _) e1 e2
  refine ⟨hD, us, ps, h1, h2, h3, h4, ?_, ?_⟩
  · rw [e1, div_mul_cancel₀ _ hD.ne]
  · unfold hllcFlux
    simp only [(wave_eq eos cL cR a).1, (wave_eq eos cL cR a).2, ← hwL, ← hwR, ← hus, ← hps,
      fluxPrim_toPrim he hL.1, fluxPrim_toPrim he hR.1]
    by_cases h : us > 0
    · simp only [if_pos h]
    · simp only [if_neg h]

omit [LinearOrder K] [IsStrictOrderedRing K] in
/-- Two states of equal normal velocity and pressure satisfy the jump relations of a contact. -/
theorem jump_contact {U U' : Cons d K} {a : Fin d} {us : K} (ps : K) (h0 : U.rho ≠ 0) (h0' : U'.rho ≠ 0)
    (h : U.vel a = us) (h' : U'.vel a = us) :
    Jump U U' (eulerFlux U.rho U.rhou U.E ps a) (eulerFlux U'.rho U'.rhou U'.E ps a) us := by
  have e : U.rhou a = U.rho * us := by rw [← h, Cons.vel]; field_simp
  have e' : U'.rhou a = U'.rho * us := by rw [← h', Cons.vel]; field_simp
  refine ⟨?_, fun i => ?_, ?_⟩
  · simp only [eulerFlux, e, e']; ring
  · simp only [eulerFlux, e, e']; field_simp; ring
  · simp only [eulerFlux, e, e']; field_simp; ring

omit [LinearOrder K] [IsStrictOrderedRing K] in
theorem Jump.symm {U U' : Cons d K} {F F' : Flux d K} {S : K} (h : Jump U U' F F' S) : Jump U' U F' F S := by
  obtain ⟨h1, h2, h3⟩ := h
  refine ⟨by linear_combination -h1, fun i => by linear_combination -(h2 i), by linear_combination -h3⟩

omit [LinearOrder K] [IsStrictOrderedRing K] in
theorem Jump.eq {U U' : Cons d K} {F F' : Flux d K} {S : K} (h : Jump U U' F F' S) (hS : S = 0) : F' = F := by
  subst hS
  obtain ⟨h1, h2, h3⟩ := h
  refine Flux.ext ?_ (funext fun i => ?_) ?_
  · linear_combination h1
  · linear_combination h2 i
  · linear_combination h3

/-- The fan computed by HLLC, with its explicit intermediate states. -/
theorem hllc_full {eos : EoS K} (he : eos.Lawful) {cL cR : Cons d K} (hL : cL.Adm eos) (hR : cR.Adm eos)
    (a : Fin d) {wL wR : K} (hwL : wL = min (cL.vel a - cL.cs eos) (cR.vel a - cR.cs eos))
    (hwR : wR = max (cL.vel a + cL.cs eos) (cR.vel a + cR.cs eos)) :
    cL.rho * (wL - cL.vel a) - cR.rho * (wR - cR.vel a) < 0 ∧ wL - cL.vel a < 0 ∧ 0 < wR - cR.vel a ∧
    ∃ us ps, wL < us ∧ us < wR ∧ ps = cL.pressure eos + cL.rho * (wL - cL.vel a) * (us - cL.vel a) ∧
      ps = cR.pressure eos + cR.rho * (wR - cR.vel a) * (us - cR.vel a) ∧
      us * (cL.rho * (wL - cL.vel a) - cR.rho * (wR - cR.vel a)) =
        cR.pressure eos - cL.pressure eos + cL.rho * (wL - cL.vel a) * cL.vel a - cR.rho * (wR - cR.vel a) * cR.vel a ∧
      0 < (starState eos cL a wL us).rho ∧ 0 < (starState eos cR a wR us).rho ∧
      (∀ i, (starState eos cL a wL us).vel i = if i = a then us else cL.vel i) ∧
      (∀ i, (starState eos cR a wR us).vel i = if i = a then us else cR.vel i) ∧
      ∀ UL UR, UL = starState eos cL a wL us → UR = starState eos cR a wR us →
      Jump cL UL (physFlux eos cL a) (eulerFlux UL.rho UL.rhou UL.E ps a) wL ∧
      Jump UL UR (eulerFlux UL.rho UL.rhou UL.E ps a) (eulerFlux UR.rho UR.rhou UR.E ps a) us ∧
      Jump UR cR (eulerFlux UR.rho UR.rhou UR.E ps a) (physFlux eos cR a) wR ∧
      (0 ≤ wL → hllcFlux eos cL cR a = physFlux eos cL a) ∧
      (wL ≤ 0 → 0 ≤ us → hllcFlux eos cL cR a = eulerFlux UL.rho UL.rhou UL.E ps a) ∧
      (us ≤ 0 → 0 ≤ wR → hllcFlux eos cL cR a = eulerFlux UR.rho UR.rhou UR.E ps a) ∧
      (wR ≤ 0 → hllcFlux eos cL cR a = physFlux eos cR a) := by
  obtain ⟨hD, us, ps, h1, h2, h3, h4, h5, hF⟩ := hllc_summary he hL hR a hwL hwR
  have kL : wL - us < 0 := by linarith
  have kR : 0 < wR - us := by linarith
  have b1 : wL - cL.vel a < 0 := by
    have : wL ≤ cL.vel a - cL.cs eos := hwL ▸ min_le_left _ _
    linarith [(hL.sound he).1]
  have b3 : 0 < wR - cR.vel a := by
    have : cR.vel a + cR.cs eos ≤ wR := hwR ▸ le_max_right _ _
    linarith [(hR.sound he).1]
  obtain ⟨sL, jL⟩ := hllcStar_eq (eos := eos) hL.1 a kL.ne b1.ne h3
  obtain ⟨sR, jR⟩ := hllcStar_eq (eos := eos) hR.1 a kR.ne' b3.ne' h4
  have rL : 0 < (starState eos cL a wL us).rho :=
    div_pos_of_neg_of_neg (mul_neg_of_pos_of_neg hL.1 b1) kL
  have rR : 0 < (starState eos cR a wR us).rho := div_pos (mul_pos hR.1 b3) kR
  have vL : ∀ i, (starState eos cL a wL us).vel i = if i = a then us else cL.vel i := fun i =>
    mul_div_cancel_left₀ _ rL.ne'
  have vR : ∀ i, (starState eos cR a wR us).vel i = if i = a then us else cR.vel i := fun i =>
    mul_div_cancel_left₀ _ rR.ne'
  have vL' := (vL a).trans (if_pos rfl)
  have vR' := (vR a).trans (if_pos rfl)
  have jC := jump_contact ps rL.ne' rR.ne' vL' vR'
  rw [sL, sR] at hF
  refine ⟨hD, b1, b3, us, ps, h1, h2, h3, h4, h5, rL, rR, vL, vR, ?_⟩
  rintro _ _ rfl rfl
  refine ⟨jL, jC, jR.symm, ?_, ?_, ?_, ?_⟩
  · intro h
    have hus : us > 0 := by linarith
    rcases h.lt_or_eq with h | h
    · rw [hF, if_pos (mul_pos h (by linarith)), if_pos hus]
    · rw [hF, if_neg (by rw [← h]; simp), if_pos hus]
      exact jL.eq h.symm
  · intro h h'
    rw [hF, if_neg (by nlinarith)]
    rcases h'.lt_or_eq with h' | h'
    · rw [if_pos h']
    · rw [if_neg (by rw [← h']; exact lt_irrefl _)]
      exact jC.eq h'.symm
  · intro h h'
    rw [hF, if_neg (by nlinarith), if_neg (not_lt.2 h)]
  · intro h
    have hus : ¬ us > 0 := by linarith
    rcases h.lt_or_eq with h | h
    · rw [hF, if_pos (mul_pos_of_neg_of_neg (by linarith) h), if_neg hus]
    · rw [hF, if_neg (by rw [h]; simp), if_neg hus]
      exact jR.eq h

omit [LinearOrder K] [IsStrictOrderedRing K] in
/-- With the contact moving at the fluid velocity the intermediate state is the given state. -/
theorem starState_self {eos : EoS K} {c : Cons d K} (hr : c.rho ≠ 0) {a : Fin d} {S : K} (hS : S - c.vel a ≠ 0) :
    starState eos c a S (c.vel a) = c := by
  apply Cons.ext
  · simp only [starState]; field_simp
  · funext i
    simp only [starState]
    rw [mul_div_assoc, div_self hS, mul_one]
    split_ifs with h
    · subst h; rw [Cons.vel]; field_simp
    · rw [Cons.vel]; field_simp
  · simp only [starState, sub_self, zero_div, zero_mul, add_zero]
    rw [div_self hS, one_mul]

/-- HLLC across equal pressures and equal normal velocities: upwind physical flux. -/
theorem hllc_contact {eos : EoS K} (he : eos.Lawful) {cL cR : Cons d K} (hL : cL.Adm eos) (hR : cR.Adm eos)
    (a : Fin d) (hv : cL.vel a = cR.vel a) (hP : cL.pressure eos = cR.pressure eos) :
    hllcFlux eos cL cR a = if 0 < cL.vel a then physFlux eos cL a else physFlux eos cR a := by
  obtain ⟨wL, hwL⟩ : ∃ w, w = min (cL.vel a - cL.cs eos) (cR.vel a - cR.cs eos) := ⟨_, rfl⟩
  obtain ⟨wR, hwR⟩ : ∃ w, w = max (cL.vel a + cL.cs eos) (cR.vel a + cR.cs eos) := ⟨_, rfl⟩
  obtain ⟨hD, b1, b3, us, ps, h1, h2, h3, h4, h5, -, -, -, -, hf⟩ := hllc_full he hL hR a hwL hwR
  have hus : us = cL.vel a := by
    apply mul_right_cancel₀ hD.ne
    rw [h5, hP, hv]; ring
  subst hus
  have hps : ps = cL.pressure eos := by rw [h3]; ring
  obtain ⟨-, -, -, f1, f2, f3, f4⟩ := hf cL cR (starState_self hL.1.ne' b1.ne).symm
    (by rw [hv, starState_self hR.1.ne' b3.ne'])
  rw [hps] at f2 f3
  split_ifs with h
  · rcases le_total 0 wL with h0 | h0
    · exact f1 h0
    · exact f2 h0 h.le
  · rcases le_total 0 wR with h0 | h0
    · rw [f3 (not_lt.1 h) h0, hP]; rfl
    · exact f4 h0

section mirror
omit [LinearOrder K] [IsStrictOrderedRing K]

theorem Cons.mirror_vel (c : Cons d K) (a i : Fin d) : (c.mirror a).vel i = if i = a then -c.vel i else c.vel i := by
  simp only [Cons.vel, Cons.mirror]
  split_ifs <;> ring

theorem Cons.mirror_mirror (c : Cons d K) (a : Fin d) : (c.mirror a).mirror a = c := by
  apply Cons.ext
  · rfl
  · funext i
    simp only [Cons.mirror]
    split_ifs <;> ring
  · rfl

theorem Cons.mirror_eint (c : Cons d K) (a : Fin d) : (c.mirror a).eint = c.eint := by
  have : ∀ i, (if i = a then -c.rhou i else c.rhou i) ^ 2 = c.rhou i ^ 2 := fun i => by split_ifs <;> ring
  simp only [Cons.eint, Cons.mirror, this]

theorem Cons.mirror_pressure (eos : EoS K) (c : Cons d K) (a : Fin d) :
    (c.mirror a).pressure eos = c.pressure eos := by
  simp only [Cons.pressure, Cons.mirror_eint]; rfl

theorem Cons.mirror_cs (eos : EoS K) (c : Cons d K) (a : Fin d) : (c.mirror a).cs eos = c.cs eos := by
  simp only [Cons.cs, Cons.mirror_pressure]; rfl

theorem eulerFlux_mirror (c : Cons d K) (P : K) (a : Fin d) :
    eulerFlux (c.mirror a).rho (c.mirror a).rhou (c.mirror a).E P a = (eulerFlux c.rho c.rhou c.E P a).mirror a := by
  apply Flux.ext
  · simp [eulerFlux, Cons.mirror, Flux.mirror]
  · funext i
    by_cases h : i = a
    · subst h; simp [eulerFlux, Cons.mirror, Flux.mirror]
    · simp [eulerFlux, Cons.mirror, Flux.mirror, h]; ring
  · simp [eulerFlux, Cons.mirror, Flux.mirror]; ring

theorem physFlux_mirror (eos : EoS K) (c : Cons d K) (a : Fin d) :
    physFlux eos (c.mirror a) a = (physFlux eos c a).mirror a := by
  rw [physFlux, Cons.mirror_pressure, eulerFlux_mirror, physFlux]

theorem starState_mirror (eos : EoS K) (c : Cons d K) (a : Fin d) (S us : K) :
    starState eos (c.mirror a) a (-S) (-us) = (starState eos c a S us).mirror a := by
  have e1 : -S - -c.vel a = -(S - c.vel a) := by ring
  have e2 : -S - -us = -(S - us) := by ring
  have e3 : -us - -c.vel a = -(us - c.vel a) := by ring
  apply Cons.ext
  · simp only [starState, Cons.mirror_vel, if_pos, e1, e2]
    simp only [Cons.mirror, mul_neg, neg_div_neg_eq]
  · funext i
    simp only [starState, Cons.mirror_vel, if_pos, e1, e2]
    simp only [Cons.mirror, mul_neg, neg_div_neg_eq]
    split_ifs <;> ring
  · simp only [starState, Cons.mirror_vel, Cons.mirror_pressure, if_pos, e1, e2, e3]
    simp only [Cons.mirror, mul_neg, neg_div_neg_eq, neg_mul, neg_neg]

end mirror

theorem Cons.Adm.mirror {eos : EoS K} {c : Cons d K} (h : c.Adm eos) (a : Fin d) : (c.mirror a).Adm eos :=
  ⟨h.1, by rw [Cons.mirror_pressure]; exact h.2⟩

/-- Every perfect gas with `gamma > 1` is of this kind. -/
theorem PerfectGas.fast {g : Gas} (hg : g.Physical) : (PerfectGas.toEoS g).Fast := by
  intro rho P hr hP
  have h1 := kB_pos; have h2 := mP_pos; have h3 := hg.mmw; have h4 := hg.gammaM1_pos
  have hga : 1 < g.gamma := hg.gamma
  have hc : (PerfectGas.toEoS g).sound rho P ^ 2 = g.gamma * P / rho := Real.sq_sqrt (by positivity)
  have he : (PerfectGas.toEoS g).evolFromPres rho P = P / g.gammaM1 := by
    simp only [PerfectGas.toEoS, PerfectGas.evolFromPres, PerfectGas.evolFromTemp, PerfectGas.tempFromPres]
    field_simp
  rw [hc, he]
  have e : 2 * rho * (P / g.gammaM1) * (g.gamma * P / rho) = 2 * g.gamma * P ^ 2 / g.gammaM1 := by field_simp
  rw [e, lt_div_iff₀ h4, hg.gammaM1]
  nlinarith [pow_pos hP 2]

omit [LinearOrder K] [IsStrictOrderedRing K] in
theorem sum_replace (v : Fin d → K) (a : Fin d) (x : K) :
    ∑ i, (if i = a then x else v i) ^ 2 = ∑ i, v i ^ 2 - v a ^ 2 + x ^ 2 := by
  have : ∀ i, (if i = a then x else v i) ^ 2 = v i ^ 2 + if i = a then x ^ 2 - v a ^ 2 else 0 := by
    intro i
    split_ifs with h
    · subst h; ring
    · ring
  simp only [this, Finset.sum_add_distrib, Finset.sum_ite_eq', Finset.mem_univ, if_true]
  ring

omit [LinearOrder K] [IsStrictOrderedRing K] in
theorem Cons.eint_vel {c : Cons d K} (hr : c.rho ≠ 0) : c.eint = c.E - c.rho * (∑ i, c.vel i ^ 2) / 2 := by
  have : ∀ i, c.rhou i ^ 2 = c.rho ^ 2 * c.vel i ^ 2 := fun i => by rw [Cons.vel]; field_simp
  simp only [Cons.eint, this, ← Finset.mul_sum]
  rw [pow_two, mul_comm (2 : K), mul_assoc, mul_div_mul_left _ _ hr]

/-- A quadratic with negative discriminant. -/
theorem quad_pos {r P e w x : K} (hr : 0 < r) (hw : w ≠ 0) (h : P ^ 2 < 2 * r * e * w ^ 2) :
    0 < e + r * x ^ 2 / 2 + x * P / w := by
  have hw2 : 0 < w ^ 2 := by positivity
  have key : 2 * r * w ^ 2 * (e + r * x ^ 2 / 2 + x * P / w) = (2 * r * e * w ^ 2 - P ^ 2) + (r * x * w + P) ^ 2 := by
    field_simp
    ring
  have h1 : 0 < 2 * r * w ^ 2 * (e + r * x ^ 2 / 2 + x * P / w) := by
    rw [key]
    have := sq_nonneg (r * x * w + P)
    linarith
  exact (mul_pos_iff_of_pos_left (by positivity)).1 h1

theorem fast_state {eos : EoS K} (he : eos.Lawful) (hf : eos.Fast) {c : Cons d K} (hc : c.Adm eos) :
    c.pressure eos ^ 2 < 2 * c.rho * c.eint * c.cs eos ^ 2 := by
  have := hf _ _ hc.1 hc.2
  rw [Cons.pressure, he.evol_pres _ _ hc.1] at this
  exact this

theorem eint_pos {eos : EoS K} (he : eos.Lawful) (hf : eos.Fast) {c : Cons d K} (hc : c.Adm eos) : 0 < c.eint := by
  have h := fast_state he hf hc
  have h0 := (hc.sound he).1
  have hr := hc.1
  have := hc.2
  by_contra hn
  have h1 : c.rho * c.eint * c.cs eos ^ 2 ≤ 0 := by
    apply mul_nonpos_of_nonpos_of_nonneg _ (by positivity)
    exact mul_nonpos_of_nonneg_of_nonpos hr.le (not_lt.1 hn)
  have h2 : 0 < c.pressure eos ^ 2 := by positivity
  linarith

/-- Internal energy of the intermediate state of HLLC. -/
theorem starState_eint_pos {eos : EoS K} (he : eos.Lawful) (hf : eos.Fast) {c : Cons d K} (hc : c.Adm eos) {a : Fin d}
    {S us : K} (hq : 0 < (S - c.vel a) / (S - us)) (hw : c.cs eos ^ 2 ≤ (S - c.vel a) ^ 2) :
    0 < (starState eos c a S us).eint := by
  have hr := hc.1.ne'
  have hw0 : S - c.vel a ≠ 0 := fun h => by rw [h, zero_div] at hq; exact lt_irrefl _ hq
  have hk0 : S - us ≠ 0 := fun h => by rw [h, div_zero] at hq; exact lt_irrefl _ hq
  have hR : (starState eos c a S us).rho ≠ 0 := by
    show c.rho * (S - c.vel a) / (S - us) ≠ 0
    rw [mul_div_assoc]
    exact mul_ne_zero hr hq.ne'
  have hv : ∀ i, (starState eos c a S us).vel i = if i = a then us else c.vel i := fun i => mul_div_cancel_left₀ _ hR
  rw [Cons.eint_vel hR]
  simp only [hv, sum_replace]
  have hE : c.E = c.eint + c.rho * (∑ i, c.vel i ^ 2) / 2 := by rw [Cons.eint_vel hr]; ring
  have hpos : 0 < c.eint + c.rho * (us - c.vel a) ^ 2 / 2 + (us - c.vel a) * c.pressure eos / (S - c.vel a) := by
    apply quad_pos hc.1 hw0
    refine lt_of_lt_of_le (fast_state he hf hc) ?_
    have := eint_pos he hf hc
    have h0 := hc.1
    apply mul_le_mul_of_nonneg_left hw (by positivity)
  have e : (starState eos c a S us).E - (starState eos c a S us).rho * (∑ i, c.vel i ^ 2 - c.vel a ^ 2 + us ^ 2) / 2 =
      (S - c.vel a) / (S - us) *
        (c.eint + c.rho * (us - c.vel a) ^ 2 / 2 + (us - c.vel a) * c.pressure eos / (S - c.vel a)) := by
    simp only [starState, hE]
    field_simp
    ring
  rw [e]
  exact mul_pos hq hpos

/-- Intermediate state of HLL. Auxiliary definition. -/
def hllState (cL cR : Cons d K) (FL FR : Flux d K) (wL wR : K) : Cons d K :=
  { rho := (wR * cR.rho - wL * cL.rho + FL.rho - FR.rho) / (wR - wL)
    rhou := fun i => (wR * cR.rhou i - wL * cL.rhou i + FL.rhou i - FR.rhou i) / (wR - wL)
    E := (wR * cR.E - wL * cL.E + FL.E - FR.E) / (wR - wL) }

/-- The set of states of positive density and internal energy, in the form `2 rho E > |m|²`. -/
theorem eint_pos_iff {c : Cons d K} (hr : 0 < c.rho) : 0 < c.eint ↔ ∑ i, c.rhou i ^ 2 < 2 * c.rho * c.E := by
  rw [Cons.eint, sub_pos, div_lt_iff₀ (by positivity)]
  constructor <;> intro h <;> linarith

/-- That set is a convex cone. -/
theorem cone_add {r r' E E' : K} {m m' : Fin d → K} (hr : 0 < r) (hr' : 0 < r') (h : ∑ i, m i ^ 2 < 2 * r * E)
    (h' : ∑ i, m' i ^ 2 < 2 * r' * E') : ∑ i, (m i + m' i) ^ 2 < 2 * (r + r') * (E + E') := by
  have key : ∑ i, (m i + m' i) ^ 2 ≤ (r + r') / r * ∑ i, m i ^ 2 + (r + r') / r' * ∑ i, m' i ^ 2 := by
    rw [Finset.mul_sum, Finset.mul_sum, ← Finset.sum_add_distrib]
    apply Finset.sum_le_sum
    intro i _
    have e : (r + r') / r * m i ^ 2 + (r + r') / r' * m' i ^ 2 - (m i + m' i) ^ 2 = (r' * m i - r * m' i) ^ 2 / (r * r') := by
      field_simp
      ring
    have : 0 ≤ (r' * m i - r * m' i) ^ 2 / (r * r') := by positivity
    linarith
  have h1 : (r + r') / r * ∑ i, m i ^ 2 < (r + r') / r * (2 * r * E) := mul_lt_mul_of_pos_left h (by positivity)
  have h2 : (r + r') / r' * ∑ i, m' i ^ 2 < (r + r') / r' * (2 * r' * E') := mul_lt_mul_of_pos_left h' (by positivity)
  have e : (r + r') / r * (2 * r * E) + (r + r') / r' * (2 * r' * E') = 2 * (r + r') * (E + E') := by field_simp
  linarith

/-- `w (S U - F)` is in the cone when `w (S - u) > 0`, `w = ± 1`. -/
theorem cone_wave {eos : EoS K} (he : eos.Lawful) (hf : eos.Fast) {c : Cons d K} (hc : c.Adm eos) {a : Fin d} {S : K}
    (hS : c.cs eos ^ 2 ≤ (S - c.vel a) ^ 2) :
    ∑ i, (S * c.rhou i - (physFlux eos c a).rhou i) ^ 2 <
      2 * (S * c.rho - (physFlux eos c a).rho) * (S * c.E - (physFlux eos c a).E) := by
  have hr := hc.1.ne'
  have hm : ∀ i, c.rhou i = c.rho * c.vel i := fun i => by rw [Cons.vel]; field_simp
  have e1 : ∀ i, (S * c.rhou i - (physFlux eos c a).rhou i) =
      if i = a then c.rho * (S - c.vel a) * c.vel a - c.pressure eos else c.rho * (S - c.vel a) * c.vel i := by
    intro i
    simp only [physFlux, eulerFlux, hm]
    split_ifs with h
    · subst h; field_simp; ring
    · field_simp; ring
  simp only [e1]
  rw [sum_replace (fun i => c.rho * (S - c.vel a) * c.vel i)]
  have hE : c.E = c.eint + c.rho * (∑ i, c.vel i ^ 2) / 2 := by rw [Cons.eint_vel hr]; ring
  have e2 : S * c.rho - (physFlux eos c a).rho = c.rho * (S - c.vel a) := by
    simp only [physFlux, eulerFlux, hm]; ring
  have e3 : S * c.E - (physFlux eos c a).E = (S - c.vel a) * c.E - c.pressure eos * c.vel a := by
    simp only [physFlux, eulerFlux, hm]; field_simp; ring
  rw [e2, e3, hE]
  have e4 : ∑ i, (c.rho * (S - c.vel a) * c.vel i) ^ 2 = (c.rho * (S - c.vel a)) ^ 2 * ∑ i, c.vel i ^ 2 := by
    rw [Finset.mul_sum]; exact Finset.sum_congr rfl fun i _ => by ring
  rw [e4]
  have h1 : c.pressure eos ^ 2 < 2 * c.rho * c.eint * (S - c.vel a) ^ 2 := by
    refine lt_of_lt_of_le (fast_state he hf hc) ?_
    have := eint_pos he hf hc
    have h0 := hc.1
    exact mul_le_mul_of_nonneg_left hS (by positivity)
  nlinarith

theorem hllState_pos {eos : EoS K} (he : eos.Lawful) (hf : eos.Fast) {cL cR : Cons d K} (hL : cL.Adm eos)
    (hR : cR.Adm eos) {a : Fin d} {wL wR : K} (h1 : wL - cL.vel a < 0) (h2 : 0 < wR - cR.vel a)
    (h3 : cL.cs eos ^ 2 ≤ (wL - cL.vel a) ^ 2) (h4 : cR.cs eos ^ 2 ≤ (wR - cR.vel a) ^ 2) (hw : wL < wR) :
    0 < (hllState cL cR (physFlux eos cL a) (physFlux eos cR a) wL wR).rho ∧
    0 < (hllState cL cR (physFlux eos cL a) (physFlux eos cR a) wL wR).eint := by
  have hw' : 0 < wR - wL := by linarith
  have mL : (physFlux eos cL a).rho = cL.rho * cL.vel a := by
    have := hL.1.ne'
    simp only [physFlux, eulerFlux, Cons.vel]; field_simp
  have mR : (physFlux eos cR a).rho = cR.rho * cR.vel a := by
    have := hR.1.ne'
    simp only [physFlux, eulerFlux, Cons.vel]; field_simp
  have p1 : 0 < wR * cR.rho - (physFlux eos cR a).rho := by
    rw [mR]; have := mul_pos hR.1 h2; linarith
  have p2 : 0 < (physFlux eos cL a).rho - wL * cL.rho := by
    rw [mL]; have := mul_neg_of_pos_of_neg hL.1 h1; linarith
  have q1 := cone_wave he hf hR h4
  have q2 := cone_wave he hf hL h3
  have q2' : ∑ i, ((physFlux eos cL a).rhou i - wL * cL.rhou i) ^ 2 <
      2 * ((physFlux eos cL a).rho - wL * cL.rho) * ((physFlux eos cL a).E - wL * cL.E) := by
    have : ∀ i, ((physFlux eos cL a).rhou i - wL * cL.rhou i) ^ 2 = (wL * cL.rhou i - (physFlux eos cL a).rhou i) ^ 2 :=
      fun i => by ring
    simp only [this]
    linarith
  have q := cone_add p1 p2 q1 q2'
  have hrho : 0 < (hllState cL cR (physFlux eos cL a) (physFlux eos cR a) wL wR).rho := by
    show 0 < _ / _
    apply div_pos _ hw'
    linarith
  refine ⟨hrho, (eint_pos_iff hrho).2 ?_⟩
  simp only [hllState, div_pow]
  rw [← Finset.sum_div]
  have e : 2 * ((wR * cR.rho - wL * cL.rho + (physFlux eos cL a).rho - (physFlux eos cR a).rho) / (wR - wL)) *
      ((wR * cR.E - wL * cL.E + (physFlux eos cL a).E - (physFlux eos cR a).E) / (wR - wL)) =
      (2 * (wR * cR.rho - (physFlux eos cR a).rho + ((physFlux eos cL a).rho - wL * cL.rho)) *
      (wR * cR.E - (physFlux eos cR a).E + ((physFlux eos cL a).E - wL * cL.E))) / (wR - wL) ^ 2 := by
    field_simp
    ring
  rw [e]
  apply div_lt_div_of_pos_right _ (by positivity)
  refine lt_of_le_of_lt (le_of_eq ?_) q
  exact Finset.sum_congr rfl fun i _ => by ring

end Heracles

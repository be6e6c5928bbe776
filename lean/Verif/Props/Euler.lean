import Verif.Lemmas.Euler
import Verif.Lemmas.Mesh
import Verif.Spec.Euler

/-!
# Properties of the Euler state conversions (C14, C15, C16)
-/

namespace Heracles

variable {d : ℕ} {K : Type} [Field K] [LinearOrder K] [IsStrictOrderedRing K]

/-- **C14.** For positive density the two conversions are inverse of each other; `EoS.Lawful` holds for
every perfect gas accepted by the constructor (`C14_perfect_gas`). -/
theorem C14_conversions_inverse {eos : EoS K} (he : eos.Lawful) :
    (∀ p : Prim d K, 0 < p.rho → toPrim eos (toCons eos p) = p) ∧
    (∀ c : Cons d K, 0 < c.rho → toCons eos (toPrim eos c) = c) :=
  ⟨fun _ h => toPrim_toCons he h, fun _ h => toCons_toPrim he h⟩

/-- **C14** for the perfect gas, in physical terms: density is untouched, momentum is `rho u`, energy is
`P / (gamma - 1) + rho |u|² / 2`, and converting back gives the same state. -/
theorem C14_perfect_gas {gamma mmw : Dbl} {g : Gas} (hg : Gas.mk? gamma mmw = .ok g) (p : Prim d ℝ) (hr : 0 < p.rho) :
    toCons (PerfectGas.toEoS g) p =
      ⟨p.rho, fun i => p.rho * p.u i, p.P / (g.gamma - 1) + p.rho * (∑ i, (p.u i) ^ 2) / 2⟩ ∧
    toPrim (PerfectGas.toEoS g) (toCons (PerfectGas.toEoS g) p) = p := by
  have hp : g.Physical := by
    unfold Gas.mk? at hg
    split_ifs at hg with h1 h2
    cases hg
    rw [not_or, not_not] at h1 h2
    cases gamma with
    | fin x =>
      cases mmw with
      | fin y => exact ⟨not_le.1 h1.2, not_le.1 h2.2, rfl⟩
      | inf _ => exact absurd h2.1 id
      | nan => exact absurd h2.1 id
    | inf _ => exact absurd h1.1 id
    | nan => exact absurd h1.1 id
  refine ⟨?_, toPrim_toCons (PerfectGas.lawful hp) hr⟩
  have h1 := kB_pos; have h2 := mP_pos; have h3 := hp.mmw; have h4 := hp.gammaM1_pos
  have e : PerfectGas.evolFromPres g p.rho p.P = p.P / (g.gamma - 1) := by
    rw [← hp.gammaM1]
    simp only [PerfectGas.evolFromPres, PerfectGas.evolFromTemp, PerfectGas.tempFromPres]
    field_simp
  refine Cons.ext rfl rfl ?_
  show PerfectGas.evolFromPres g p.rho p.P + p.rho * (∑ i, p.u i * p.u i) / 2 = _
  rw [e]
  simp only [pow_two]

example : ∃ (g : Gas), Gas.mk? (.fin 2) (.fin 1) = .ok g ∧ (PerfectGas.toEoS g).Lawful := by
  refine ⟨⟨2, 2 - 1, 1⟩, ?_, PerfectGas.lawful ⟨by norm_num, by norm_num, rfl⟩⟩
  unfold Gas.mk?
  rw [if_neg, if_neg] <;> simp [Dbl.isFinite, Dbl.leConst, Dbl.toReal]

/-- **C16.** Both overloads of `compute_flux` give the textbook flux, hence agree on corresponding states. -/
theorem C16_flux_from_either_representation {eos : EoS K} (he : eos.Lawful) (a : Fin d) :
    (∀ c : Cons d K, 0 < c.rho →
      fluxCons eos c a = eulerFlux c.rho c.rhou c.E (eos.presFromEvol c.rho (c.E - (∑ i, c.rhou i ^ 2) / (2 * c.rho))) a ∧
      fluxPrim eos (toPrim eos c) a = fluxCons eos c a) ∧
    (∀ p : Prim d K, 0 < p.rho → fluxCons eos (toCons eos p) a = fluxPrim eos p a) := by
  have hA : ∀ c : Cons d K, 0 < c.rho →
      fluxCons eos c a = eulerFlux c.rho c.rhou c.E (eos.presFromEvol c.rho (c.E - (∑ i, c.rhou i ^ 2) / (2 * c.rho))) a := by
    intro c hr
    have hr' := hr.ne'
    have hev : c.evol = c.E - (∑ i, c.rhou i ^ 2) / (2 * c.rho) := by
      simp only [Cons.evol, Cons.ek, pow_two]
      field_simp
    apply Flux.ext
    · simp only [fluxCons, eulerFlux]; field_simp
    · funext i
      simp only [fluxCons, eulerFlux, hev, Function.update_apply]
      split_ifs with h
      · subst h; field_simp
      · field_simp; ring
    · simp only [fluxCons, eulerFlux, hev]
      ring
  have hB : ∀ c : Cons d K, 0 < c.rho → fluxPrim eos (toPrim eos c) a = fluxCons eos c a := by
    intro c hr
    have hr' := hr.ne'
    have hE : (toPrim eos c).ek + eos.evolFromPres c.rho (eos.presFromEvol c.rho c.evol) = c.E := by
      rw [ek_toPrim hr, he.evol_pres _ _ hr, Cons.evol]; ring
    apply Flux.ext
    · simp only [fluxPrim, fluxCons, toPrim]; field_simp
    · funext i
      simp only [fluxPrim, fluxCons, toPrim, Function.update_apply]
      split_ifs with h
      · subst h; field_simp
      · field_simp
    · have : (fluxPrim eos (toPrim eos c) a).E = c.rhou a / c.rho *
          ((toPrim eos c).ek + eos.evolFromPres c.rho (eos.presFromEvol c.rho c.evol) + eos.presFromEvol c.rho c.evol) := rfl
      rw [this, hE]; rfl
  refine ⟨fun c hr => ⟨hA c hr, hB c hr⟩, fun p hr => ?_⟩
  have := hB (toCons eos p) hr
  rw [toPrim_toCons he hr] at this
  exact this.symm

/-- **C15.** `conv_prim_to_cons` over any execution order `l` of a box `[b, e)` inside the arrays: no access
is out of bounds, exactly the cells of the box are written, each with the pointwise conversion. -/
theorem C15_prim_to_cons (eos : EoS K) {b e : Cell} {l : List Cell} (hl : IsSchedule l b e) (rho : View Cell K)
    (up : View Cell (VelPres d K)) (out : View Cell (MomEn d K))
    (hin : ∀ c, inBox b e c → rho.dom c ∧ up.dom c ∧ out.dom c) :
    ∃ out', convPrimToCons eos l rho up out = some out' ∧ out'.dom = out.dom ∧
      (∀ c, inBox b e c → out'.val c = ⟨fun i => rho.val c * (up.val c).u i,
        eos.evolFromPres (rho.val c) (up.val c).P + rho.val c * (∑ i, (up.val c).u i ^ 2) / 2⟩) ∧
      (∀ c, ¬ inBox b e c → out'.val c = out.val c) := by
  have h := parFor_update l hl.1 out (fun c out => do
    let r ← rho.rd c
    let q ← up.rd c
    let s := toCons eos { rho := r, u := q.u, P := q.P }
    out.wr c ({ rhou := s.rhou, E := s.E } : MomEn d K))
    (fun c => ⟨fun i => rho.val c * (up.val c).u i,
        eos.evolFromPres (rho.val c) (up.val c).P + rho.val c * (∑ i, (up.val c).u i ^ 2) / 2⟩) (by
      intro c hc w hw _
      obtain ⟨h1, h2, h3⟩ := hin c ((hl.2 c).1 hc)
      rw [View.rd_of_dom h1]
      simp only [Option.bind_eq_bind, Option.bind_some]
      rw [View.rd_of_dom h2]
      simp only [Option.bind_some]
      rw [View.wr_of_dom (by rw [hw]; exact h3)]
      simp only [toCons, Prim.ek, pow_two])
  refine ⟨_, h, rfl, ?_, ?_⟩
  · intro c hc
    show (if c ∈ l then _ else _) = _
    rw [if_pos ((hl.2 c).2 hc)]
  · intro c hc
    show (if c ∈ l then _ else _) = _
    rw [if_neg (fun h => hc ((hl.2 c).1 h))]

/-- **C15** for the opposite conversion. -/
theorem C15_cons_to_prim (eos : EoS K) {b e : Cell} {l : List Cell} (hl : IsSchedule l b e) (rho : View Cell K)
    (me : View Cell (MomEn d K)) (out : View Cell (VelPres d K))
    (hin : ∀ c, inBox b e c → rho.dom c ∧ me.dom c ∧ out.dom c) :
    ∃ out', convConsToPrim eos l rho me out = some out' ∧ out'.dom = out.dom ∧
      (∀ c, inBox b e c → out'.val c = ⟨fun i => (me.val c).rhou i / rho.val c,
        eos.presFromEvol (rho.val c) ((me.val c).E - (∑ i, (me.val c).rhou i ^ 2) / rho.val c / 2)⟩) ∧
      (∀ c, ¬ inBox b e c → out'.val c = out.val c) := by
  have h := parFor_update l hl.1 out (fun c out => do
    let r ← rho.rd c
    let q ← me.rd c
    let s := toPrim eos { rho := r, rhou := q.rhou, E := q.E }
    out.wr c ({ u := s.u, P := s.P } : VelPres d K))
    (fun c => ⟨fun i => (me.val c).rhou i / rho.val c,
        eos.presFromEvol (rho.val c) ((me.val c).E - (∑ i, (me.val c).rhou i ^ 2) / rho.val c / 2)⟩) (by
      intro c hc w hw _
      obtain ⟨h1, h2, h3⟩ := hin c ((hl.2 c).1 hc)
      rw [View.rd_of_dom h1]
      simp only [Option.bind_eq_bind, Option.bind_some]
      rw [View.rd_of_dom h2]
      simp only [Option.bind_some]
      rw [View.wr_of_dom (by rw [hw]; exact h3)]
      simp only [toPrim, Cons.evol, Cons.ek, pow_two])
  refine ⟨_, h, rfl, ?_, ?_⟩
  · intro c hc
    show (if c ∈ l then _ else _) = _
    rw [if_pos ((hl.2 c).2 hc)]
  · intro c hc
    show (if c ∈ l then _ else _) = _
    rw [if_neg (fun h => hc ((hl.2 c).1 h))]

/-- **C15**, round trip: converting to conservative variables and back over a box (in two possibly
different orders) restores the velocities and the pressure wherever the density is positive. -/
theorem C15_round_trip {eos : EoS K} (he : eos.Lawful) {b e : Cell} {l l' : List Cell} (hl : IsSchedule l b e)
    (hl' : IsSchedule l' b e) (rho : View Cell K) (up : View Cell (VelPres d K)) (me : View Cell (MomEn d K))
    (hin : ∀ c, inBox b e c → rho.dom c ∧ up.dom c ∧ me.dom c) (hpos : ∀ c, inBox b e c → 0 < rho.val c) :
    ((convPrimToCons eos l rho up me).bind fun me' => convConsToPrim eos l' rho me' up) = some up := by
  obtain ⟨me', h1, h2, h3, -⟩ := C15_prim_to_cons eos hl rho up me hin
  rw [h1, Option.bind_some]
  obtain ⟨up', g1, g2, g3, g4⟩ := C15_cons_to_prim eos hl' rho me' up
    (fun c hc => ⟨(hin c hc).1, by rw [h2]; exact (hin c hc).2.2, (hin c hc).2.1⟩)
  rw [g1]
  congr 1
  refine View.ext' g2 (funext fun c => ?_)
  by_cases hc : inBox b e c
  · have hp := toPrim_toCons he (p := ⟨rho.val c, (up.val c).u, (up.val c).P⟩) (hpos c hc)
    rw [g3 c hc, h3 c hc]
    apply VelPres.ext
    · have := congrArg Prim.u hp
      simpa [toPrim, toCons] using this
    · have := congrArg Prim.P hp
      simpa [toPrim, toCons, Cons.evol, Cons.ek, Prim.ek, pow_two] using this
  · exact g4 c hc

/-- Non-vacuity: the whole interior of a 4x1x1 array, in lexicographic order. -/
example : IsSchedule (boxList 0 ![4, 1, 1]) 0 ![4, 1, 1] ∧
    ∀ c, inBox 0 ![4, 1, 1] c → inExt ![4, 1, 1] c = true :=
  ⟨boxList_isSchedule _ _, fun c hc => inExt_iff.2 hc⟩

end Heracles

import Verif.Model.PressureFix
import Verif.Lemmas.Kokkos
import Verif.Lemmas.Limiter
import Mathlib.Tactic.FieldSimp
import Mathlib.Tactic.Positivity
import Mathlib.Tactic.Linarith
import Mathlib.Algebra.BigOperators.Fin
import Mathlib.Algebra.BigOperators.Field

/-!
# C52 Pressure fix

The full claim: where the fix does not trigger the energy is untouched; where it triggers the new total energy is the kinetic energy of
the new state plus a blend of the internal energy of the Godunov update and of the internal energy equation. The code adds the kinetic
energy of the state *before* the update: `C52_violated`. `C52_triggered_partial` is what holds.
-/

namespace Heracles

variable {d n : ℕ} {K : Type} [Field K] [LinearOrder K]

/-! ## Specification -/

/-- Kinetic energy per unit volume. -/
def kinetic (s : Fields d n K) : K := (∑ i, s.rhou i ^ 2) / (2 * s.rho)

/-- Internal energy per unit volume. -/
def internal (s : Fields d n K) : K := s.E - kinetic s

/-- Finite-volume divergence of a flux given by its values on the two faces normal to each direction. -/
def fvDiv (fL fR sL sR : Fin d → K) (v : K) : K := (∑ a, (fR a * sR a - fL a * sL a)) / v

/-- What the fixed energy should be: kinetic energy of the new state `q` plus the blend, with weight `α`, of the internal energy of `q` and
of the internal energy `e` of another scheme. -/
def Blended (q : Fields d n K) (α e E' : K) : Prop := E' = kinetic q + (α * internal q + (1 - α) * e)

/-- Velocity of a face: mean of the velocities of the two reconstructed states. -/
def faceVel (l r : Fields d n K) (i : Fin d) : K := (l.rhou i / l.rho + r.rhou i / r.rho) / 2

/-- Internal energy carried through the lower face with velocity `v`: that of the upwind cell. -/
def upwindL (v : K) (before here : Fields d n K) : K := if v < 0 then internal here else internal before

/-- Internal energy carried through the upper face with velocity `v`: that of the upwind cell. -/
def upwindR (v : K) (here after : Fields d n K) : K := if v > 0 then internal here else internal after

/-- The internal energy scheme of the fix as coded: for each direction `a` the sum over *all* components of the face velocity is
taken for the divergence. -/
def fixInternal (dt P : K) (s : Fields d n K) (um uPl : Fin d → Fields d n K) (r0 : Fin 2 → Fin d → Fields d n K)
    (rm rp : Fin d → Fin 2 → Fin d → Fields d n K) (ds : Fin 3 → K) (dsp : Fin d → Fin 3 → K) (dv : K) : K :=
  internal s - dt * ∑ a, (P * fvDiv (faceVel (rm a 1 a) (r0 0 a)) (faceVel (r0 1 a) (rp a 0 a)) (ds ∘ ax) (dsp a ∘ ax) dv +
    fvDiv (fun i => faceVel (rm a 1 a) (r0 0 a) i * upwindL (faceVel (rm a 1 a) (r0 0 a) i) (um a) s)
      (fun i => faceVel (r0 1 a) (rp a 0 a) i * upwindR (faceVel (r0 1 a) (rp a 0 a) i) s (uPl a)) (ds ∘ ax) (dsp a ∘ ax) dv)

/-- The internal energy equation of a finite volume scheme: only the normal component of the face velocity enters. -/
def properInternal (dt P : K) (s : Fields d n K) (um uPl : Fin d → Fields d n K) (r0 : Fin 2 → Fin d → Fields d n K)
    (rm rp : Fin d → Fin 2 → Fin d → Fields d n K) (ds : Fin 3 → K) (dsp : Fin d → Fin 3 → K) (dv : K) : K :=
  let vL : Fin d → K := fun a => faceVel (rm a 1 a) (r0 0 a) a
  let vR : Fin d → K := fun a => faceVel (r0 1 a) (rp a 0 a) a
  internal s - dt * (P * fvDiv vL vR (ds ∘ ax) (fun a => dsp a (ax a)) dv +
    fvDiv (fun a => vL a * upwindL (vL a) (um a) s) (fun a => vR a * upwindR (vR a) s (uPl a)) (ds ∘ ax) (fun a => dsp a (ax a)) dv)

variable [IsStrictOrderedRing K]

theorem kinetic_eq (s : Fields d n K) : s.cons.ek = kinetic s := by
  unfold Cons.ek kinetic Fields.cons
  rw [div_div, mul_comm s.rho 2]
  congr 1
  exact Finset.sum_congr rfl fun i _ => (sq _).symm

/-! ## The kernel -/

/-- The energy of a cell where the fix triggers: the kinetic energy of the state *before* the update and the blend. -/
theorem pressureFixEnergy_eq (eos : EoS K) (dt eps : K) (s q : Fields d n K) (um uPl : Fin d → Fields d n K) (r0 : Fin 2 → Fin d → Fields d n K)
    (rm rp : Fin d → Fin 2 → Fin d → Fields d n K) (ds : Fin 3 → K) (dsp : Fin d → Fin 3 → K) (dv : K) :
    ∃ α, (internal s < eps / 10 * kinetic s → α = 0) ∧
      (eps / 10 * kinetic s ≤ internal s → α = internal s ^ 2 / (eps * kinetic s) ^ 2) ∧
      pressureFixEnergy eos dt eps s q um uPl r0 rm rp ds dsp dv = kinetic s + (α * internal q +
        (1 - α) * fixInternal dt (eos.presFromEvol s.rho (internal s)) s um uPl r0 rm rp ds dsp dv) := by
  have hsum : 1 / 2 * ∑ idr, s.rhou idr * s.rhou idr / s.rho = kinetic s := by
    rw [← kinetic_eq]
    unfold Cons.ek Fields.cons
    rw [Finset.sum_div]
    ring
  have hP : (toPrim eos s.cons).P = eos.presFromEvol s.rho (internal s) := by
    show eos.presFromEvol s.rho (s.E - s.cons.ek) = _
    rw [kinetic_eq]
    rfl
  refine ⟨if internal s < eps / 10 * kinetic s then 0 else internal s ^ 2 / (eps * kinetic s) ^ 2, fun h => if_pos h,
    fun h => if_neg (not_lt.2 h), ?_⟩
  unfold pressureFixEnergy
  simp only [kinetic_eq]
  rw [hsum, show s.E - kinetic s = internal s from rfl, show q.E - kinetic q = internal q from rfl, hP,
    show internal s * internal s / (kinetic s * kinetic s * eps * eps) = internal s ^ 2 / (eps * kinetic s) ^ 2 by ring_nf]
  generalize (if internal s < eps / 10 * kinetic s then 0 else internal s ^ 2 / (eps * kinetic s) ^ 2) = α
  generalize eos.presFromEvol s.rho (internal s) = P
  have hX : ∀ X Y : K, X = Y → internal s + (α * (internal q - internal s) + (1 - α) * (dt * X)) + kinetic s =
      kinetic s + (α * internal q + (1 - α) * (internal s + dt * Y)) := by
    intro X Y h
    rw [h]
    ring
  unfold fixInternal
  rw [sub_eq_add_neg (internal s), ← mul_neg]
  apply hX
  rw [Finset.mul_sum, ← Finset.sum_sub_distrib, ← Finset.sum_neg_distrib]
  refine Finset.sum_congr rfl fun a _ => ?_
  unfold fvDiv
  rw [Finset.sum_div, Finset.sum_div, Finset.mul_sum, Finset.mul_sum, neg_add, ← Finset.sum_neg_distrib, ← Finset.sum_neg_distrib,
    ← Finset.sum_sub_distrib, ← Finset.sum_add_distrib]
  refine Finset.sum_congr rfl fun i _ => ?_
  have e1 : ((toPrim eos (rm a 1 a).cons).u i + (toPrim eos (r0 0 a).cons).u i) / 2 = faceVel (rm a 1 a) (r0 0 a) i := rfl
  have e2 : ((toPrim eos (r0 1 a).cons).u i + (toPrim eos (rp a 0 a).cons).u i) / 2 = faceVel (r0 1 a) (rp a 0 a) i := rfl
  rw [e1, e2]
  show _ = -(P * ((faceVel (r0 1 a) (rp a 0 a) i * dsp a (ax i) - faceVel (rm a 1 a) (r0 0 a) i * ds (ax i)) / dv)) +
    -((faceVel (r0 1 a) (rp a 0 a) i * upwindR (faceVel (r0 1 a) (rp a 0 a) i) s (uPl a) * dsp a (ax i) -
      faceVel (rm a 1 a) (r0 0 a) i * upwindL (faceVel (rm a 1 a) (r0 0 a) i) (um a) s * ds (ax i)) / dv)
  unfold upwindR upwindL
  rw [show (uPl a).E - kinetic (uPl a) = internal (uPl a) from rfl, show (um a).E - kinetic (um a) = internal (um a) from rfl]
  ring

/-- In one dimension the internal energy scheme of the fix is the finite volume scheme for the internal energy equation. -/
theorem fixInternal_one (dt P : K) (s : Fields 1 n K) (um uPl : Fin 1 → Fields 1 n K) (r0 : Fin 2 → Fin 1 → Fields 1 n K)
    (rm rp : Fin 1 → Fin 2 → Fin 1 → Fields 1 n K) (ds : Fin 3 → K) (dsp : Fin 1 → Fin 3 → K) (dv : K) :
    fixInternal dt P s um uPl r0 rm rp ds dsp dv = properInternal dt P s um uPl r0 rm rp ds dsp dv := by
  unfold fixInternal properInternal fvDiv
  simp only [Fin.sum_univ_one]
  rfl

/-- The weight of the Godunov energy is between 0 and 1. -/
theorem weight_mem {e k eps α : K} (hk : 0 ≤ k) (heps : 0 < eps) (ht : e < eps * k) (h0 : e < eps / 10 * k → α = 0)
    (h1 : eps / 10 * k ≤ e → α = e ^ 2 / (eps * k) ^ 2) : 0 ≤ α ∧ α < 1 := by
  by_cases h : e < eps / 10 * k
  · rw [h0 h]
    exact ⟨le_rfl, one_pos⟩
  · have he : 0 ≤ e := le_trans (by positivity) (not_lt.1 h)
    rw [h1 (not_lt.1 h)]
    refine ⟨by positivity, ?_⟩
    rw [div_lt_one (pow_pos (he.trans_lt ht) 2)]
    exact pow_lt_pow_left₀ ht he two_ne_zero

/-- The region read and written by the fix is inside the arrays. -/
structure FixFits (g : GridData K) (b e : Cell) (l : List Cell) (U : View Cell (Fields d n K)) (rec : FaceArr d (Fields d n K))
    (new : View Cell (Fields d n K)) : Prop where
  sched : IsSchedule l b e
  new : ∀ c, inBox b e c → new.dom c = true
  own : ∀ c, inBox b e c → U.dom c = true ∧ rec.dom c = true ∧ g.ds.dom c = true ∧ g.dv.dom c = true
  left : ∀ c, inBox b e c → ∀ a : Fin d, U.dom (lindex a.val c) = true ∧ rec.dom (lindex a.val c) = true
  right : ∀ c, inBox b e c → ∀ a : Fin d, U.dom (rindex a.val c) = true ∧ rec.dom (rindex a.val c) = true ∧ g.ds.dom (rindex a.val c) = true

/-- The value written in each cell. -/
def fixVal (eos : EoS K) (g : GridData K) (dt eps : K) (U : View Cell (Fields d n K)) (rec : FaceArr d (Fields d n K)) (q : Fields d n K)
    (c : Cell) : K :=
  if internal (U.val c) < eps * kinetic (U.val c) then
    pressureFixEnergy eos dt eps (U.val c) q (fun a => U.val (lindex a.val c)) (fun a => U.val (rindex a.val c)) (rec.val c)
      (fun a => rec.val (lindex a.val c)) (fun a => rec.val (rindex a.val c)) (g.ds.val c) (fun a => g.ds.val (rindex a.val c)) (g.dv.val c)
  else q.E

theorem pressureFix_eq (eos : EoS K) (g : GridData K) (dt eps : K) {b e : Cell} {l : List Cell} {U : View Cell (Fields d n K)}
    {rec : FaceArr d (Fields d n K)} {new : View Cell (Fields d n K)} (hf : FixFits g b e l U rec new) :
    pressureFix eos g dt eps l U rec new = some ⟨new.dom, fun c =>
      if inBox b e c then { new.val c with E := fixVal eos g dt eps U rec (new.val c) c } else new.val c⟩ := by
  unfold pressureFix
  rw [parFor_update l hf.sched.1 new _ (fun c => { new.val c with E := fixVal eos g dt eps U rec (new.val c) c }) fun c hc w hw hwv => ?_]
  · congr 1
    refine View.ext' rfl (funext fun c => ?_)
    exact if_congr (hf.sched.2 c) rfl rfl
  · have hb := (hf.sched.2 c).1 hc
    obtain ⟨o1, o2, o3, o4⟩ := hf.own c hb
    have hwd : w.dom c = true := by rw [hw]; exact hf.new c hb
    rw [View.rd_of_dom hwd, hwv c (Or.inr rfl)]
    simp only [Option.bind_eq_bind, Option.bind_some]
    have hcell : pressureFixCell eos g dt eps U rec (new.val c) c = some (fixVal eos g dt eps U rec (new.val c) c) := by
      unfold pressureFixCell fixVal
      rw [View.rd_of_dom o1]
      simp only [Option.bind_eq_bind, Option.bind_some, kinetic_eq]
      by_cases h : internal (U.val c) < eps * kinetic (U.val c)
      · rw [if_pos h, if_pos (show (U.val c).E - kinetic (U.val c) < _ from h), View.rd_of_dom o2,
          seqFin_some (fun a => View.rd_of_dom (hf.left c hb a).2), seqFin_some (fun a => View.rd_of_dom (hf.right c hb a).2.1),
          seqFin_some (fun a => View.rd_of_dom (hf.left c hb a).1), seqFin_some (fun a => View.rd_of_dom (hf.right c hb a).1),
          View.rd_of_dom o3, seqFin_some (fun a => View.rd_of_dom (hf.right c hb a).2.2), View.rd_of_dom o4]
        rfl
      · rw [if_neg h, if_neg (show ¬ ((U.val c).E - kinetic (U.val c) < _) from h)]
        rfl
    rw [hcell, Option.bind_some]
    exact View.wr_of_dom hwd

/-! ## C52 -/

/-- C52: where the internal energy is at least `eps` times the kinetic energy, and outside the range, nothing changes; the fix
changes only the energy. -/
theorem C52_untouched (eos : EoS K) (g : GridData K) (dt eps : K) {b e : Cell} {l : List Cell} {U : View Cell (Fields d n K)}
    {rec : FaceArr d (Fields d n K)} {new : View Cell (Fields d n K)} (hf : FixFits g b e l U rec new) :
    ∃ new', pressureFix eos g dt eps l U rec new = some new' ∧ new'.dom = new.dom ∧
      (∀ c, (new'.val c).rho = (new.val c).rho ∧ (new'.val c).rhou = (new.val c).rhou ∧ (new'.val c).fx = (new.val c).fx) ∧
      ∀ c, (¬ inBox b e c ∨ eps * kinetic (U.val c) ≤ internal (U.val c)) → new'.val c = new.val c := by
  refine ⟨_, pressureFix_eq eos g dt eps hf, rfl, fun c => ?_, fun c hc => ?_⟩
  · by_cases h : inBox b e c
    · simp only [h, if_true]
      exact ⟨trivial, trivial, trivial⟩
    · simp only [h, if_false]
      exact ⟨trivial, trivial, trivial⟩
  · by_cases h : inBox b e c
    · have h' := hc.resolve_left (not_not.2 h)
      simp only [h, if_true]
      unfold fixVal
      rw [if_neg (not_lt.2 h')]
    · simp only [h, if_false]

/-- C52, partial: where the fix triggers, the new energy is the kinetic energy of the state before the update plus a blend, with a weight
in [0, 1), of the internal energy of the Godunov update and that of the internal energy scheme of the fix. The weight of the Godunov
energy is 0 for internal energies below `eps/10` times the kinetic energy, else the square of the ratio to `eps` times the kinetic energy.
In a cell whose kinetic energy is not changed by the update this is the claim; in general it is not (`C52_violated`), nor is the internal
energy scheme consistent in several dimensions (`C52_shear_is_not_divergence_free`). -/
theorem C52_triggered_partial (eos : EoS K) (g : GridData K) (dt eps : K) (heps : 0 < eps) {b e : Cell} {l : List Cell}
    {U : View Cell (Fields d n K)} {rec : FaceArr d (Fields d n K)} {new new' : View Cell (Fields d n K)} (hf : FixFits g b e l U rec new)
    (h : pressureFix eos g dt eps l U rec new = some new') (c : Cell) (hc : inBox b e c) (hk : 0 ≤ kinetic (U.val c))
    (ht : internal (U.val c) < eps * kinetic (U.val c)) :
    let e := fixInternal dt (eos.presFromEvol (U.val c).rho (internal (U.val c))) (U.val c) (fun a => U.val (lindex a.val c))
      (fun a => U.val (rindex a.val c)) (rec.val c) (fun a => rec.val (lindex a.val c)) (fun a => rec.val (rindex a.val c)) (g.ds.val c)
      (fun a => g.ds.val (rindex a.val c)) (g.dv.val c)
    ∃ α, 0 ≤ α ∧ α < 1 ∧ (internal (U.val c) < eps / 10 * kinetic (U.val c) → α = 0) ∧
      (eps / 10 * kinetic (U.val c) ≤ internal (U.val c) → α = (internal (U.val c) / (eps * kinetic (U.val c))) ^ 2) ∧
      (new'.val c).E = kinetic (U.val c) + (α * internal (new.val c) + (1 - α) * e) ∧
      (kinetic (U.val c) = kinetic (new.val c) → Blended (new.val c) α e (new'.val c).E) := by
  intro ein
  rw [pressureFix_eq eos g dt eps hf] at h
  cases h
  obtain ⟨α, h0, h1, h2⟩ := pressureFixEnergy_eq eos dt eps (U.val c) (new.val c) (fun a => U.val (lindex a.val c))
    (fun a => U.val (rindex a.val c)) (rec.val c) (fun a => rec.val (lindex a.val c)) (fun a => rec.val (rindex a.val c)) (g.ds.val c)
    (fun a => g.ds.val (rindex a.val c)) (g.dv.val c)
  obtain ⟨a1, a2⟩ := weight_mem hk heps ht h0 h1
  have hE : (if inBox b e c then { new.val c with E := fixVal eos g dt eps U rec (new.val c) c } else new.val c).E =
      kinetic (U.val c) + (α * internal (new.val c) + (1 - α) * ein) := by
    rw [if_pos hc]
    show fixVal eos g dt eps U rec (new.val c) c = _
    unfold fixVal
    rw [if_pos ht, h2]
  refine ⟨α, a1, a2, h0, fun h => ?_, hE, fun hkk => ?_⟩
  · rw [h1 h, div_pow]
  unfold Blended
  rw [← hkk]
  exact hE

/-- C52, one dimension: where the fix triggers, the blend is with the internal energy of the finite volume scheme for the internal energy
equation: old internal energy minus `dt` times (pressure times divergence of the velocity plus divergence of the upwinded internal
energy flux), with face velocities the mean of the two reconstructed ones. -/
theorem C52_one_dimension_partial (eos : EoS K) (g : GridData K) (dt eps : K) (heps : 0 < eps) {b e : Cell} {l : List Cell}
    {U : View Cell (Fields 1 n K)} {rec : FaceArr 1 (Fields 1 n K)} {new new' : View Cell (Fields 1 n K)} (hf : FixFits g b e l U rec new)
    (h : pressureFix eos g dt eps l U rec new = some new') (c : Cell) (hc : inBox b e c) (hk : 0 ≤ kinetic (U.val c))
    (ht : internal (U.val c) < eps * kinetic (U.val c)) (hsame : kinetic (U.val c) = kinetic (new.val c)) :
    ∃ α, 0 ≤ α ∧ α < 1 ∧ (internal (U.val c) < eps / 10 * kinetic (U.val c) → α = 0) ∧
      Blended (new.val c) α (properInternal dt (eos.presFromEvol (U.val c).rho (internal (U.val c))) (U.val c)
        (fun a => U.val (lindex a.val c)) (fun a => U.val (rindex a.val c)) (rec.val c) (fun a => rec.val (lindex a.val c))
        (fun a => rec.val (rindex a.val c)) (g.ds.val c) (fun a => g.ds.val (rindex a.val c)) (g.dv.val c)) (new'.val c).E := by
  obtain ⟨α, h0, h1, h2, _, _, h5⟩ := C52_triggered_partial eos g dt eps heps hf h c hc hk ht
  refine ⟨α, h0, h1, h2, ?_⟩
  rw [← fixInternal_one]
  exact h5 hsame

end Heracles

namespace Heracles

/-- A gas over the rationals: pressure 2/3 of the internal energy. -/
def gasQ : EoS ℚ := { evolFromPres := fun _ P => 3 / 2 * P, presFromEvol := fun _ e => 2 / 3 * e, sound := fun _ _ => 1 }

/-- A cold uniform flow: density 1, momentum 2, internal energy 1/100. -/
def coldFlow : Fields 1 0 ℚ := { rho := 1, rhou := fun _ => 2, E := 201 / 100, fx := fun i => i.elim0 }

/-- The same flow accelerated by gravity during a step with `dt g = 1/10`: momentum and energy get `dt ρ g` and `dt ρ u g` (C58). -/
def coldFlowNew : Fields 1 0 ℚ := { rho := 1, rhou := fun _ => 21 / 10, E := 221 / 100, fx := fun i => i.elim0 }

/-- C52 is violated. In a uniform cold flow accelerated by gravity (all cells and faces alike, unit cells) the Godunov update gives a
positive internal energy; the fix triggers and replaces the energy by one whose internal part is negative, equal to no blend of the two
internal energies, which are both positive. -/
theorem C52_violated :
    let E' := pressureFixEnergy gasQ 1 (1 / 10) coldFlow coldFlowNew (fun _ => coldFlow) (fun _ => coldFlow) (fun _ _ => coldFlow)
      (fun _ _ _ => coldFlow) (fun _ _ _ => coldFlow) (fun _ => 1) (fun _ _ => 1) 1
    internal coldFlow < 1 / 10 * kinetic coldFlow ∧ 0 < internal coldFlowNew ∧ E' - kinetic coldFlowNew < 0 ∧
      (∀ α, 0 ≤ α → α ≤ 1 → ¬ Blended coldFlowNew α (internal coldFlow) E') := by
  intro E'
  have hE : E' = 201 / 100 := by
    obtain ⟨α, h0, _, h2⟩ := pressureFixEnergy_eq gasQ 1 (1 / 10) coldFlow coldFlowNew (fun _ => coldFlow) (fun _ => coldFlow)
      (fun _ _ => coldFlow) (fun _ _ _ => coldFlow) (fun _ _ _ => coldFlow) (fun _ => 1) (fun _ _ => 1) 1
    refine h2.trans ?_
    rw [h0 (by norm_num [internal, kinetic, coldFlow])]
    norm_num [internal, kinetic, coldFlow, fixInternal, fvDiv, gasQ, faceVel, upwindL, upwindR]
  rw [hE]
  refine ⟨?_, ?_, ?_, fun α h0 h1 => ?_⟩
  · norm_num [internal, kinetic, coldFlow]
  · norm_num [internal, kinetic, coldFlowNew]
  · norm_num [kinetic, coldFlowNew]
  · have e1 : kinetic coldFlowNew = 441 / 200 := by norm_num [kinetic, coldFlowNew]
    have e2 : internal coldFlowNew = 1 / 200 := by norm_num [internal, kinetic, coldFlowNew]
    have e3 : internal coldFlow = 1 / 100 := by norm_num [internal, kinetic, coldFlow]
    unfold Blended
    rw [e1, e2, e3]
    intro h
    linarith

/-- A state of density 1, velocity `(0, v)` and internal energy 1/100 in two dimensions. -/
def shear (v : ℚ) : Fields 2 0 ℚ := { rho := 1, rhou := ![0, v], E := 1 / 100 + v ^ 2 / 2, fx := fun i => i.elim0 }

/-- In two dimensions the "divergence" also adds the transverse velocity on every face (the loop over `ipos`): a shear flow with velocity
`(0, v(x))`, whose divergence is zero, steady under the Euler equations, loses internal energy. Velocities 2 in the cell, 1 before
and 3 after along the first direction, linear reconstruction, unit cells. -/
theorem C52_shear_is_not_divergence_free :
    let r0 : Fin 2 → Fin 2 → Fields 2 0 ℚ := fun side a => if a = 0 then (if side = 0 then shear (3 / 2) else shear (5 / 2)) else shear 2
    let rm : Fin 2 → Fin 2 → Fin 2 → Fields 2 0 ℚ := fun a _ _ => if a = 0 then shear (3 / 2) else shear 2
    let rp : Fin 2 → Fin 2 → Fin 2 → Fields 2 0 ℚ := fun a _ _ => if a = 0 then shear (5 / 2) else shear 2
    let um : Fin 2 → Fields 2 0 ℚ := fun a => if a = 0 then shear 1 else shear 2
    let uPl : Fin 2 → Fields 2 0 ℚ := fun a => if a = 0 then shear 3 else shear 2
    let vL : Fin 2 → ℚ := fun a => ((rm a 1 a).rhou a / (rm a 1 a).rho + (r0 0 a).rhou a / (r0 0 a).rho) / 2
    let vR : Fin 2 → ℚ := fun a => ((r0 1 a).rhou a / (r0 1 a).rho + (rp a 0 a).rhou a / (rp a 0 a).rho) / 2
    fvDiv vL vR (fun _ => 1) (fun _ => 1) 1 = 0 ∧
    internal (shear 2) < 1 / 10 / 10 * kinetic (shear 2) ∧
    pressureFixEnergy gasQ (1 / 10) (1 / 10) (shear 2) (shear 2) um uPl r0 rm rp (fun _ => 1) (fun _ _ => 1) 1 < (shear 2).E := by
  intro r0 rm rp um uPl vL vR
  refine ⟨?_, ?_, ?_⟩
  · norm_num [fvDiv, vL, vR, r0, rm, rp, shear, Fin.sum_univ_two]
  · norm_num [internal, kinetic, shear, Fin.sum_univ_two]
  · norm_num [pressureFixEnergy, toPrim, gasQ, Cons.ek, Cons.evol, Fields.cons, r0, rm, rp, um, uPl, shear, Fin.sum_univ_two]

/-- The hypotheses of `C52_triggered_partial` hold for a cold flow on an array of three cells. -/
example : ∃ (g : GridData ℚ) (l : List Cell) (U new : View Cell (Fields 1 0 ℚ)) (rec : FaceArr 1 (Fields 1 0 ℚ)),
    FixFits g ![1, 0, 0] ![2, 1, 1] l U rec new ∧ 0 ≤ kinetic (U.val ![1, 0, 0]) ∧
      internal (U.val ![1, 0, 0]) < 1 / 10 * kinetic (U.val ![1, 0, 0]) := by
  have hd : ∀ c : Cell, (1 ≤ c 0 ∧ c 0 < 2 ∧ c 1 = 0 ∧ c 2 = 0) → ∀ k : ℤ, -1 ≤ k → k ≤ 1 → inExt ![3, 1, 1] ![c 0 + k, c 1, c 2] = true := by
    intro c hc k h0 h1
    rw [inExt_iff]
    intro a
    fin_cases a <;> simp <;> omega
  have hb : ∀ c : Cell, inBox ![1, 0, 0] ![2, 1, 1] c → 1 ≤ c 0 ∧ c 0 < 2 ∧ c 1 = 0 ∧ c 2 = 0 := by
    intro c hc
    have h0 : 1 ≤ c 0 ∧ c 0 < 2 := hc 0
    have h1 : 0 ≤ c 1 ∧ c 1 < 1 := hc 1
    have h2 : 0 ≤ c 2 ∧ c 2 < 1 := hc 2
    omega
  have e0 : ∀ c : Cell, ![c 0 + 0, c 1, c 2] = c := by
    intro c
    funext a
    fin_cases a <;> simp
  have el : ∀ (a : Fin 1) (c : Cell), lindex a.val c = ![c 0 + -1, c 1, c 2] := by
    intro a c
    rw [Fin.fin_one_eq_zero a]
    funext b
    fin_cases b <;> simp [lindex, rindex, kron, sub_eq_add_neg]
  have er : ∀ (a : Fin 1) (c : Cell), rindex a.val c = ![c 0 + 1, c 1, c 2] := by
    intro a c
    rw [Fin.fin_one_eq_zero a]
    funext b
    fin_cases b <;> simp [lindex, rindex, kron, sub_eq_add_neg]
  refine ⟨⟨fun _ => View.line 3 fun _ => 1, fun _ => View.line 3 fun _ => 1, fun _ => View.line 3 fun _ => 1, ⟨inExt ![3, 1, 1], fun _ _ => 1⟩,
    ⟨inExt ![3, 1, 1], fun _ => 1⟩⟩, boxList ![1, 0, 0] ![2, 1, 1], ⟨inExt ![3, 1, 1], fun _ => coldFlow⟩, ⟨inExt ![3, 1, 1], fun _ => coldFlow⟩,
    ⟨inExt ![3, 1, 1], fun _ _ _ => coldFlow⟩, ⟨boxList_isSchedule _ _, fun c hc => ?_, fun c hc => ?_, fun c hc a => ?_, fun c hc a => ?_⟩, ?_, ?_⟩
  · have := hd c (hb c hc) 0 (by norm_num) (by norm_num)
    rwa [e0] at this
  · have := hd c (hb c hc) 0 (by norm_num) (by norm_num)
    rw [e0] at this
    exact ⟨this, this, this, this⟩
  · rw [el]
    exact ⟨hd c (hb c hc) _ (by norm_num) (by norm_num), hd c (hb c hc) _ (by norm_num) (by norm_num)⟩
  · rw [er]
    have := hd c (hb c hc) 1 (by norm_num) (by norm_num)
    exact ⟨this, this, this⟩
  · norm_num [kinetic, coldFlow]
  · norm_num [internal, kinetic, coldFlow]

end Heracles

import Verif.Model.Setup
import Verif.Model.Riemann
import Verif.Lemmas.Kokkos
import Verif.Lemmas.Geometry
import Mathlib.Analysis.SpecialFunctions.ExpDeriv
import Mathlib.Tactic.FieldSimp
import Mathlib.Tactic.Positivity
import Mathlib.Tactic.Linarith

/-!
# Broadcasts, user steps and named choices (C51, C53, C56)
-/

namespace Heracles

variable {d n m : ℕ} {K : Type}

/-! ## C56 -/

/-- Interior of the local array: `0 ≤ c a - nghost a < number of local cells`. -/
def interiorCell (nghost nLocal c : Cell) : Prop := ∀ a, nghost a ≤ c a ∧ c a < nghost a + nLocal a

instance (nghost nLocal c : Cell) : Decidable (interiorCell nghost nLocal c) := by unfold interiorCell; infer_instance

theorem noGhosts_box {cmin cmax : Cell} {ng : ℤ} {r r0 : Range} (hr : Range.mk? d cmin cmax ng = .ok r) (h0 : r.noGhosts = .ok r0) (c : Cell) :
    inBox (r0.cellBegin d) (r0.cellEnd d) c ↔ interiorCell (fun a => if a.val < d then ng else 0) (fun a => cmax a - cmin a) c := by
  by_cases h : ∀ a, 0 ≤ cmin a ∧ cmin a ≤ cmax a
  · obtain ⟨r', e, e1, e2, e3, e4, e5⟩ := Range.mk?_ok (ndim := d) (ng := ng) h
    rw [e] at hr
    cases hr
    unfold Range.noGhosts Range.withGhosts at h0
    split at h0
    · cases h0
    · cases h0
      unfold inBox interiorCell Range.cellBegin Range.cellEnd
      simp only [e1, e2, e5]
      refine forall_congr' fun a => ?_
      by_cases ha : a.val < d
      · simp only [ha, if_true]
        omega
      · simp only [ha, if_false]
        omega
  · obtain ⟨e, he⟩ := Range.mk?_error (ndim := d) (ng := ng) h
    rw [he] at hr
    cases hr

/-- C56: broadcasting a scalar on the interior of a rank fills every interior cell with it and changes no other cell, in any order. -/
theorem C56_scalar {cmin cmax : Cell} {ng : ℤ} {r r0 : Range} (hr : Range.mk? d cmin cmax ng = .ok r) (h0 : r.noGhosts = .ok r0)
    {l : List Cell} (hl : IsSchedule l (r0.cellBegin d) (r0.cellEnd d)) (v : K) (out : View Cell K)
    (hout : ∀ c, interiorCell (fun a => if a.val < d then ng else 0) (fun a => cmax a - cmin a) c → out.dom c = true) :
    ∃ out', broadcastScalar l v out = some out' ∧ out'.dom = out.dom ∧ ∀ c, out'.val c =
      if interiorCell (fun a => if a.val < d then ng else 0) (fun a => cmax a - cmin a) c then v else out.val c := by
  have hmem : ∀ c, c ∈ l ↔ interiorCell (fun a => if a.val < d then ng else 0) (fun a => cmax a - cmin a) c := fun c =>
    (hl.2 c).trans (noGhosts_box hr h0 c)
  refine ⟨_, parFor_update l hl.1 out _ (fun _ => v) fun i hi w hw _ => ?_, rfl, fun c => ?_⟩
  · exact View.wr_of_dom (by rw [hw]; exact hout i ((hmem i).1 hi))
  · exact if_congr (hmem c) rfl rfl

/-- C56: broadcasting a profile on the interior of a rank gives every interior cell the value of the profile at its first index
counted from the first interior cell, whatever the other indices, and changes no other cell, in any order. -/
theorem C56_profile {cmin cmax : Cell} {ng : ℤ} {r r0 : Range} (hr : Range.mk? d cmin cmax ng = .ok r) (h0 : r.noGhosts = .ok r0) (hd : 0 < d)
    {l : List Cell} (hl : IsSchedule l (r0.cellBegin d) (r0.cellEnd d)) (profile : ℤ → K) (out : View Cell K)
    (hout : ∀ c, interiorCell (fun a => if a.val < d then ng else 0) (fun a => cmax a - cmin a) c → out.dom c = true) :
    ∃ out', broadcastLine (r0.nghost 0) l (View.line (cmax 0 - cmin 0) profile) out = some out' ∧ out'.dom = out.dom ∧ ∀ c, out'.val c =
      if interiorCell (fun a => if a.val < d then ng else 0) (fun a => cmax a - cmin a) c then profile (c 0 - ng) else out.val c := by
  have hmem : ∀ c, c ∈ l ↔ interiorCell (fun a => if a.val < d then ng else 0) (fun a => cmax a - cmin a) c := fun c =>
    (hl.2 c).trans (noGhosts_box hr h0 c)
  have hng : r0.nghost 0 = ng := by
    by_cases h : ∀ a, 0 ≤ cmin a ∧ cmin a ≤ cmax a
    · obtain ⟨r', e, e1, e2, e3, e4, e5⟩ := Range.mk?_ok (ndim := d) (ng := ng) h
      rw [e] at hr
      cases hr
      unfold Range.noGhosts Range.withGhosts at h0
      split at h0
      · cases h0
      · cases h0
        show r.nghost 0 = ng
        rw [e5]
        exact if_pos hd
    · obtain ⟨e, he⟩ := Range.mk?_error (ndim := d) (ng := ng) h
      rw [he] at hr
      cases hr
  refine ⟨_, parFor_update l hl.1 out _ (fun c => profile (c 0 - ng)) fun i hi w hw _ => ?_, rfl, fun c => ?_⟩
  · have hi' := (hmem i).1 hi
    have h1 := hi' 0
    simp only [Fin.val_zero, hd, if_true] at h1
    rw [hng]
    have hdm : (View.line (cmax 0 - cmin 0) profile).dom (i 0 - ng) = true := by
      simp only [View.line, decide_eq_true_eq]
      omega
    rw [View.rd_of_dom hdm]
    exact View.wr_of_dom (by rw [hw]; exact hout i hi')
  · exact if_congr (hmem c) rfl rfl

/-- C56: the four-dimensional versions treat every component of the last index in the same way and independently. -/
theorem C56_components (one : List Cell → View Cell K → Option (View Cell K)) (l : Fin m → List Cell) (out res : Fin m → View Cell K)
    (h : ∀ i, one (l i) (out i) = some (res i)) : broadcastAll one l out = some res := by
  have key : ∀ (q : List (Fin m)) (o : Fin m → View Cell K), q.Nodup → (∀ i ∈ q, o i = out i) →
      q.foldlM (fun o i => do let v ← one (l i) (o i); return Function.update o i v) o = some (fun i => if i ∈ q then res i else o i) := by
    intro q
    induction q with
    | nil => intro o _ _; simp
    | cons a q ih =>
      intro o hn ho
      rw [List.nodup_cons] at hn
      have e : (do let v ← one (l a) (o a); return Function.update o a v : Option (Fin m → View Cell K)) = some (Function.update o a (res a)) := by
        rw [ho a (by simp), h a]; rfl
      rw [List.foldlM_cons, e, Option.bind_eq_bind, Option.bind_some, ih _ hn.2]
      · congr 1
        funext i
        by_cases hi : i = a
        · subst hi
          simp [hn.1]
        · simp [hi]
      · intro i hi
        have : i ≠ a := fun h => hn.1 (h ▸ hi)
        rw [Function.update_of_ne this]
        exact ho i (by simp [hi])
  have := key (List.finRange m) out (List.nodup_finRange m) (fun _ _ => rfl)
  refine this.trans (congrArg some (funext fun i => if_pos (List.mem_finRange i)))

/-- With ghosts in the range, which only an assertion absent from release builds excludes, the profile is read out of bounds. -/
theorem C56_ghosts_out_of_bounds (ng N : ℤ) (h : 0 < ng) (profile : ℤ → K) (out : View Cell K) (l : List Cell) (c : Cell) (hc : c 0 = ng - 1) :
    broadcastLine ng (c :: l) (View.line N profile) out = none := by
  unfold broadcastLine
  rw [parFor_cons]
  have : (View.line N profile).rd (c 0 - ng) = none := View.rd_eq_none (by
    simp only [View.line, decide_eq_false_iff_not]
    omega)
  rw [this]
  rfl

example : ∃ out', broadcastLine 2 (boxList ![2, 2, 0] ![5, 4, 1]) (View.line 3 fun i => 10 * i) ⟨inExt ![7, 6, 1], fun _ => -1⟩ = some out' ∧
    out'.val ![2, 3, 0] = 0 ∧ out'.val ![4, 2, 0] = 20 ∧ out'.val ![5, 2, 0] = -1 := by
  refine ⟨_, rfl, ?_⟩
  decide

example : ∃ r r0, Range.mk? 2 ![0, 0, 0] ![3, 2, 1] 2 = .ok r ∧ r.noGhosts = .ok r0 ∧ ∃ out',
    broadcastLine (r0.nghost 0) (boxList (r0.cellBegin 2) (r0.cellEnd 2)) (View.line 3 fun i => 10 * i) ⟨inExt ![7, 6, 1], fun _ => -1⟩ = some out' := by
  obtain ⟨r, hr, e1, e2, e3, e4, e5⟩ := Range.mk?_ok (ndim := 2) (cmin := ![0, 0, 0]) (cmax := ![3, 2, 1]) (ng := 2) (by decide)
  have h0 : r.noGhosts = .ok { r with ngEff := 0 } := by
    unfold Range.noGhosts Range.withGhosts
    rw [e3]
    rfl
  obtain ⟨out', h, -⟩ := C56_profile hr h0 (by norm_num) (boxList_isSchedule _ _) (fun i : ℤ => 10 * i) ⟨inExt ![7, 6, 1], fun _ => -1⟩ (by
    intro c hc
    show inExt _ c = true
    rw [inExt_iff]
    have h0 := hc 0
    have h1 := hc 1
    have h2 := hc 2
    simp at h0 h1 h2
    intro a
    fin_cases a <;> simp <;> omega)
  exact ⟨r, _, hr, h0, out', h⟩

/-! ## C51 -/

namespace Nickel

/-- Mean lives, energies released per decay and nucleus mass of the decay chain nickel 56 → cobalt 56 → iron 56, in SI units. -/
noncomputable def tauNi : ℝ := 760320
noncomputable def tauCo : ℝ := 9616320
noncomputable def mNi : ℝ := 55.9421278 * 1.66053906660e-27
noncomputable def qNi : ℝ := 1.75 * 1.602176634e-13
noncomputable def qCo : ℝ := 3.73 * 1.602176634e-13

/-- Number of nickel nuclei left at time `t`, per unit initial mass of nickel. -/
noncomputable def nNi (t : ℝ) : ℝ := Real.exp (-t / tauNi) / mNi

/-- Number of cobalt nuclei at time `t` (Bateman's solution). -/
noncomputable def nCo (t : ℝ) : ℝ := tauCo / (tauCo - tauNi) * (Real.exp (-t / tauCo) - Real.exp (-t / tauNi)) / mNi

/-- Power released: decays per unit time of each species times their energy. -/
noncomputable def power (t : ℝ) : ℝ := qNi * (nNi t / tauNi) + qCo * (nCo t / tauCo)

end Nickel

open Nickel in
/-- The numbers of nuclei of the specification solve the decay equations, starting with nickel only. -/
theorem C51_decay_chain (t : ℝ) :
    HasDerivAt nNi (-(nNi t / tauNi)) t ∧ HasDerivAt nCo (nNi t / tauNi - nCo t / tauCo) t ∧ nNi 0 = 1 / mNi ∧ nCo 0 = 0 := by
  have e : ∀ τ : ℝ, HasDerivAt (fun s => Real.exp (-s / τ)) (Real.exp (-t / τ) * (-1 / τ)) t := fun τ =>
    (((hasDerivAt_id t).neg).div_const τ).exp
  have h1 : tauNi ≠ 0 := by norm_num [tauNi]
  have h2 : tauCo ≠ 0 := by norm_num [tauCo]
  have h3 : tauCo - tauNi ≠ 0 := by norm_num [tauCo, tauNi]
  have h4 : mNi ≠ 0 := by norm_num [mNi]
  refine ⟨?_, ?_, ?_, ?_⟩
  · refine ((e tauNi).div_const mNi).congr_deriv ?_
    unfold nNi
    field_simp
  · refine ((((e tauCo).sub (e tauNi)).const_mul (tauCo / (tauCo - tauNi))).div_const mNi).congr_deriv ?_
    unfold nNi nCo
    field_simp
    ring
  · simp [nNi]
  · simp [nCo]

open Nickel in
/-- C51: the heating rate of the code is the power released by the decay chain per unit mass of initial nickel. -/
theorem C51_decay_rate (t : ℝ) : nickelEpsilon t = power t := by
  have hN : (8.8 : ℝ) * unitDay = tauNi := by norm_num [unitDay, tauNi]
  have hC : (111.3 : ℝ) * unitDay = tauCo := by norm_num [unitDay, tauCo]
  have hM : (55.9421278 : ℝ) * unitAmu = mNi := by norm_num [unitAmu, mNi]
  have hq : (1.75 : ℝ) * unitMeV = qNi := by norm_num [unitMeV, qNi]
  have hq' : (3.73 : ℝ) * unitMeV = qCo := by norm_num [unitMeV, qCo]
  have h1 : tauNi ≠ 0 := by norm_num [tauNi]
  have h2 : tauCo ≠ 0 := by norm_num [tauCo]
  have h3 : tauCo - tauNi ≠ 0 := by norm_num [tauCo, tauNi]
  have h4 : mNi ≠ 0 := by norm_num [mNi]
  unfold nickelEpsilon power nNi nCo
  rw [hN, hC, hM, hq, hq']
  simp only []
  generalize Real.exp (-t / tauNi) = a
  generalize Real.exp (-t / tauCo) = b
  field_simp
  ring

open Nickel in
/-- C51: the heating rate is positive at every time. -/
theorem C51_rate_pos (t : ℝ) : 0 < nickelEpsilon t := by
  have hN : (8.8 : ℝ) * unitDay = tauNi := by norm_num [unitDay, tauNi]
  have hC : (111.3 : ℝ) * unitDay = tauCo := by norm_num [unitDay, tauCo]
  have hM : (55.9421278 : ℝ) * unitAmu = mNi := by norm_num [unitAmu, mNi]
  have hq : (1.75 : ℝ) * unitMeV = qNi := by norm_num [unitMeV, qNi]
  have hq' : (3.73 : ℝ) * unitMeV = qCo := by norm_num [unitMeV, qCo]
  unfold nickelEpsilon
  rw [hN, hC, hM, hq, hq']
  have h1 : 0 < qNi * (tauCo / tauNi - 1) - qCo := by norm_num [qNi, qCo, tauCo, tauNi]
  have h2 : 0 < qCo := by norm_num [qCo]
  have h3 : 0 < 1 / (mNi * (tauCo - tauNi)) := by norm_num [mNi, tauCo, tauNi]
  have := Real.exp_pos (-t / tauNi)
  have := Real.exp_pos (-t / tauCo)
  positivity

/-- C51: the nickel step leaves every cell outside its range unchanged; in the range only the energy changes, by time step × density × mass
fraction × heating rate, in any order. -/
theorem C51_heating (t dt : ℝ) {b e : Cell} {l : List Cell} (hl : IsSchedule l b e) (v : View Cell (Fields d n ℝ)) (hn : 0 < n)
    (hv : ∀ c, inBox b e c → v.dom c = true) :
    ∃ v', heatNickel t dt l v = some v' ∧ v'.dom = v.dom ∧ (∀ c, ¬ inBox b e c → v'.val c = v.val c) ∧
      ∀ c, inBox b e c → (v'.val c).rho = (v.val c).rho ∧ (v'.val c).rhou = (v.val c).rhou ∧ (v'.val c).fx = (v.val c).fx ∧
        (v'.val c).E = (v.val c).E + dt * ((v.val c).rho * (v.val c).fx ⟨0, hn⟩) * Nickel.power t := by
  refine ⟨_, parFor_update l hl.1 v _ (fun c => { v.val c with E := (v.val c).E + (v.val c).fx ⟨0, hn⟩ * (v.val c).rho * nickelEpsilon t * dt })
    fun i hi w hw hwv => ?_, rfl, fun c hc => ?_, fun c hc => ?_⟩
  · have hdm : w.dom i = true := by rw [hw]; exact hv i ((hl.2 i).1 hi)
    have hval : w.val i = v.val i := hwv i (Or.inr rfl)
    rw [View.rd_of_dom hdm]
    simp only [Option.bind_eq_bind, Option.bind_some, dif_pos hn, hval]
    exact View.wr_of_dom hdm
  · exact if_neg fun h => hc ((hl.2 c).1 h)
  · have hm : c ∈ l := (hl.2 c).2 hc
    simp only [hm, if_true]
    refine ⟨trivial, trivial, trivial, ?_⟩
    rw [← C51_decay_rate]
    ring

/-- C51: with non-negative density, mass fraction and time step the energy does not decrease; it is unchanged where the fraction is
zero and strictly increases where density, fraction and time step are positive. -/
theorem C51_only_adds (t dt : ℝ) {b e : Cell} {l : List Cell} (hl : IsSchedule l b e) (v v' : View Cell (Fields d n ℝ)) (hn : 0 < n)
    (hv : ∀ c, inBox b e c → v.dom c = true) (h : heatNickel t dt l v = some v') (c : Cell) :
    (0 ≤ dt → 0 ≤ (v.val c).rho → 0 ≤ (v.val c).fx ⟨0, hn⟩ → (v.val c).E ≤ (v'.val c).E) ∧
    ((v.val c).fx ⟨0, hn⟩ = 0 → v'.val c = v.val c) ∧
    (inBox b e c → 0 < dt → 0 < (v.val c).rho → 0 < (v.val c).fx ⟨0, hn⟩ → (v.val c).E < (v'.val c).E) := by
  obtain ⟨w, hw, -, h1, h2⟩ := C51_heating t dt hl v hn hv
  rw [hw] at h
  cases h
  have hp := C51_rate_pos t
  rw [C51_decay_rate] at hp
  by_cases hc : inBox b e c
  · obtain ⟨e1, e2, e3, e4⟩ := h2 c hc
    refine ⟨fun a1 a2 a3 => ?_, fun a1 => ?_, fun _ a1 a2 a3 => ?_⟩
    · rw [e4]
      have : 0 ≤ dt * ((v.val c).rho * (v.val c).fx ⟨0, hn⟩) * Nickel.power t := by positivity
      linarith
    · refine Fields.ext e1 e2 ?_ e3
      rw [e4, a1]
      ring
    · rw [e4]
      have : 0 < dt * ((v.val c).rho * (v.val c).fx ⟨0, hn⟩) * Nickel.power t := by positivity
      linarith
  · rw [h1 c hc]
    exact ⟨fun _ _ _ => le_rfl, fun _ => rfl, fun h => absurd h hc⟩

/-- C51: the step named Off changes nothing. -/
theorem C51_off (user : View Cell (Fields d n ℝ) → Option (View Cell (Fields d n ℝ))) (t dt : ℝ) (l : List Cell) (v : View Cell (Fields d n ℝ)) :
    ∃ k, userStepConstruct "Off" = .ok k ∧ userStepExecute user k t dt l v = some v :=
  ⟨.off, by decide, rfl⟩

/-- The nickel step without passive scalar (accepted by the program) reads out of bounds. -/
theorem C51_without_scalars (t dt : ℝ) (l : List Cell) (c : Cell) (v : View Cell (Fields d 0 ℝ)) : heatNickel t dt (c :: l) v = none := by
  unfold heatNickel
  rw [parFor_cons]
  by_cases h : v.dom c = true
  · rw [View.rd_of_dom h]
    rfl
  · rw [View.rd_eq_none (by simpa using h)]
    rfl

/-- One cell with density 1 and nickel fraction 1/2. -/
noncomputable def exNickel : View Cell (Fields 1 1 ℝ) := ⟨inExt ![1, 1, 1], fun _ => ⟨1, fun _ => 0, 2, fun _ => 1 / 2⟩⟩

example : ∃ v', heatNickel 100 3 (boxList ![0, 0, 0] ![1, 1, 1]) exNickel = some v' ∧ (exNickel.val ![0, 0, 0]).E < (v'.val ![0, 0, 0]).E := by
  have hv : ∀ c, inBox ![0, 0, 0] ![1, 1, 1] c → exNickel.dom c = true := by
    intro c hc
    show inExt _ c = true
    rw [inExt_iff]
    intro a
    have := hc a
    fin_cases a <;> exact this
  obtain ⟨v', h, -⟩ := C51_heating 100 3 (boxList_isSchedule ![0, 0, 0] ![1, 1, 1]) exNickel (by norm_num) hv
  refine ⟨v', h, (C51_only_adds 100 3 (boxList_isSchedule ![0, 0, 0] ![1, 1, 1]) exNickel v' (by norm_num) hv h ![0, 0, 0]).2.2 (by decide) ?_ ?_ ?_⟩ <;>
    norm_num [exNickel]

/-! ## C53 -/

/-- `Selects f list`: the function `f` returns the paired value for the names of the list and an error for every other string. -/
def Selects {V : Type} (f : String → Except String V) (list : List (String × V)) : Prop :=
  (∀ s v, (s, v) ∈ list → f s = .ok v) ∧ ∀ s, s ∉ list.map Prod.fst → ∃ m, f s = .error m

/-- C53: limiters (exact names, case included). -/
theorem C53_limiters : Selects limiterFactory
    [("Constant", .constant), ("VanLeer", .vanLeer), ("Minmod", .minmod), ("VanAlbada", .vanAlbada)] := by
  refine ⟨?_, fun s hs => ?_⟩
  · intro s v h
    simp only [List.mem_cons, Prod.mk.injEq, List.not_mem_nil, or_false] at h
    rcases h with ⟨rfl, rfl⟩ | ⟨rfl, rfl⟩ | ⟨rfl, rfl⟩ | ⟨rfl, rfl⟩ <;> rfl
  · simp only [List.map_cons, List.map_nil, List.mem_cons, List.not_mem_nil, or_false, not_or] at hs
    unfold limiterFactory
    rw [if_neg hs.1, if_neg hs.2.1, if_neg hs.2.2.1, if_neg hs.2.2.2]
    exact ⟨_, rfl⟩

/-- C53: Riemann solvers. -/
theorem C53_solvers : Selects solverFactory [("HLL", .hll), ("HLLC", .hllc), ("Low Mach", .splitting)] := by
  refine ⟨?_, fun s hs => ?_⟩
  · intro s v h
    simp only [List.mem_cons, Prod.mk.injEq, List.not_mem_nil, or_false] at h
    rcases h with ⟨rfl, rfl⟩ | ⟨rfl, rfl⟩ | ⟨rfl, rfl⟩ <;> rfl
  · simp only [List.map_cons, List.map_nil, List.mem_cons, List.not_mem_nil, or_false, not_or] at hs
    unfold solverFactory
    rw [if_neg hs.1, if_neg hs.2.1, if_neg hs.2.2]
    exact ⟨_, rfl⟩

/-- C53: boundary conditions. -/
theorem C53_boundaries : Selects bcConstruct
    [("NullGradient", .nullGradient), ("Periodic", .periodic), ("Reflexive", .reflexive), ("UserDefined", .userDefined)] := by
  refine ⟨?_, fun s hs => ?_⟩
  · intro s v h
    simp only [List.mem_cons, Prod.mk.injEq, List.not_mem_nil, or_false] at h
    rcases h with ⟨rfl, rfl⟩ | ⟨rfl, rfl⟩ | ⟨rfl, rfl⟩ | ⟨rfl, rfl⟩ <;> rfl
  · simp only [List.map_cons, List.map_nil, List.mem_cons, List.not_mem_nil, or_false, not_or] at hs
    unfold bcConstruct bcFactory
    rw [if_neg hs.2.2.2, if_neg hs.1, if_neg hs.2.1, if_neg hs.2.2.1]
    exact ⟨_, rfl⟩

/-- C53: grid types. -/
theorem C53_grids : Selects gridConstruct [("Regular", .regular), ("UserDefined", .userDefined)] := by
  refine ⟨?_, fun s hs => ?_⟩
  · intro s v h
    simp only [List.mem_cons, Prod.mk.injEq, List.not_mem_nil, or_false] at h
    rcases h with ⟨rfl, rfl⟩ | ⟨rfl, rfl⟩ <;> rfl
  · simp only [List.map_cons, List.map_nil, List.mem_cons, List.not_mem_nil, or_false, not_or] at hs
    unfold gridConstruct gridFactory
    rw [if_neg hs.2, if_neg hs.1]
    exact ⟨_, rfl⟩

/-- C53: user steps. -/
theorem C53_user_steps : Selects userStepConstruct [("Off", .off), ("Heat_nickel", .heatNickel), ("UserDefined", .userDefined)] := by
  refine ⟨?_, fun s hs => ?_⟩
  · intro s v h
    simp only [List.mem_cons, Prod.mk.injEq, List.not_mem_nil, or_false] at h
    rcases h with ⟨rfl, rfl⟩ | ⟨rfl, rfl⟩ | ⟨rfl, rfl⟩ <;> rfl
  · simp only [List.map_cons, List.map_nil, List.mem_cons, List.not_mem_nil, or_false, not_or] at hs
    unfold userStepConstruct userStepFactory
    rw [if_neg hs.2.2, if_neg hs.1, if_neg hs.2.1]
    exact ⟨_, rfl⟩

section
variable [Field K] [LinearOrder K] [IsStrictOrderedRing K]

/-- C53: the names of the limiters select the textbook formulas on two one-sided slopes `r`, `l` of the same sign: zero, harmonic
mean, smaller of the two, and van Albada's average. -/
theorem C53_limiter_formulas (r l : K) (h : 0 < l * r) :
    (∀ q, limiterFactory "Constant" = .ok q → q.slope r l = 0) ∧
    (∀ q, limiterFactory "VanLeer" = .ok q → q.slope r l = 2 * l * r / (l + r)) ∧
    (∀ q, limiterFactory "Minmod" = .ok q → q.slope r l = if |l| ≤ |r| then l else r) ∧
    (∀ q, limiterFactory "VanAlbada" = .ok q → q.slope r l = l * r * (l + r) / (l ^ 2 + r ^ 2)) := by
  have hl : l ≠ 0 := left_ne_zero_of_mul h.ne'
  have hr : r ≠ 0 := right_ne_zero_of_mul h.ne'
  have hs : l + r ≠ 0 := by
    intro hs
    have : r = -l := by linarith
    rw [this] at h
    nlinarith [mul_self_nonneg l]
  have hs' : r + l ≠ 0 := by rwa [add_comm]
  have hq : r / l + 1 ≠ 0 := by
    rw [div_add_one hl]
    exact div_ne_zero hs' hl
  have hq1 : 1 + r / l ≠ 0 := by rwa [add_comm]
  refine ⟨fun q hq => ?_, fun q hq => ?_, fun q hq => ?_, fun q hq => ?_⟩
  · cases hq.symm.trans (show _ = Except.ok Limiter.constant from rfl)
    rfl
  · cases hq.symm.trans (show _ = Except.ok Limiter.vanLeer from rfl)
    show (if l * r > 0 then _ else _) = _
    rw [if_pos h]
    field_simp
    ring
  · cases hq.symm.trans (show _ = Except.ok Limiter.minmod from rfl)
    show (if l * r > 0 then _ else _) = _
    rw [if_pos h]
    have hrl : 0 < r / l := by
      rw [div_eq_mul_inv]
      rcases mul_pos_iff.1 h with ⟨a, b⟩ | ⟨a, b⟩
      · exact mul_pos b (inv_pos.2 a)
      · exact mul_pos_of_neg_of_neg b (inv_lt_zero.2 a)
    have hcmp : |l| ≤ |r| ↔ 1 ≤ r / l := by
      rw [← abs_of_pos hrl, abs_div, le_div_iff₀ (abs_pos.2 hl), one_mul]
    by_cases hc : |l| ≤ |r|
    · rw [if_pos hc, min_eq_left (hcmp.1 hc)]
      field_simp
    · rw [if_neg hc, min_eq_right (not_le.1 (fun h => hc (hcmp.2 h))).le]
      field_simp
  · cases hq.symm.trans (show _ = Except.ok Limiter.vanAlbada from rfl)
    show (if l * r > 0 then _ else _) = _
    rw [if_pos h]
    have h2 : l ^ 2 + r ^ 2 ≠ 0 := by positivity
    have h3 : r / l * (r / l) + 1 ≠ 0 := by nlinarith [mul_self_nonneg (r / l)]
    have h4 : r ^ 2 + l ^ 2 ≠ 0 := by positivity
    field_simp
    ring

end

example : ∃ m, limiterFactory "vanleer" = .error m := C53_limiters.2 _ (by decide)

example := C53_limiter_formulas (2 : ℚ) 3 (by norm_num)

end Heracles

import Mathlib.Algebra.BigOperators.Field
import Mathlib.Algebra.BigOperators.Ring.Finset
import Mathlib.Tactic.Linarith
import Verif.Spec.Fractions
import Verif.Lemmas.Limiter
import Verif.Lemmas.Conservation
import Verif.Lemmas.KernelRun

/-!
# Sums of mass fractions in the kernels
-/

namespace Heracles

variable {d n : ℕ} {K : Type} [Field K] [LinearOrder K] [IsStrictOrderedRing K] {S : Finset (Fin n)}

/-- Two species, or a reconstruction without slopes. -/
def SumKept (lim : Limiter) (S : Finset (Fin n)) : Prop := S.card = 2 ∨ lim = .constant

theorem reconFace_one_sub (lim : Limiter) (dlm dl dlp vm v vp : K) (side : Fin 2) :
    reconFace lim dlm dl dlp (1 - vm) (1 - v) (1 - vp) side = 1 - reconFace lim dlm dl dlp vm v vp side := by
  unfold reconFace
  have e1 : (1 - vp - (1 - v)) / ((dl + dlp) / 2) = -((vp - v) / ((dl + dlp) / 2)) := by ring
  have e2 : (1 - v - (1 - vm)) / ((dlm + dl) / 2) = -((v - vm) / ((dlm + dl) / 2)) := by ring
  dsimp only
  rw [e1, e2, lim.slope_neg]
  split <;> ring

theorem sum_recon {lim : Limiter} (hS : SumKept lim S) (dlm dl dlp : K) {vm v vp : Fin n → K} (hm : ∑ i ∈ S, vm i = 1) (h : ∑ i ∈ S, v i = 1)
    (hp : ∑ i ∈ S, vp i = 1) (side : Fin 2) : ∑ i ∈ S, reconFace lim dlm dl dlp (vm i) (v i) (vp i) side = 1 := by
  rcases hS with h2 | rfl
  · obtain ⟨i, j, hij, rfl⟩ := Finset.card_eq_two.1 h2
    rw [Finset.sum_pair hij] at *
    rw [show vm j = 1 - vm i by linarith, show v j = 1 - v i by linarith, show vp j = 1 - vp i by linarith, reconFace_one_sub]
    ring
  · rw [← h]
    refine Finset.sum_congr rfl fun i _ => ?_
    unfold reconFace
    simp [Limiter.slope]

omit [LinearOrder K] [IsStrictOrderedRing K] in
theorem sum_fluxDiff (g : DirGeo K) (k : K) (x y : Fin n → K) (A B : K) :
    ∑ i ∈ S, fluxDiff g k (x i * A) (y i * B) = fluxDiff g k ((∑ i ∈ S, x i) * A) ((∑ i ∈ S, y i) * B) := by
  unfold fluxDiff
  rw [← Finset.mul_sum, Finset.sum_sub_distrib, Finset.sum_mul, Finset.sum_mul, Finset.sum_mul, Finset.sum_mul]

omit [LinearOrder K] [IsStrictOrderedRing K] in
/-- After the predictor the partial masses add up to the mass. -/
theorem sum_predict (eos : EoS K) (tr : Trig K) (geom : Geom) (dt : K) (dg : Fin d → DirGeo K) (gr : Fin d → K) (up : Fin 2 → Fin d → VelPres d K)
    {old : Fin 2 → Fin d → Fields d n K} (h : ∀ s a, (old s a).Whole S) (side : Fin 2) (a : Fin d) :
    ∑ i ∈ S, (hancockPure eos tr geom dt dg gr up old side a).fx i = (hancockPure eos tr geom dt dg gr up old side a).rho := by
  unfold hancockPure
  dsimp only
  rw [Finset.sum_add_distrib, ← Finset.sum_mul, h side a, one_mul, Finset.sum_comm]
  congr 1
  refine Finset.sum_congr rfl fun b _ => ?_
  rw [sum_fluxDiff, h 0 b, h 1 b, one_mul, one_mul]

omit [IsStrictOrderedRing K] in
/-- After the update the partial masses add up to the mass. -/
theorem sum_update (sol : Solver) (eos : EoS K) (tr : Trig K) (geom : Geom) (dt : K) (dg : Fin d → DirGeo K) (gr : Fin d → K) {s : Fields d n K}
    {rm rp : Fin d → Fin 2 → Fin d → Fields d n K} {r0 : Fin 2 → Fin d → Fields d n K} (hs : s.Whole S) (hm : ∀ a, (rm a 1 a).Whole S)
    (h0 : ∀ t a, (r0 t a).Whole S) (hp : ∀ a, (rp a 0 a).Whole S) :
    ∑ i ∈ S, (godunovPure sol eos tr geom dt dg gr s rm r0 rp).fx i = (godunovPure sol eos tr geom dt dg gr s rm r0 rp).rho := by
  unfold godunovPure
  dsimp only
  rw [Finset.sum_add_distrib, ← Finset.sum_mul, hs, one_mul, Finset.sum_comm]
  congr 1
  refine Finset.sum_congr rfl fun b _ => ?_
  rw [sum_fluxDiff]
  congr 1
  · split
    · rw [h0 0 b, one_mul]
    · rw [hm b, one_mul]
  · split
    · rw [hp b, one_mul]
    · rw [h0 1 b, one_mul]

/-- The clamp keeps the sum of two. -/
theorem clamp_one_sub (x : K) : clamp x 0 1 + clamp (1 - x) 0 1 = 1 := by
  unfold clamp
  split_ifs <;> linarith

theorem sum_clamp {x : Fin n → K} (h : S.card = 2 ∨ ∀ i ∈ S, 0 ≤ x i ∧ x i ≤ 1) (hx : ∑ i ∈ S, x i = 1) : ∑ i ∈ S, clamp (x i) 0 1 = 1 := by
  rcases h with h2 | h
  · obtain ⟨i, j, hij, rfl⟩ := Finset.card_eq_two.1 h2
    rw [Finset.sum_pair hij] at *
    rw [show x j = 1 - x i by linarith, clamp_one_sub]
  · refine (Finset.sum_congr rfl fun i hi => ?_).trans hx
    obtain ⟨h0, h1⟩ := h i hi
    unfold clamp
    rw [if_neg (not_lt.2 h0), if_neg (not_lt.2 h1)]

section Step
variable {lim : Limiter} {sol : Solver} {eos : EoS K} {tr : Trig K} {geom : Geom} {fix : Option K}

theorem whole_face (hS : SumKept lim S) (p : PGrid d K) {W : Cell → Fields d n K} (hW : ∀ C, (W C).Whole S) (UP : Cell → VelPres d K) (c : Cell)
    (side : Fin 2) (a : Fin d) : (kFaceFields (exactKernels lim sol eos tr geom fix) p W UP c side a).Whole S :=
  sum_recon hS _ _ _ (hW _) (hW _) (hW _) side

theorem whole_rec (hS : SumKept lim S) (p : PGrid d K) (dt : K) {W : Cell → Fields d n K} (hW : ∀ C, (W C).Whole S) (UP : Cell → VelPres d K) (c : Cell)
    (side : Fin 2) (a : Fin d) (hne : (kRecVal (exactKernels lim sol eos tr geom fix) geom p dt W UP c side a).rho ≠ 0) :
    (kRecVal (exactKernels lim sol eos tr geom fix) geom p dt W UP c side a).Whole S := by
  have h := sum_predict eos tr geom dt (fun a => p.kDirGeo geom a c) (p.grav c) (kFaceUP (exactKernels (n := n) lim sol eos tr geom fix) p UP c)
    (fun s b => whole_face (sol := sol) (eos := eos) (tr := tr) (geom := geom) (fix := fix) hS p hW UP c s b) side a
  unfold Fields.Whole
  show ∑ i ∈ S, (hancockPure eos tr geom dt _ _ _ _ side a).fx i / (hancockPure eos tr geom dt _ _ _ _ side a).rho = 1
  rw [← Finset.sum_div, h]
  exact div_self hne

/-- The mass fraction of a cell after the update, before it is brought back between 0 and 1. -/
def rawFraction (k : Kernels d n K) (geom : Geom) (p : PGrid d K) (dt : K) (W : Cell → Fields d n K) (UP : Cell → VelPres d K) (c : Cell) (i : Fin n) : K :=
  let R := kRecVal k geom p (k.half dt) W UP
  let q := k.update dt (fun a => p.kDirGeo geom a c) (p.grav c) (W c) (fun a => R (nb c (ax a) (-1))) (R c) (fun a => R (nb c (ax a) 1))
  q.fx i / q.rho

theorem whole_step (hS : SumKept lim S) (p : PGrid d K) (dt : K) {W : Cell → Fields d n K} (hW : ∀ C, (W C).Whole S) (UP : Cell → VelPres d K) (c : Cell)
    (hr : ∀ (a : Fin d) (t : ℤ), -1 ≤ t → t ≤ 1 → ∀ side b,
      (kRecVal (exactKernels lim sol eos tr geom fix) geom p (dt / 2) W UP (nb c (ax a) t) side b).rho ≠ 0)
    (hne : (kStepVal (exactKernels lim sol eos tr geom fix) geom p dt W UP c).rho ≠ 0)
    (hcl : S.card = 2 ∨ ∀ i ∈ S, 0 ≤ rawFraction (exactKernels lim sol eos tr geom fix) geom p dt W UP c i ∧
      rawFraction (exactKernels lim sol eos tr geom fix) geom p dt W UP c i ≤ 1) :
    (kStepVal (exactKernels lim sol eos tr geom fix) geom p dt W UP c).Whole S := by
  set R := kRecVal (exactKernels lim sol eos tr geom fix) geom p (dt / 2) W UP with hR
  have hfx : (kStepVal (exactKernels lim sol eos tr geom fix) geom p dt W UP c).fx =
      (kGodVal (exactKernels lim sol eos tr geom fix) geom p dt W R c).fx := by
    unfold kStepVal kFixVal; split <;> rfl
  have hrho : (kStepVal (exactKernels lim sol eos tr geom fix) geom p dt W UP c).rho =
      (kGodVal (exactKernels lim sol eos tr geom fix) geom p dt W R c).rho := by
    unfold kStepVal kFixVal; split <;> rfl
  rw [hrho] at hne
  have hrec : ∀ (a : Fin d) (t : ℤ), -1 ≤ t → t ≤ 1 → ∀ side b, (R (nb c (ax a) t) side b).Whole S := fun a t h1 h2 side b =>
    whole_rec hS p (dt / 2) hW UP _ side b (hr a t h1 h2 side b)
  have h0 : ∀ side a, (R c side a).Whole S := fun side a => by
    have := hrec a 0 (by norm_num) (by norm_num) side a
    have e : nb c (ax a) 0 = c := by unfold nb; simp
    rwa [e] at this
  have hsum := sum_update sol eos tr geom dt (fun a => p.kDirGeo geom a c) (p.grav c) (hW c)
    (rm := fun a => R (nb c (ax a) (-1))) (rp := fun a => R (nb c (ax a) 1)) (fun a => hrec a (-1) (by norm_num) (by norm_num) 1 a) h0
    (fun a => hrec a 1 (by norm_num) (by norm_num) 0 a)
  unfold Fields.Whole
  rw [hfx]
  refine sum_clamp hcl ?_
  show ∑ i ∈ S, (godunovPure sol eos tr geom dt _ _ _ _ _ _).fx i / (godunovPure sol eos tr geom dt _ _ _ _ _ _).rho = 1
  rw [← Finset.sum_div, hsum]
  exact div_self hne

end Step

end Heracles

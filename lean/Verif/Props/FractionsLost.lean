import Verif.Props.MirrorLost
import Verif.Spec.Fractions

/-!
# C97: where the sum of three mass fractions is lost

A run in IEEE `double`s, computed by the kernel of Lean operation by operation.
-/

namespace Heracles

open Arith

/-- The kernels of the code on `double`s for `n` mass fractions, a perfect gas with `gamma = 1.4` and a Cartesian grid. -/
def mixKernels (n : ℕ) (lim : Limiter) (sol : Solver) : Kernels 1 n Ieee := @orderedKernels 1 n Ieee (ieeeArith noTrig) lim sol airGas .cartesian none

/-- A cell after one iteration with time step `dt` on a periodic grid of cells of size 1. -/
def mixStep (n : ℕ) (lim : Limiter) (sol : Solver) (nx : Cell) (dt : Ieee) (G : Cell → Fields 1 n Ieee) (g : Cell) : Fields 1 n Ieee :=
  letI := ieeeArith noTrig
  let W : Cell → Fields 1 n Ieee := fun C => G (wrap nx (C - nghostOf 1 2))
  kStepVal (mixKernels n lim sol) .cartesian (kGrid (mixKernels n lim sol) .cartesian (fun _ i => .lit i) (fun _ _ => 0)) dt W
    (kPrimGlob (mixKernels n lim sol) W) (g + nghostOf 1 2)

/-- Three species in 6 cells of a gas that moves to the right with density, speed and pressure 1. -/
def threeSpecies (g : Cell) : Fields 1 3 Ieee :=
  ⟨.lit 1, fun _ => .lit 1, .lit 3, if g 0 = 0 then ![.lit 0, .lit (3 / 4), .lit (1 / 4)] else
    if g 0 = 1 then ![.lit (1 / 2), .lit (1 / 4), .lit (1 / 4)] else ![.lit (3 / 4), .lit (1 / 4), .lit 0]⟩

/-- The sum of the three fractions. -/
def Fields.sum3 (f : Fields 1 3 Ieee) : Ieee := ((f.fx 0).add (f.fx 1)).add (f.fx 2)

/-- In each cell the three fractions add up to one, without any rounding. -/
theorem threeSpecies_sum (g : Cell) : (threeSpecies g).sum3 = .lit 1 := by
  have e : threeSpecies g = threeSpecies ![g 0, 0, 0] := rfl
  rw [e]
  by_cases h0 : g 0 = 0
  · rw [h0]; decide +kernel
  · by_cases h1 : g 0 = 1
    · rw [h1]; decide +kernel
    · have : threeSpecies ![g 0, 0, 0] = threeSpecies ![2, 0, 0] := by
        unfold threeSpecies
        simp [h0, h1]
      rw [this]; decide +kernel

theorem threeSpecies_minmod (sol : Solver) :
    Ieee.ltb (.lit (101 / 100)) (mixStep 3 .minmod sol ![6, 1, 1] (.lit (1 / 4)) threeSpecies ![2, 0, 0]).sum3 = true := by
  cases sol <;> decide +kernel
theorem threeSpecies_vanLeer (sol : Solver) :
    Ieee.ltb (.lit (101 / 100)) (mixStep 3 .vanLeer sol ![6, 1, 1] (.lit (1 / 4)) threeSpecies ![2, 0, 0]).sum3 = true := by
  cases sol <;> decide +kernel
theorem threeSpecies_vanAlbada (sol : Solver) :
    Ieee.ltb (.lit (101 / 100)) (mixStep 3 .vanAlbada sol ![6, 1, 1] (.lit (1 / 4)) threeSpecies ![2, 0, 0]).sum3 = true := by
  cases sol <;> decide +kernel

/-- The first order scheme, for comparison. -/
example : (mixStep 3 .constant .hll ![6, 1, 1] (.lit (1 / 4)) threeSpecies ![2, 0, 0]).sum3 = .lit 1 := by decide +kernel

/-- **C97: violated with three mass fractions and slopes.** Six cells of size 1, periodic, density, speed and pressure 1, three mass fractions that
add up to exactly one in each cell (`threeSpecies_sum`). With any limiter except the constant reconstruction, any solver and the `double`s of the
machine, after one iteration with time step 1/4 the three fractions of cell 2 add up to more than 1.01, on every decomposition. Each fraction is
limited alone (src/hydro/hydro_reconstruction.hpp 105-109): where the limiter takes the slope of one of them from the left and that of another from the right,
the fractions on the face do not add up to one, and the update divides by the density alone (src/hydro/godunov_scheme.hpp 294-301). -/
theorem C97_three_violated {lim : Limiter} (hl : lim ≠ .constant) {sol : Solver} {p : KernelParams 1 3 Ieee} (hk : p.k = mixKernels 3 lim sol)
    (hgeom : p.geom = .cartesian) (hlo : p.lo = negDblMax) (hpol : ∀ x, p.policy [x] = .lit (1 / 4)) (hb : ∀ a f, p.bcs a f = .periodic)
    {order : List ℕ} (ho : ∀ id ∈ order, id < 2) (hpo : p.order = order.map some) {dims : Cell} {sched : Cell → Cell → List Cell}
    {grav : DistView (Fields 1 3 Ieee) → Cell → GravField 1 Ieee} {M : ℕ → Cell → RankMem 1 3 Ieee} {lf : ℕ → Cell → List Cell} :
    letI := ieeeArith noTrig
    KDecomposition p ![6, 1, 1] 2 (fun _ i => .lit i) (fun _ _ _ => 0) dims sched grav M lf → ∀ {D : DistView (Fields 1 3 Ieee)},
    (∀ rank, inBox 0 dims rank → D.ext rank = localExt ![6, 1, 1] dims (nghostOf 1 2) rank) →
    (∀ rank, inBox 0 dims rank → ∀ c, inBox (nghostOf 1 2) (fun a => D.ext rank a - nghostOf 1 2 a) c →
      D.val rank c = threeSpecies (globalOf ![6, 1, 1] dims (nghostOf 1 2) rank c)) →
    ∃ R hist, kRun p sched (borderOf dims) (nghostOf 1 2) dims grav M lf D 1 = some (R, hist) ∧
      ∀ rank c, inBox 0 dims rank → inExt (localExt ![6, 1, 1] dims (nghostOf 1 2) rank) c = true →
        globalOf ![6, 1, 1] dims (nghostOf 1 2) rank c = ![2, 0, 0] → Ieee.ltb (.lit (101 / 100)) (R.val rank c).sum3 = true := by
  letI := ieeeArith noTrig
  intro h D hext hint
  have hN : ∀ a, 0 ≤ (![6, 1, 1] : Cell) a := by decide
  have hb' : ∀ a f, p.bcs a f ≠ .userDefined := fun a f => by rw [hb]; exact fun h => by cases h
  have hlo' : p.lo ≠ .nan := by rw [hlo]; decide +kernel
  obtain ⟨R, e1, e2⟩ := distBcs_holds (by norm_num) hN h.pos (by omega) h.size p.user h.order hb' ho threeSpecies D hext hint
  obtain ⟨m, R', q1, q2, q3⟩ := ieee_iter noTrig (by norm_num) hlo' hN (by norm_num) hb' ho hpo h 0 e2 []
  refine ⟨R', [p.k.inv m], ?_, fun rank c hr hc hin => ?_⟩
  · have e0 : kRun p sched (borderOf dims) (nghostOf 1 2) dims grav M lf D 0 = some (R, []) := by
      unfold kRun; rw [hpo, e1]; rfl
    unfold kRun; rw [e0]; exact q2
  · have hin' : inBox 0 ![6, 1, 1] (globalOf ![6, 1, 1] dims (nghostOf 1 2) rank c) := by rw [hin]; decide
    have key : R'.val rank c = mixStep 3 lim sol ![6, 1, 1] (.lit (1 / 4)) threeSpecies (globalOf ![6, 1, 1] dims (nghostOf 1 2) rank c) := by
      rw [q3.val rank hr c hc]
      have e : c + startCell ![6, 1, 1] dims rank = globalOf ![6, 1, 1] dims (nghostOf 1 2) rank c + nghostOf 1 2 := by
        funext a
        simp only [Pi.add_apply, globalOf, startCell]
        ring
      rw [e]
      unfold kIterGlob
      rw [bcGlob_inside p.bcs (by norm_num) (by norm_num) ho _ hin', bcGlob_wrap hb, hpol, hk, hgeom]
      rfl
    rw [key, hin]
    cases lim with
    | constant => exact absurd rfl hl
    | vanLeer => exact threeSpecies_vanLeer sol
    | minmod => exact threeSpecies_minmod sol
    | vanAlbada => exact threeSpecies_vanAlbada sol

/-- A decomposition in three, and cell 2 in it. -/
example (k : Kernels 1 3 Ieee) (user : UserBc 1 3 Ieee) : letI := ieeeArith noTrig
    let p : KernelParams 1 3 Ieee := ⟨k, .cartesian, negDblMax, fun _ => .lit (1 / 4), user, fun _ _ => .periodic, [some 0, some 1]⟩
    (∃ M lf, KDecomposition p ![6, 1, 1] 2 (fun _ i => .lit i) (fun _ _ _ => 0) ![3, 1, 1] boxList (fun _ _ _ _ => some 0) M lf) ∧
    globalOf ![6, 1, 1] ![3, 1, 1] (nghostOf 1 2) ![1, 0, 0] ![2, 0, 0] = ![2, 0, 0] := by
  letI := ieeeArith noTrig
  refine ⟨exists_kDecomposition _ (by decide) (by decide) (by norm_num) ?_ _, by decide⟩
  intro a ha r h0 h1
  rw [localSize_eq (by fin_cases a <;> decide) (lt_of_le_of_lt h0 h1)]
  fin_cases a
  · simp [not_lt.2 h0]
  · simp at ha
  · simp at ha

end Heracles

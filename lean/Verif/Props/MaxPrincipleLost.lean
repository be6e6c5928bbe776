import Verif.Props.FractionsLost

/-!
# C100: where a mass fraction leaves the range of its initial values

Runs in IEEE `double`s, computed by the kernel of Lean operation by operation.
-/

namespace Heracles

open Arith

/-- A light gas that flows into a heavy one at speed 1 and pressure 1/160, in 6 cells. The mass fraction grows with the density, from `lo` to `1 - lo`. -/
def sharpMix (lo : ℚ) (g : Cell) : Fields 1 1 Ieee :=
  let s := fun r x : ℚ => (⟨.lit r, fun _ => .lit r, .lit (r / 2 + 1 / 64), fun _ => .lit x⟩ : Fields 1 1 Ieee)
  if g 0 = 0 ∨ g 0 = 1 then s 1 lo else if g 0 = 2 then s 16 (1 / 2) else s 32 (1 - lo)

/-- At the start the fraction is nowhere below 1/4 and nowhere above 3/4. -/
theorem sharpMix_range (g : Cell) : Ieee.ltb ((sharpMix (1 / 4) g).fx 0) (.lit (1 / 4)) = false ∧ Ieee.ltb (.lit (3 / 4)) ((sharpMix (1 / 4) g).fx 0) = false := by
  unfold sharpMix
  dsimp only
  split_ifs <;> decide +kernel

/-- The mass of the species in the 6 cells of size 1. -/
def speciesMass (G : Cell → Fields 1 1 Ieee) : Ieee :=
  (List.range 6).foldl (fun s (j : ℕ) => s.add ((G ![(j : ℤ), 0, 0]).rho.mul ((G ![(j : ℤ), 0, 0]).fx 0))) (.lit 0)

theorem sharpMix_below {lim : Limiter} (hl : lim ≠ .constant) (sol : Solver) :
    Ieee.ltb ((mixStep 1 lim sol ![6, 1, 1] (.lit (3 / 4)) (sharpMix (1 / 4)) ![2, 0, 0]).fx 0) (.lit (23 / 100)) = true := by
  cases lim
  · exact absurd rfl hl
  all_goals cases sol <;> decide +kernel

theorem sharpMix_mass :
    Ieee.ltb ((speciesMass (sharpMix 0)).add (.lit (1 / 10))) (speciesMass (mixStep 1 .minmod .hll ![6, 1, 1] (.lit (3 / 4)) (sharpMix 0))) = true := by
  decide +kernel

/-- Inverse time steps of the cells of the state `sharpMix lo`. -/
def sharpRate (lo : ℚ) (i : ℤ) : Ieee :=
  letI := ieeeArith noTrig
  let W : Cell → Fields 1 1 Ieee := fun C => sharpMix lo (wrap ![6, 1, 1] (C - nghostOf 1 2))
  kRateVal (mixKernels 1 .minmod .hll) .cartesian (fun _ i => .lit i) W (kPrimGlob (mixKernels 1 .minmod .hll) W) ![i, 0, 0]

/-- The time step 3/4 respects the Courant condition: in all cells, ghosts included, the inverse time step of the code is less than 5/4. -/
theorem sharpMix_rate : ∀ i ∈ Finset.Ico (0 : ℤ) 10, Ieee.ltb (sharpRate (1 / 4) i) (.lit (5 / 4)) = true ∧ Ieee.ltb (sharpRate 0 i) (.lit (5 / 4)) = true := by
  decide +kernel

/-- The first order scheme, for comparison. -/
example (sol : Solver) : Ieee.ltb ((mixStep 1 .constant sol ![6, 1, 1] (.lit (3 / 4)) (sharpMix (1 / 4)) ![2, 0, 0]).fx 0) (.lit (1 / 4)) = false := by
  cases sol <;> decide +kernel

/-- One iteration of the program from `sharpMix`. -/
theorem sharpMix_run {lo : ℚ} {lim : Limiter} {sol : Solver} {p : KernelParams 1 1 Ieee} (hk : p.k = mixKernels 1 lim sol)
    (hgeom : p.geom = .cartesian) (hlo : p.lo = negDblMax) (hpol : ∀ x, p.policy [x] = .lit (3 / 4)) (hb : ∀ a f, p.bcs a f = .periodic)
    {order : List ℕ} (ho : ∀ id ∈ order, id < 2) (hpo : p.order = order.map some) {dims : Cell} {sched : Cell → Cell → List Cell}
    {grav : DistView (Fields 1 1 Ieee) → Cell → GravField 1 Ieee} {M : ℕ → Cell → RankMem 1 1 Ieee} {lf : ℕ → Cell → List Cell} :
    letI := ieeeArith noTrig
    KDecomposition p ![6, 1, 1] 2 (fun _ i => .lit i) (fun _ _ _ => 0) dims sched grav M lf → ∀ {D : DistView (Fields 1 1 Ieee)},
    (∀ rank, inBox 0 dims rank → D.ext rank = localExt ![6, 1, 1] dims (nghostOf 1 2) rank) →
    (∀ rank, inBox 0 dims rank → ∀ c, inBox (nghostOf 1 2) (fun a => D.ext rank a - nghostOf 1 2 a) c →
      D.val rank c = sharpMix lo (globalOf ![6, 1, 1] dims (nghostOf 1 2) rank c)) →
    ∃ R hist, kRun p sched (borderOf dims) (nghostOf 1 2) dims grav M lf D 1 = some (R, hist) ∧
      ∀ rank c, inBox 0 dims rank → inExt (localExt ![6, 1, 1] dims (nghostOf 1 2) rank) c = true → inBox 0 ![6, 1, 1] (globalOf ![6, 1, 1] dims (nghostOf 1 2) rank c) →
        R.val rank c = mixStep 1 lim sol ![6, 1, 1] (.lit (3 / 4)) (sharpMix lo) (globalOf ![6, 1, 1] dims (nghostOf 1 2) rank c) := by
  letI := ieeeArith noTrig
  intro h D hext hint
  have hN : ∀ a, 0 ≤ (![6, 1, 1] : Cell) a := by decide
  have hb' : ∀ a f, p.bcs a f ≠ .userDefined := fun a f => by rw [hb]; exact fun h => by cases h
  have hlo' : p.lo ≠ .nan := by rw [hlo]; decide +kernel
  obtain ⟨R, e1, e2⟩ := distBcs_holds (by norm_num) hN h.pos (by omega) h.size p.user h.order hb' ho (sharpMix lo) D hext hint
  obtain ⟨m, R', q1, q2, q3⟩ := ieee_iter noTrig (by norm_num) hlo' hN (by norm_num) hb' ho hpo h 0 e2 []
  refine ⟨R', [p.k.inv m], ?_, fun rank c hr hc hin' => ?_⟩
  · have e0 : kRun p sched (borderOf dims) (nghostOf 1 2) dims grav M lf D 0 = some (R, []) := by
      unfold kRun; rw [hpo, e1]; rfl
    unfold kRun; rw [e0]; exact q2
  · rw [q3.val rank hr c hc]
    have e : c + startCell ![6, 1, 1] dims rank = globalOf ![6, 1, 1] dims (nghostOf 1 2) rank c + nghostOf 1 2 := by
      funext a
      simp only [Pi.add_apply, globalOf, startCell]
      ring
    rw [e]
    unfold kIterGlob
    rw [bcGlob_inside p.bcs (by norm_num) (by norm_num) ho _ hin', bcGlob_wrap hb, hpol, hk, hgeom]
    rfl

/-- **C100: violated with slopes.** Six cells of size 1, periodic; a gas of density 1 flows at speed 1 into one of density 32, all at the same low pressure. The mass fraction
lies between 1/4 and 3/4 in each cell (`sharpMix_range`). With any limiter except the constant reconstruction, any solver and the `double`s of the machine, after one iteration with
time step 3/4, below the limit of the code (`sharpMix_rate`), the fraction of cell 2 is below 0.23, on every decomposition. Density and fraction are limited separately
(src/hydro/hydro_reconstruction.hpp 95-109): the right face of the cell carries the high density and the high fraction together, and what leaves holds more of the species than
the average of the cell (src/hydro/godunov_scheme.hpp 260-302). -/
theorem C100_slopes_violated {lim : Limiter} (hl : lim ≠ .constant) {sol : Solver} {p : KernelParams 1 1 Ieee} (hk : p.k = mixKernels 1 lim sol)
    (hgeom : p.geom = .cartesian) (hlo : p.lo = negDblMax) (hpol : ∀ x, p.policy [x] = .lit (3 / 4)) (hb : ∀ a f, p.bcs a f = .periodic)
    {order : List ℕ} (ho : ∀ id ∈ order, id < 2) (hpo : p.order = order.map some) {dims : Cell} {sched : Cell → Cell → List Cell}
    {grav : DistView (Fields 1 1 Ieee) → Cell → GravField 1 Ieee} {M : ℕ → Cell → RankMem 1 1 Ieee} {lf : ℕ → Cell → List Cell} :
    letI := ieeeArith noTrig
    KDecomposition p ![6, 1, 1] 2 (fun _ i => .lit i) (fun _ _ _ => 0) dims sched grav M lf → ∀ {D : DistView (Fields 1 1 Ieee)},
    (∀ rank, inBox 0 dims rank → D.ext rank = localExt ![6, 1, 1] dims (nghostOf 1 2) rank) →
    (∀ rank, inBox 0 dims rank → ∀ c, inBox (nghostOf 1 2) (fun a => D.ext rank a - nghostOf 1 2 a) c →
      D.val rank c = sharpMix (1 / 4) (globalOf ![6, 1, 1] dims (nghostOf 1 2) rank c)) →
    ∃ R hist, kRun p sched (borderOf dims) (nghostOf 1 2) dims grav M lf D 1 = some (R, hist) ∧
      ∀ rank c, inBox 0 dims rank → inExt (localExt ![6, 1, 1] dims (nghostOf 1 2) rank) c = true →
        globalOf ![6, 1, 1] dims (nghostOf 1 2) rank c = ![2, 0, 0] → Ieee.ltb ((R.val rank c).fx 0) (.lit (23 / 100)) = true := by
  intro h D hext hint
  obtain ⟨R, hist, e1, e2⟩ := sharpMix_run hk hgeom hlo hpol hb ho hpo h hext hint
  refine ⟨R, hist, e1, fun rank c hr hc hin => ?_⟩
  rw [e2 rank c hr hc (by rw [hin]; decide), hin]
  exact sharpMix_below hl sol

/-- **C100: the clamp creates mass of a species.** The same gas with a species that is absent from the light gas (fraction 0) and alone in the heavy one (fraction 1), limiter `Minmod`, solver HLL. Cell 2 would
lose more of it than it holds, the fraction comes out negative and is set to 0 (src/hydro/godunov_scheme.hpp 297-301): after one iteration the periodic box of size 6 holds over 0.1
more of the species than before. -/
theorem C100_mass_violated {p : KernelParams 1 1 Ieee} (hk : p.k = mixKernels 1 .minmod .hll)
    (hgeom : p.geom = .cartesian) (hlo : p.lo = negDblMax) (hpol : ∀ x, p.policy [x] = .lit (3 / 4)) (hb : ∀ a f, p.bcs a f = .periodic)
    {order : List ℕ} (ho : ∀ id ∈ order, id < 2) (hpo : p.order = order.map some) {dims : Cell} {sched : Cell → Cell → List Cell}
    {grav : DistView (Fields 1 1 Ieee) → Cell → GravField 1 Ieee} {M : ℕ → Cell → RankMem 1 1 Ieee} {lf : ℕ → Cell → List Cell} :
    letI := ieeeArith noTrig
    KDecomposition p ![6, 1, 1] 2 (fun _ i => .lit i) (fun _ _ _ => 0) dims sched grav M lf → ∀ {D : DistView (Fields 1 1 Ieee)},
    (∀ rank, inBox 0 dims rank → D.ext rank = localExt ![6, 1, 1] dims (nghostOf 1 2) rank) →
    (∀ rank, inBox 0 dims rank → ∀ c, inBox (nghostOf 1 2) (fun a => D.ext rank a - nghostOf 1 2 a) c →
      D.val rank c = sharpMix 0 (globalOf ![6, 1, 1] dims (nghostOf 1 2) rank c)) →
    ∃ R hist G, kRun p sched (borderOf dims) (nghostOf 1 2) dims grav M lf D 1 = some (R, hist) ∧
      (∀ rank c, inBox 0 dims rank → inExt (localExt ![6, 1, 1] dims (nghostOf 1 2) rank) c = true → inBox 0 ![6, 1, 1] (globalOf ![6, 1, 1] dims (nghostOf 1 2) rank c) →
        R.val rank c = G (globalOf ![6, 1, 1] dims (nghostOf 1 2) rank c)) ∧
      Ieee.ltb ((speciesMass (sharpMix 0)).add (.lit (1 / 10))) (speciesMass G) = true := by
  intro h D hext hint
  obtain ⟨R, hist, e1, e2⟩ := sharpMix_run hk hgeom hlo hpol hb ho hpo h hext hint
  exact ⟨R, hist, _, e1, e2, sharpMix_mass⟩

/-- A decomposition in three, and cell 2 in it. -/
example (k : Kernels 1 1 Ieee) (user : UserBc 1 1 Ieee) : letI := ieeeArith noTrig
    let p : KernelParams 1 1 Ieee := ⟨k, .cartesian, negDblMax, fun _ => .lit (3 / 4), user, fun _ _ => .periodic, [some 0, some 1]⟩
    (∃ M lf, KDecomposition p ![6, 1, 1] 2 (fun _ i => .lit i) (fun _ _ _ => 0) ![3, 1, 1] boxList (fun _ _ _ _ => some 0) M lf) ∧
    globalOf ![6, 1, 1] ![3, 1, 1] (nghostOf 1 2) ![1, 0, 0] ![2, 0, 0] = ![2, 0, 0] := by
  letI := ieeeArith noTrig
  refine ⟨exists_kDecomposition _ (by decide) (by decide) (by norm_num) ?_ _, by decide⟩
  intro a ha r h0 h1
  rw [localSize_eq (by fin_cases a <;> decide) (lt_of_le_of_lt h0 h1)]
  fin_cases a
  · simp [not_lt.2 h0]
  · simp at ha
  · simp at ha

end Heracles

import Verif.Lemmas.IeeeSqrt
import Verif.Model.IeeeGas
import Verif.Props.MirrorBits

/-!
# C91: where the mirror image is lost

Runs in IEEE `double`s, computed by the kernel of Lean operation by operation.
-/

namespace Heracles

open Arith

variable {d n : ℕ}

theorem bcGlob_wrap {K : Type} [Neg K] {bcs : Fin d → Fin 2 → BcKind} (hb : ∀ a f, bcs a f = .periodic) (nx nghost : Cell) (order : List ℕ)
    (G : Cell → Fields d n K) : bcGlob bcs nx nghost order G = fun C => G (wrap nx (C - nghost)) := by
  unfold bcGlob
  generalize (fun C => G (wrap nx (C - nghost))) = V
  induction order with
  | nil => rfl
  | cons id l ih =>
    have : bcPure bcs (fun _ _ => true) (globExt nx nghost) nghost V id = V := by
      unfold bcPure
      split
      · dsimp only
        rw [if_pos rfl]
        funext C
        unfold condPure
        rw [hb]
        split <;> rfl
      · rfl
    rw [List.foldl_cons, this]
    exact ih

/-- A cell after one iteration with time step `dt` on a periodic grid of cells of size 1. -/
def firstStep (d : ℕ) (lim : Limiter) (sol : Solver) (nx : Cell) (dt : Ieee) (G : Cell → Fields d 0 Ieee) (g : Cell) : Fields d 0 Ieee :=
  letI := ieeeArith noTrig
  let W : Cell → Fields d 0 Ieee := fun C => G (wrap nx (C - nghostOf d 2))
  kStepVal (airKernels d lim sol) .cartesian (kGrid (airKernels d lim sol) .cartesian (fun _ i => .lit i) (fun _ _ => 0)) dt W
    (kPrimGlob (airKernels d lim sol) W) (g + nghostOf d 2)

/-- The first iteration of a run on any decomposition. -/
theorem firstStep_run (hd3 : d ≤ 3) {lim : Limiter} {sol : Solver} {p : KernelParams d 0 Ieee} (hk : p.k = airKernels d lim sol)
    (hgeom : p.geom = .cartesian) (hlo : p.lo = negDblMax) {dt : Ieee} (hpol : ∀ x, p.policy [x] = dt)
    (hb : ∀ a f, p.bcs a f = .periodic) {order : List ℕ} (ho : ∀ id ∈ order, id < 2 * d) (hpo : p.order = order.map some) {nx : Cell}
    (hN : ∀ a, 0 ≤ nx a) {dims : Cell} {sched : Cell → Cell → List Cell} {grav : DistView (Fields d 0 Ieee) → Cell → GravField d Ieee}
    {M : ℕ → Cell → RankMem d 0 Ieee} {lf : ℕ → Cell → List Cell} :
    letI := ieeeArith noTrig
    KDecomposition p nx 2 (fun _ i => .lit i) (fun _ _ _ => 0) dims sched grav M lf → ∀ {G : Cell → Fields d 0 Ieee}
    {D : DistView (Fields d 0 Ieee)}, (∀ rank, inBox 0 dims rank → D.ext rank = localExt nx dims (nghostOf d 2) rank) →
    (∀ rank, inBox 0 dims rank → ∀ c, inBox (nghostOf d 2) (fun a => D.ext rank a - nghostOf d 2 a) c →
      D.val rank c = G (globalOf nx dims (nghostOf d 2) rank c)) →
    ∃ R hist, kRun p sched (borderOf dims) (nghostOf d 2) dims grav M lf D 1 = some (R, hist) ∧
      ∀ rank c, inBox 0 dims rank → inExt (localExt nx dims (nghostOf d 2) rank) c = true →
        inBox 0 nx (globalOf nx dims (nghostOf d 2) rank c) →
        R.val rank c = firstStep d lim sol nx dt G (globalOf nx dims (nghostOf d 2) rank c) := by
  letI := ieeeArith noTrig
  intro h G D hext hint
  have hb' : ∀ a f, p.bcs a f ≠ .userDefined := fun a f => by rw [hb]; exact fun h => by cases h
  have hlo' : p.lo ≠ .nan := by rw [hlo]; decide +kernel
  obtain ⟨R, e1, e2⟩ := distBcs_holds hd3 hN h.pos (by omega) h.size p.user h.order hb' ho G D hext hint
  obtain ⟨m, R', q1, q2, q3⟩ := ieee_iter noTrig hd3 hlo' hN (by norm_num) hb' ho hpo h 0 e2 []
  refine ⟨R', [p.k.inv m], ?_, fun rank c hr hc hin => ?_⟩
  · have e0 : kRun p sched (borderOf dims) (nghostOf d 2) dims grav M lf D 0 = some (R, []) := by
      unfold kRun; rw [hpo, e1]; rfl
    unfold kRun; rw [e0]; exact q2
  · rw [q3.val rank hr c hc]
    have e : c + startCell nx dims rank = globalOf nx dims (nghostOf d 2) rank c + nghostOf d 2 := by
      funext a
      simp only [Pi.add_apply, globalOf, startCell]
      ring
    rw [e]
    unfold kIterGlob
    rw [bcGlob_inside p.bcs hd3 (by norm_num) ho _ hin, bcGlob_wrap hb, hpol, hk, hgeom]
    rfl

/-- A tube of 6 cells that is its own mirror image. -/
def symTube (g : Cell) : Fields 1 0 Ieee :=
  let s := fun r m e : ℤ => (⟨.lit (r / 10), fun _ => .lit (m / 10), .lit (e / 10), Fin.elim0⟩ : Fields 1 0 Ieee)
  if g 0 = 0 then s 4 14 145 else if g 0 = 1 then s 31 17 175 else if g 0 = 2 then s 40 (-30) 122
  else if g 0 = 3 then s 40 30 122 else if g 0 = 4 then s 31 (-17) 175 else s 4 (-14) 145

/-- Densities of the first and the last cell. -/
def endDensities (lim : Limiter) (sol : Solver) : Ieee × Ieee :=
  ((firstStep 1 lim sol ![6, 1, 1] (.lit (1 / 8)) symTube ![0, 0, 0]).rho, (firstStep 1 lim sol ![6, 1, 1] (.lit (1 / 8)) symTube ![5, 0, 0]).rho)

theorem endDensities_vanLeer : (endDensities .vanLeer .hll).1 ≠ (endDensities .vanLeer .hll).2 := by decide +kernel
theorem endDensities_minmod : (endDensities .minmod .hll).1 ≠ (endDensities .minmod .hll).2 := by decide +kernel
theorem endDensities_vanAlbada : (endDensities .vanAlbada .hll).1 ≠ (endDensities .vanAlbada .hll).2 := by decide +kernel
theorem endDensities_hllc : (endDensities .constant .hllc).1 ≠ (endDensities .constant .hllc).2 := by decide +kernel

/-- The first order scheme with HLL, for comparison. -/
example : (endDensities .constant .hll).1 = (endDensities .constant .hll).2 := by decide +kernel

/-- The tube is its own mirror image. -/
theorem symTube_mirror {g : Cell} (hg : inBox 0 ![6, 1, 1] g) : symTube g = @Fields.flip 1 0 Ieee ⟨Ieee.neg⟩ 0 (symTube (reflect 0 6 g)) := by
  have h0 : 0 ≤ g 0 ∧ g 0 < 6 := hg 0
  have hr : reflect 0 6 g 0 = 5 - g 0 := by rw [reflect_self]; ring
  have e : ∀ g : Cell, symTube g = symTube ![g 0, 0, 0] := fun _ => rfl
  rw [e g, e (reflect 0 6 g), hr]
  generalize g 0 = i at h0
  have key : (symTube ![i, 0, 0]).rho = (symTube ![5 - i, 0, 0]).rho ∧ (symTube ![i, 0, 0]).rhou 0 = ((symTube ![5 - i, 0, 0]).rhou 0).neg ∧
      (symTube ![i, 0, 0]).E = (symTube ![5 - i, 0, 0]).E := by
    obtain ⟨h1, h2⟩ := h0
    interval_cases i <;> decide +kernel
  have hext : ∀ s t : Fields 1 0 Ieee, s.rho = t.rho → s.rhou 0 = (t.rhou 0).neg → s.E = t.E → s = @Fields.flip 1 0 Ieee ⟨Ieee.neg⟩ 0 t := by
    rintro ⟨r, m, E, fx⟩ ⟨r', m', E', fx'⟩ (rfl : r = r') (h : m 0 = (m' 0).neg) (rfl : E = E')
    unfold Fields.flip
    congr 1
    · funext a
      rw [Subsingleton.elim a 0, Function.update_self]
      exact h
    · exact Subsingleton.elim _ _
  exact hext _ _ key.1 key.2.1 key.2.2

section Tube

variable {lim : Limiter} {p : KernelParams 1 0 Ieee} {order : List ℕ} {dims : Cell} {sched : Cell → Cell → List Cell}
  {grav : DistView (Fields 1 0 Ieee) → Cell → GravField 1 Ieee} {M : ℕ → Cell → RankMem 1 0 Ieee} {lf : ℕ → Cell → List Cell}

theorem tube_run {sol : Solver} (hne : (endDensities lim sol).1 ≠ (endDensities lim sol).2) (hk : p.k = airKernels 1 lim sol)
    (hgeom : p.geom = .cartesian) (hlo : p.lo = negDblMax) (hpol : ∀ x, p.policy [x] = .lit (1 / 8)) (hb : ∀ a f, p.bcs a f = .periodic)
    (ho : ∀ id ∈ order, id < 2) (hpo : p.order = order.map some) :
    letI := ieeeArith noTrig
    KDecomposition p ![6, 1, 1] 2 (fun _ i => .lit i) (fun _ _ _ => 0) dims sched grav M lf → ∀ {D : DistView (Fields 1 0 Ieee)},
    (∀ rank, inBox 0 dims rank → D.ext rank = localExt ![6, 1, 1] dims (nghostOf 1 2) rank) →
    (∀ rank, inBox 0 dims rank → ∀ c, inBox (nghostOf 1 2) (fun a => D.ext rank a - nghostOf 1 2 a) c →
      D.val rank c = symTube (globalOf ![6, 1, 1] dims (nghostOf 1 2) rank c)) →
    ∃ R hist, kRun p sched (borderOf dims) (nghostOf 1 2) dims grav M lf D 1 = some (R, hist) ∧
      ∀ rank rank' c c', inBox 0 dims rank → inBox 0 dims rank' →
        inExt (localExt ![6, 1, 1] dims (nghostOf 1 2) rank) c = true → inExt (localExt ![6, 1, 1] dims (nghostOf 1 2) rank') c' = true →
        globalOf ![6, 1, 1] dims (nghostOf 1 2) rank c = ![0, 0, 0] → globalOf ![6, 1, 1] dims (nghostOf 1 2) rank' c' = ![5, 0, 0] →
        R.val rank' c' ≠ (R.val rank c).flip 0 := by
  letI := ieeeArith noTrig
  intro h D hext hint
  obtain ⟨R, hist, e1, e2⟩ := firstStep_run (by norm_num) hk hgeom hlo hpol hb ho hpo (by decide) h hext hint
  refine ⟨R, hist, e1, fun rank rank' c c' hr hr' hc hc' hg hg' he => hne ?_⟩
  have h1 := e2 rank c hr hc (by rw [hg]; decide)
  have h2 := e2 rank' c' hr' hc' (by rw [hg']; decide)
  rw [hg] at h1
  rw [hg'] at h2
  have := congrArg Fields.rho he
  rw [h1, h2] at this
  exact this.symm

/-- **C91: violated by the limiters.** The tube `symTube` (6 cells of size 1, periodic) is its own mirror image (`symTube_mirror`), and so
is everything else. With any limiter except the constant reconstruction, HLL, a perfect gas with `gamma = 1.4` and the `double`s of the
machine, it is no longer its own mirror image after one iteration with time step 1/8, on every decomposition: the densities of the first and
the last cell are different. The limiters divide the slope on the right by the slope on the left
(src/hydro/slope_limiters.hpp 40, 60, 81), and the mirror image divides the other way. -/
theorem C91_limiter_violated (hl : lim ≠ .constant) (hk : p.k = airKernels 1 lim .hll) (hgeom : p.geom = .cartesian) (hlo : p.lo = negDblMax)
    (hpol : ∀ x, p.policy [x] = .lit (1 / 8)) (hb : ∀ a f, p.bcs a f = .periodic) (ho : ∀ id ∈ order, id < 2)
    (hpo : p.order = order.map some) :
    letI := ieeeArith noTrig
    KDecomposition p ![6, 1, 1] 2 (fun _ i => .lit i) (fun _ _ _ => 0) dims sched grav M lf → ∀ {D : DistView (Fields 1 0 Ieee)},
    (∀ rank, inBox 0 dims rank → D.ext rank = localExt ![6, 1, 1] dims (nghostOf 1 2) rank) →
    (∀ rank, inBox 0 dims rank → ∀ c, inBox (nghostOf 1 2) (fun a => D.ext rank a - nghostOf 1 2 a) c →
      D.val rank c = symTube (globalOf ![6, 1, 1] dims (nghostOf 1 2) rank c)) →
    ∃ R hist, kRun p sched (borderOf dims) (nghostOf 1 2) dims grav M lf D 1 = some (R, hist) ∧
      ∀ rank rank' c c', inBox 0 dims rank → inBox 0 dims rank' →
        inExt (localExt ![6, 1, 1] dims (nghostOf 1 2) rank) c = true → inExt (localExt ![6, 1, 1] dims (nghostOf 1 2) rank') c' = true →
        globalOf ![6, 1, 1] dims (nghostOf 1 2) rank c = ![0, 0, 0] → globalOf ![6, 1, 1] dims (nghostOf 1 2) rank' c' = ![5, 0, 0] →
        R.val rank' c' ≠ (R.val rank c).flip 0 := by
  refine tube_run ?_ hk hgeom hlo hpol hb ho hpo
  cases lim with
  | constant => exact absurd rfl hl
  | vanLeer => exact endDensities_vanLeer
  | minmod => exact endDensities_minmod
  | vanAlbada => exact endDensities_vanAlbada

/-- **C91: violated by HLLC.** The same tube with the constant reconstruction and the HLLC solver: the numerator of the speed of the
contact, `pR.P - pL.P + rcL * uL - rcR * uR` (src/hydro/riemann_solver.hpp 91), is added up from left to right, and the mirror image
adds the same numbers in another order. -/
theorem C91_hllc_violated (hk : p.k = airKernels 1 .constant .hllc) (hgeom : p.geom = .cartesian) (hlo : p.lo = negDblMax)
    (hpol : ∀ x, p.policy [x] = .lit (1 / 8)) (hb : ∀ a f, p.bcs a f = .periodic) (ho : ∀ id ∈ order, id < 2)
    (hpo : p.order = order.map some) :
    letI := ieeeArith noTrig
    KDecomposition p ![6, 1, 1] 2 (fun _ i => .lit i) (fun _ _ _ => 0) dims sched grav M lf → ∀ {D : DistView (Fields 1 0 Ieee)},
    (∀ rank, inBox 0 dims rank → D.ext rank = localExt ![6, 1, 1] dims (nghostOf 1 2) rank) →
    (∀ rank, inBox 0 dims rank → ∀ c, inBox (nghostOf 1 2) (fun a => D.ext rank a - nghostOf 1 2 a) c →
      D.val rank c = symTube (globalOf ![6, 1, 1] dims (nghostOf 1 2) rank c)) →
    ∃ R hist, kRun p sched (borderOf dims) (nghostOf 1 2) dims grav M lf D 1 = some (R, hist) ∧
      ∀ rank rank' c c', inBox 0 dims rank → inBox 0 dims rank' →
        inExt (localExt ![6, 1, 1] dims (nghostOf 1 2) rank) c = true → inExt (localExt ![6, 1, 1] dims (nghostOf 1 2) rank') c' = true →
        globalOf ![6, 1, 1] dims (nghostOf 1 2) rank c = ![0, 0, 0] → globalOf ![6, 1, 1] dims (nghostOf 1 2) rank' c' = ![5, 0, 0] →
        R.val rank' c' ≠ (R.val rank c).flip 0 :=
  tube_run endDensities_hllc hk hgeom hlo hpol hb ho hpo

end Tube

/-- Decompositions of the tube: one rank, and three. The first and the last cell are cells of them. -/
example (k : Kernels 1 0 Ieee) (user : UserBc 1 0 Ieee) : letI := ieeeArith noTrig
    let p : KernelParams 1 0 Ieee := ⟨k, .cartesian, negDblMax, fun _ => .lit (1 / 8), user, fun _ _ => .periodic, [some 0, some 1]⟩
    (∃ M lf, KDecomposition p ![6, 1, 1] 2 (fun _ i => .lit i) (fun _ _ _ => 0) ![1, 1, 1] boxList (fun _ _ _ _ => some 0) M lf) ∧
    (∃ M lf, KDecomposition p ![6, 1, 1] 2 (fun _ i => .lit i) (fun _ _ _ => 0) ![3, 1, 1] boxList (fun _ _ _ _ => some 0) M lf) ∧
    globalOf ![6, 1, 1] ![3, 1, 1] (nghostOf 1 2) ![0, 0, 0] ![2, 0, 0] = ![0, 0, 0] ∧
    globalOf ![6, 1, 1] ![3, 1, 1] (nghostOf 1 2) ![2, 0, 0] ![3, 0, 0] = ![5, 0, 0] := by
  letI := ieeeArith noTrig
  refine ⟨exists_kDecomposition _ (by decide) (by decide) (by norm_num) ?_ _,
    exists_kDecomposition _ (by decide) (by decide) (by norm_num) ?_ _, by decide, by decide⟩
  all_goals
    intro a ha r h0 h1
    rw [localSize_eq (by fin_cases a <;> decide) (lt_of_le_of_lt h0 h1)]
    fin_cases a
    · simp [not_lt.2 h0]
    · simp at ha
    · simp at ha

/-! ### Exchanged axes -/

/-- A square of 2 x 2 cells that stays the same when the axes are exchanged. -/
def symSquare (g : Cell) : Fields 2 0 Ieee :=
  let s := fun r m m' e : ℤ => (⟨.lit (r / 10), ![.lit (m / 10), .lit (m' / 10)], .lit (e / 10), Fin.elim0⟩ : Fields 2 0 Ieee)
  if g 0 = 0 then (if g 1 = 0 then s 15 (-3) (-3) 30 else s 21 5 (-3) 48) else (if g 1 = 0 then s 21 (-3) 5 48 else s 12 3 3 39)

/-- Exchange of the axes: the cell. -/
def swapCell (g : Cell) : Cell := ![g 1, g 0, g 2]

/-- Exchange of the axes: the momentum. -/
def swapFields {K : Type} (s : Fields 2 0 K) : Fields 2 0 K := { s with rhou := ![s.rhou 1, s.rhou 0] }

theorem symSquare_swap {g : Cell} (hg : inBox 0 ![2, 2, 1] g) : symSquare g = swapFields (symSquare (swapCell g)) := by
  have h0 : 0 ≤ g 0 ∧ g 0 < 2 := hg 0
  have h1 : 0 ≤ g 1 ∧ g 1 < 2 := hg 1
  have e0 : g 0 = 0 ∨ g 0 = 1 := by omega
  have e1 : g 1 = 0 ∨ g 1 = 1 := by omega
  unfold symSquare swapFields swapCell
  rcases e0 with e0 | e0 <;> rcases e1 with e1 | e1 <;> simp [e0, e1]

/-- Densities of the two cells off the diagonal. -/
def offDensities (sol : Solver) : Ieee × Ieee :=
  ((firstStep 2 .constant sol ![2, 2, 1] (.lit (1 / 8)) symSquare ![0, 1, 0]).rho, (firstStep 2 .constant sol ![2, 2, 1] (.lit (1 / 8)) symSquare ![1, 0, 0]).rho)

theorem offDensities_hll : (offDensities .hll).1 ≠ (offDensities .hll).2 := by decide +kernel
theorem offDensities_hllc : (offDensities .hllc).1 ≠ (offDensities .hllc).2 := by decide +kernel
theorem offDensities_splitting : (offDensities .splitting).1 ≠ (offDensities .splitting).2 := by decide +kernel

/-- **C91: violated by exchanged axes.** The square `symSquare` (2 x 2 cells of size 1, periodic) stays the same when the two axes are
exchanged (`symSquare_swap`). With the constant reconstruction and any solver it does not after one iteration with time step 1/8, on every
decomposition: the densities of the cells (0, 1) and (1, 0) are different. The update adds the fluxes of the first direction before those
of the second (src/hydro/godunov_scheme.hpp 125, 159). -/
theorem C91_axes_violated {sol : Solver} {p : KernelParams 2 0 Ieee} {order : List ℕ} {dims : Cell} {sched : Cell → Cell → List Cell}
    {grav : DistView (Fields 2 0 Ieee) → Cell → GravField 2 Ieee} {M : ℕ → Cell → RankMem 2 0 Ieee} {lf : ℕ → Cell → List Cell}
    (hk : p.k = airKernels 2 .constant sol) (hgeom : p.geom = .cartesian) (hlo : p.lo = negDblMax)
    (hpol : ∀ x, p.policy [x] = .lit (1 / 8)) (hb : ∀ a f, p.bcs a f = .periodic) (ho : ∀ id ∈ order, id < 4)
    (hpo : p.order = order.map some) :
    letI := ieeeArith noTrig
    KDecomposition p ![2, 2, 1] 2 (fun _ i => .lit i) (fun _ _ _ => 0) dims sched grav M lf → ∀ {D : DistView (Fields 2 0 Ieee)},
    (∀ rank, inBox 0 dims rank → D.ext rank = localExt ![2, 2, 1] dims (nghostOf 2 2) rank) →
    (∀ rank, inBox 0 dims rank → ∀ c, inBox (nghostOf 2 2) (fun a => D.ext rank a - nghostOf 2 2 a) c →
      D.val rank c = symSquare (globalOf ![2, 2, 1] dims (nghostOf 2 2) rank c)) →
    ∃ R hist, kRun p sched (borderOf dims) (nghostOf 2 2) dims grav M lf D 1 = some (R, hist) ∧
      ∀ rank rank' c c', inBox 0 dims rank → inBox 0 dims rank' →
        inExt (localExt ![2, 2, 1] dims (nghostOf 2 2) rank) c = true → inExt (localExt ![2, 2, 1] dims (nghostOf 2 2) rank') c' = true →
        globalOf ![2, 2, 1] dims (nghostOf 2 2) rank c = ![0, 1, 0] → globalOf ![2, 2, 1] dims (nghostOf 2 2) rank' c' = ![1, 0, 0] →
        R.val rank' c' ≠ swapFields (R.val rank c) := by
  letI := ieeeArith noTrig
  intro h D hext hint
  obtain ⟨R, hist, e1, e2⟩ := firstStep_run (by norm_num) hk hgeom hlo hpol hb ho hpo (by decide) h hext hint
  refine ⟨R, hist, e1, fun rank rank' c c' hr hr' hc hc' hg hg' he => ?_⟩
  have h1 := e2 rank c hr hc (by rw [hg]; decide)
  have h2 := e2 rank' c' hr' hc' (by rw [hg']; decide)
  rw [hg] at h1
  rw [hg'] at h2
  have := congrArg Fields.rho he
  rw [h1, h2] at this
  have key : (offDensities sol).1 = (offDensities sol).2 := this.symm
  cases sol with
  | hll => exact offDensities_hll key
  | hllc => exact offDensities_hllc key
  | splitting => exact offDensities_splitting key

/-- A decomposition of the square, and its two cells. -/
example (k : Kernels 2 0 Ieee) (user : UserBc 2 0 Ieee) : letI := ieeeArith noTrig
    let p : KernelParams 2 0 Ieee := ⟨k, .cartesian, negDblMax, fun _ => .lit (1 / 8), user, fun _ _ => .periodic,
      [some 0, some 1, some 2, some 3]⟩
    (∃ M lf, KDecomposition p ![2, 2, 1] 2 (fun _ i => .lit i) (fun _ _ _ => 0) ![1, 1, 1] boxList (fun _ _ _ _ => some 0) M lf) ∧
    globalOf ![2, 2, 1] ![1, 1, 1] (nghostOf 2 2) ![0, 0, 0] ![2, 3, 0] = ![0, 1, 0] ∧
    globalOf ![2, 2, 1] ![1, 1, 1] (nghostOf 2 2) ![0, 0, 0] ![3, 2, 0] = ![1, 0, 0] := by
  letI := ieeeArith noTrig
  refine ⟨exists_kDecomposition _ (by decide) (by decide) (by norm_num) ?_ _, by decide, by decide⟩
  intro a ha r h0 h1
  rw [localSize_eq (by fin_cases a <;> decide) (lt_of_le_of_lt h0 h1)]
  fin_cases a
  · simp [not_lt.2 h0]
  · simp [not_lt.2 h0]
  · simp at ha

end Heracles

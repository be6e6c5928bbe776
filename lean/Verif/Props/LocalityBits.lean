import Verif.Props.Locality
import Verif.Props.MirrorLost

/-!
# C93 on IEEE `double`s: the two cells per iteration are reached, and the time step acts at once everywhere
-/

namespace Heracles

/-- A first order run with any equation of state reconstructs from the cell itself. -/
theorem orderedKernels_firstOrder {d n : ℕ} {F : Type} [Arith F] (sol : Solver) (eos : EoS F) (geom : Geom) (fix : Option F) :
    (orderedKernels (d := d) (n := n) .constant sol eos geom fix).FirstOrder := by
  intro dxm dx dxp l l' c r r' side
  rfl

/-- The first iteration of a run on any decomposition, with the time step of its policy. -/
theorem firstStep_rate {d : ℕ} (hd3 : d ≤ 3) {lim : Limiter} {sol : Solver} {p : KernelParams d 0 Ieee} (hk : p.k = airKernels d lim sol)
    (hgeom : p.geom = .cartesian) (hlo : p.lo = negDblMax)
    (hb : ∀ a f, p.bcs a f = .periodic) {order : List ℕ} (ho : ∀ id ∈ order, id < 2 * d) (hpo : p.order = order.map some) {nx : Cell}
    (hN : ∀ a, 0 ≤ nx a) {dims : Cell} {sched : Cell → Cell → List Cell} {grav : DistView (Fields d 0 Ieee) → Cell → GravField d Ieee}
    {M : ℕ → Cell → RankMem d 0 Ieee} {lf : ℕ → Cell → List Cell} :
    letI := ieeeArith noTrig
    KDecomposition p nx 2 (fun _ i => .lit i) (fun _ _ _ => 0) dims sched grav M lf → ∀ {G : Cell → Fields d 0 Ieee}
    {D : DistView (Fields d 0 Ieee)}, (∀ rank, inBox 0 dims rank → D.ext rank = localExt nx dims (nghostOf d 2) rank) →
    (∀ rank, inBox 0 dims rank → ∀ c, inBox (nghostOf d 2) (fun a => D.ext rank a - nghostOf d 2 a) c →
      D.val rank c = G (globalOf nx dims (nghostOf d 2) rank c)) →
    ∃ R m, kRun p sched (borderOf dims) (nghostOf d 2) dims grav M lf D 1 = some (R, [p.k.inv m]) ∧
      IeeeRate p nx (nghostOf d 2) (fun _ i => .lit i) (fun C => G (wrap nx (C - nghostOf d 2))) m ∧
      ∀ rank c, inBox 0 dims rank → inExt (localExt nx dims (nghostOf d 2) rank) c = true →
        inBox 0 nx (globalOf nx dims (nghostOf d 2) rank c) →
        R.val rank c = firstStep d lim sol nx (p.policy [p.k.inv m]) G (globalOf nx dims (nghostOf d 2) rank c) := by
  letI := ieeeArith noTrig
  intro h G D hext hint
  have hb' : ∀ a f, p.bcs a f ≠ .userDefined := fun a f => by rw [hb]; exact fun h => by cases h
  have hlo' : p.lo ≠ .nan := by rw [hlo]; decide +kernel
  obtain ⟨R, e1, e2⟩ := distBcs_holds hd3 hN h.pos (by omega) h.size p.user h.order hb' ho G D hext hint
  obtain ⟨m, R', q1, q2, q3⟩ := ieee_iter noTrig hd3 hlo' hN (by norm_num) hb' ho hpo h 0 e2 []
  rw [bcGlob_wrap hb] at q1 q3
  refine ⟨R', m, ?_, q1, fun rank c hr hc hin => ?_⟩
  · have e0 : kRun p sched (borderOf dims) (nghostOf d 2) dims grav M lf D 0 = some (R, []) := by
      unfold kRun; rw [hpo, e1]; rfl
    unfold kRun; rw [e0]; exact q2
  · rw [q3.val rank hr c hc]
    have e : c + startCell nx dims rank = globalOf nx dims (nghostOf d 2) rank c + nghostOf d 2 := by
      funext a
      simp only [Pi.add_apply, globalOf, startCell]
      ring
    rw [e]
    unfold kIterGlob
    rw [bcGlob_inside p.bcs hd3 (by norm_num) ho _ hin, hk, hgeom]
    rfl

/-- A tube of 8 cells at rest, of density 1, hot in cell 4. `e2` and `e4` are the energies of the cells 2 and 4. -/
def hotTube (e2 e4 : ℤ) (g : Cell) : Fields 1 0 Ieee :=
  let s := fun e : ℤ => (⟨.lit 1, fun _ => .lit 0, .lit e, Fin.elim0⟩ : Fields 1 0 Ieee)
  if g 0 = 0 then s 4 else if g 0 = 1 then s 6 else if g 0 = 2 then s e2 else if g 0 = 4 then s e4 else s 3

/-- Rate of the cell `i` of the array with ghosts. -/
def hotRate (e2 e4 i : ℤ) : Ieee :=
  letI := ieeeArith noTrig
  let W : Cell → Fields 1 0 Ieee := fun C => hotTube e2 e4 (wrap ![8, 1, 1] (C - nghostOf 1 2))
  kRateVal (airKernels 1 .minmod .hll) .cartesian (fun _ i => .lit i) W (kPrimGlob (airKernels 1 .minmod .hll) W) ![i, 0, 0]

/-- The hot cell has the largest rate. -/
theorem hotRate_max {e2 e4 : ℤ} {p : KernelParams 1 0 Ieee} (hk : p.k = airKernels 1 .minmod .hll) (hgeom : p.geom = .cartesian)
    (hlo : p.lo = negDblMax) (h0 : negDblMax.ltb (hotRate e2 e4 6) = true)
    (hmax : ∀ i ∈ intRange 0 12, hotRate e2 e4 i = hotRate e2 e4 6 ∨ (hotRate e2 e4 i).ltb (hotRate e2 e4 6) = true) {m : Ieee}
    (hm : letI := ieeeArith noTrig
      IeeeRate p ![8, 1, 1] (nghostOf 1 2) (fun _ i => .lit i) (fun C => hotTube e2 e4 (wrap ![8, 1, 1] (C - nghostOf 1 2))) m) :
    m = hotRate e2 e4 6 := by
  letI := ieeeArith noTrig
  unfold IeeeRate at hm
  rw [hk, hgeom, hlo] at hm
  obtain ⟨y, k1, k2, k3⟩ := hm.num
  have hin : inExt (globExt ![8, 1, 1] (nghostOf 1 2)) ![6, 0, 0] = true := by decide
  have hno : ¬ m.ltb (hotRate e2 e4 6) = true := by
    rw [Ieee.ltb_key]
    rintro ⟨u, v, h1, h2, h3⟩
    rw [k1] at h1
    cases h1
    exact absurd (k3 _ hin v h2) (not_le.2 h3)
  rcases hm.mem with e | ⟨C, hC, e⟩
  · rw [e] at hno; exact absurd h0 hno
  · have hb := inExt_iff.1 hC
    have b0 : 0 ≤ C 0 ∧ C 0 < 12 := hb 0
    have b1 : 0 ≤ C 1 ∧ C 1 < 1 := hb 1
    have b2 : 0 ≤ C 2 ∧ C 2 < 1 := hb 2
    have eC : C = ![C 0, 0, 0] := by
      funext a
      fin_cases a
      · rfl
      · show C 1 = 0; omega
      · show C 2 = 0; omega
    rw [eC] at e
    have e' : m = hotRate e2 e4 (C 0) := e
    rcases hmax (C 0) (mem_intRange.2 b0) with h | h
    · exact e'.trans h
    · rw [e'] at hno; exact absurd h hno

theorem hotRate_9_200 : negDblMax.ltb (hotRate 9 200 6) = true ∧
    ∀ i ∈ intRange 0 12, hotRate 9 200 i = hotRate 9 200 6 ∨ (hotRate 9 200 i).ltb (hotRate 9 200 6) = true := by decide +kernel

theorem hotRate_7_200 : negDblMax.ltb (hotRate 7 200 6) = true ∧
    ∀ i ∈ intRange 0 12, hotRate 7 200 i = hotRate 7 200 6 ∨ (hotRate 7 200 i).ltb (hotRate 7 200 6) = true := by decide +kernel

theorem hotRate_9_800 : negDblMax.ltb (hotRate 9 800 6) = true ∧
    ∀ i ∈ intRange 0 12, hotRate 9 800 i = hotRate 9 800 6 ∨ (hotRate 9 800 i).ltb (hotRate 9 800 6) = true := by decide +kernel

/-- Time step of the tube with a Courant number 1/2. -/
def hotDt (e2 e4 : ℤ) : Ieee := (Ieee.lit (1 / 2)).mul ((airKernels 1 .minmod .hll).inv (hotRate e2 e4 6))

/-- Energy of cell 0 after one iteration. -/
def hotEnd (e2 e4 : ℤ) : Ieee := (firstStep 1 .minmod .hll ![8, 1, 1] (hotDt e2 e4) (hotTube e2 e4) ![0, 0, 0]).E

theorem hotRate_eq : hotRate 9 200 6 = hotRate 7 200 6 := by decide +kernel
theorem hotEnd_reach : hotEnd 9 200 ≠ hotEnd 7 200 := by decide +kernel
theorem hotEnd_step : hotEnd 9 200 ≠ hotEnd 9 800 := by decide +kernel

section Runs

variable {p : KernelParams 1 0 Ieee} {order : List ℕ} {dims : Cell} {sched : Cell → Cell → List Cell}
  {grav : DistView (Fields 1 0 Ieee) → Cell → GravField 1 Ieee} {M : ℕ → Cell → RankMem 1 0 Ieee} {lf : ℕ → Cell → List Cell}

theorem hotTube_run {e2 e4 : ℤ} (hmax : negDblMax.ltb (hotRate e2 e4 6) = true ∧
      ∀ i ∈ intRange 0 12, hotRate e2 e4 i = hotRate e2 e4 6 ∨ (hotRate e2 e4 i).ltb (hotRate e2 e4 6) = true)
    (hk : p.k = airKernels 1 .minmod .hll) (hgeom : p.geom = .cartesian) (hlo : p.lo = negDblMax)
    (hpol : ∀ x, p.policy [x] = (Ieee.lit (1 / 2)).mul x) (hb : ∀ a f, p.bcs a f = .periodic) (ho : ∀ id ∈ order, id < 2)
    (hpo : p.order = order.map some) :
    letI := ieeeArith noTrig
    KDecomposition p ![8, 1, 1] 2 (fun _ i => .lit i) (fun _ _ _ => 0) dims sched grav M lf → ∀ {D : DistView (Fields 1 0 Ieee)},
    (∀ rank, inBox 0 dims rank → D.ext rank = localExt ![8, 1, 1] dims (nghostOf 1 2) rank) →
    (∀ rank, inBox 0 dims rank → ∀ c, inBox (nghostOf 1 2) (fun a => D.ext rank a - nghostOf 1 2 a) c →
      D.val rank c = hotTube e2 e4 (globalOf ![8, 1, 1] dims (nghostOf 1 2) rank c)) →
    ∃ R, kRun p sched (borderOf dims) (nghostOf 1 2) dims grav M lf D 1 = some (R, [p.k.inv (hotRate e2 e4 6)]) ∧
      ∀ rank c, inBox 0 dims rank → inExt (localExt ![8, 1, 1] dims (nghostOf 1 2) rank) c = true →
        globalOf ![8, 1, 1] dims (nghostOf 1 2) rank c = ![0, 0, 0] → (R.val rank c).E = hotEnd e2 e4 := by
  letI := ieeeArith noTrig
  intro h D hext hint
  obtain ⟨R, m, r1, r2, r3⟩ := firstStep_rate (by norm_num) hk hgeom hlo hb ho hpo (by decide) h hext hint
  obtain rfl := hotRate_max hk hgeom hlo hmax.1 hmax.2 r2
  refine ⟨R, r1, fun rank c hr hc hg => ?_⟩
  rw [r3 rank c hr hc (by rw [hg]; decide), hg, hpol, hk]
  rfl

/-- **C93, the bound is reached.** IEEE `double`s, minmod and HLL, a periodic tube of 8 cells at rest with a hot cell 4, Courant number
1/2, on any decomposition: two states that differ only in cell 2 make the same first time step and differ after it in cell 0, two
faces away. -/
theorem C93_two_cells_reached (hk : p.k = airKernels 1 .minmod .hll) (hgeom : p.geom = .cartesian) (hlo : p.lo = negDblMax)
    (hpol : ∀ x, p.policy [x] = (Ieee.lit (1 / 2)).mul x) (hb : ∀ a f, p.bcs a f = .periodic) (ho : ∀ id ∈ order, id < 2)
    (hpo : p.order = order.map some) :
    letI := ieeeArith noTrig
    KDecomposition p ![8, 1, 1] 2 (fun _ i => .lit i) (fun _ _ _ => 0) dims sched grav M lf → ∀ {D D' : DistView (Fields 1 0 Ieee)},
    (∀ rank, inBox 0 dims rank → D.ext rank = localExt ![8, 1, 1] dims (nghostOf 1 2) rank) →
    (∀ rank, inBox 0 dims rank → ∀ c, inBox (nghostOf 1 2) (fun a => D.ext rank a - nghostOf 1 2 a) c →
      D.val rank c = hotTube 9 200 (globalOf ![8, 1, 1] dims (nghostOf 1 2) rank c)) →
    (∀ rank, inBox 0 dims rank → D'.ext rank = localExt ![8, 1, 1] dims (nghostOf 1 2) rank) →
    (∀ rank, inBox 0 dims rank → ∀ c, inBox (nghostOf 1 2) (fun a => D'.ext rank a - nghostOf 1 2 a) c →
      D'.val rank c = hotTube 7 200 (globalOf ![8, 1, 1] dims (nghostOf 1 2) rank c)) →
    (∀ x : Cell, x 0 ≠ 2 → hotTube 9 200 x = hotTube 7 200 x) ∧
    ∃ R R' hist, kRun p sched (borderOf dims) (nghostOf 1 2) dims grav M lf D 1 = some (R, hist) ∧
      kRun p sched (borderOf dims) (nghostOf 1 2) dims grav M lf D' 1 = some (R', hist) ∧
      ∀ rank c, inBox 0 dims rank → inExt (localExt ![8, 1, 1] dims (nghostOf 1 2) rank) c = true →
        globalOf ![8, 1, 1] dims (nghostOf 1 2) rank c = ![0, 0, 0] → R.val rank c ≠ R'.val rank c := by
  letI := ieeeArith noTrig
  intro h D D' hext hint hext' hint'
  obtain ⟨R, r1, r2⟩ := hotTube_run hotRate_9_200 hk hgeom hlo hpol hb ho hpo h hext hint
  obtain ⟨R', r1', r2'⟩ := hotTube_run hotRate_7_200 hk hgeom hlo hpol hb ho hpo h hext' hint'
  rw [← hotRate_eq] at r1'
  refine ⟨fun x hx => by unfold hotTube; simp only [hx, if_false], R, R', _, r1, r1', fun rank c hr hc hg e => ?_⟩
  exact hotEnd_reach (by rw [← r2 rank c hr hc hg, ← r2' rank c hr hc hg, e])

/-- **C93 needs equal time steps.** The same tube: the energy of the hot cell 4, four faces away from cell 0 on either side, changes the
first time step of the whole tube and with it what the first iteration leaves in cell 0. What happens in one cell acts at once on all
others, through the common time step. -/
theorem C93_time_step_violated (hk : p.k = airKernels 1 .minmod .hll) (hgeom : p.geom = .cartesian) (hlo : p.lo = negDblMax)
    (hpol : ∀ x, p.policy [x] = (Ieee.lit (1 / 2)).mul x) (hb : ∀ a f, p.bcs a f = .periodic) (ho : ∀ id ∈ order, id < 2)
    (hpo : p.order = order.map some) :
    letI := ieeeArith noTrig
    KDecomposition p ![8, 1, 1] 2 (fun _ i => .lit i) (fun _ _ _ => 0) dims sched grav M lf → ∀ {D D' : DistView (Fields 1 0 Ieee)},
    (∀ rank, inBox 0 dims rank → D.ext rank = localExt ![8, 1, 1] dims (nghostOf 1 2) rank) →
    (∀ rank, inBox 0 dims rank → ∀ c, inBox (nghostOf 1 2) (fun a => D.ext rank a - nghostOf 1 2 a) c →
      D.val rank c = hotTube 9 200 (globalOf ![8, 1, 1] dims (nghostOf 1 2) rank c)) →
    (∀ rank, inBox 0 dims rank → D'.ext rank = localExt ![8, 1, 1] dims (nghostOf 1 2) rank) →
    (∀ rank, inBox 0 dims rank → ∀ c, inBox (nghostOf 1 2) (fun a => D'.ext rank a - nghostOf 1 2 a) c →
      D'.val rank c = hotTube 9 800 (globalOf ![8, 1, 1] dims (nghostOf 1 2) rank c)) →
    (∀ x, CloseBy (periodicAxes p.bcs) ![8, 1, 1] (2 * 1) ![0, 0, 0] x → hotTube 9 200 x = hotTube 9 800 x) ∧
    ∃ R R' hist hist', kRun p sched (borderOf dims) (nghostOf 1 2) dims grav M lf D 1 = some (R, hist) ∧
      kRun p sched (borderOf dims) (nghostOf 1 2) dims grav M lf D' 1 = some (R', hist') ∧
      ∀ rank c, inBox 0 dims rank → inExt (localExt ![8, 1, 1] dims (nghostOf 1 2) rank) c = true →
        globalOf ![8, 1, 1] dims (nghostOf 1 2) rank c = ![0, 0, 0] → R.val rank c ≠ R'.val rank c := by
  letI := ieeeArith noTrig
  intro h D D' hext hint hext' hint'
  obtain ⟨R, r1, r2⟩ := hotTube_run hotRate_9_200 hk hgeom hlo hpol hb ho hpo h hext hint
  obtain ⟨R', r1', r2'⟩ := hotTube_run hotRate_9_800 hk hgeom hlo hpol hb ho hpo h hext' hint'
  refine ⟨fun x hx => ?_, R, R', _, _, r1, r1', fun rank c hr hc hg e => ?_⟩
  · have hx4 : x 0 ≠ 4 := by
      obtain ⟨t, -, ht⟩ := hx
      have h0 : |0 + t 0 * 8 - x 0| ≤ 2 :=
        (Finset.single_le_sum (f := fun a => |(![0, 0, 0] : Cell) a + t a * (![8, 1, 1] : Cell) a - x a|) (fun a _ => abs_nonneg _)
          (Finset.mem_univ 0)).trans (by simpa using ht)
      rw [abs_le] at h0
      omega
    unfold hotTube
    simp only [hx4, if_false]
  · exact hotEnd_step (by rw [← r2 rank c hr hc hg, ← r2' rank c hr hc hg, e])

/-- A tube of 8 cells on one rank and on four. -/
example (k : Kernels 1 0 Ieee) (user : UserBc 1 0 Ieee) : letI := ieeeArith noTrig
    let p : KernelParams 1 0 Ieee := ⟨k, .cartesian, negDblMax, fun l => (Ieee.lit (1 / 2)).mul (l.headD .nan), user, fun _ _ => .periodic,
      [some 0, some 1]⟩
    (∃ M lf, KDecomposition p ![8, 1, 1] 2 (fun _ i => .lit i) (fun _ _ _ => 0) ![1, 1, 1] boxList (fun _ _ _ _ => some 0) M lf) ∧
    (∃ M lf, KDecomposition p ![8, 1, 1] 2 (fun _ i => .lit i) (fun _ _ _ => 0) ![4, 1, 1] boxList (fun _ _ _ _ => some 0) M lf) ∧
    globalOf ![8, 1, 1] ![4, 1, 1] (nghostOf 1 2) ![0, 0, 0] ![2, 0, 0] = ![0, 0, 0] := by
  letI := ieeeArith noTrig
  refine ⟨exists_kDecomposition _ (by decide) (by decide) (by norm_num) ?_ _,
    exists_kDecomposition _ (by decide) (by decide) (by norm_num) ?_ _, by decide⟩
  all_goals
    intro a ha r h0 h1
    rw [localSize_eq (by fin_cases a <;> decide) (lt_of_le_of_lt h0 h1)]
    fin_cases a
    · simp [not_lt.2 h0]
    · simp at ha
    · simp at ha

/-- The bound of C93 on a closed tube of 100 cells after 10 iterations: cell 50 does not see the cells before 30 and after 70. -/
example : CloseBy (periodicAxes fun (_ : Fin 1) _ => .reflexive) ![100, 1, 1] (2 * 10) ![50, 0, 0] ![70, 0, 0] ∧
    ¬ CloseBy (periodicAxes fun (_ : Fin 1) _ => .reflexive) ![100, 1, 1] (2 * 10) ![50, 0, 0] ![71, 0, 0] := by
  constructor
  · exact ⟨0, fun _ _ => rfl, by decide⟩
  · rintro ⟨t, h1, h2⟩
    have : t 0 = 0 := h1 0 fun ⟨_, h⟩ => by cases h
    simp [Fin.sum_univ_three, this] at h2
    have := abs_nonneg (t 1)
    have := abs_nonneg (t 2)
    omega

end Runs

end Heracles

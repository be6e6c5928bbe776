import Verif.Lemmas.RestartBits
import Verif.Model.KernelRestart
import Verif.Props.CalmFlow

/-!
# C86: a restart does not give the numbers of the run it continues
-/

namespace Heracles

open Arith

section Spec
variable {d n : ℕ} {F : Type}

/-- A state after conversion to primitive variables and back. -/
def reloaded (k : Kernels d n F) (s : Fields d n F) : Fields d n F :=
  let q := k.cons s.rho (k.prim s.rho { rhou := s.rhou, E := s.E })
  { s with rhou := q.rhou, E := q.E }

theorem kRestart_spec (k : Kernels d n F) {dims : Cell} {E b e : Cell → Cell} {conv l : Cell → List Cell}
    {up : Cell → View Cell (VelPres d F)} {me : Cell → View Cell (MomEn d F)} {D : DistView (Fields d n F)}
    (hD : ∀ r, inBox 0 dims r → D.ext r = E r) (hc : ∀ r, inBox 0 dims r → IsSchedule (conv r) 0 (E r))
    (hl : ∀ r, inBox 0 dims r → IsSchedule (l r) (b r) (e r))
    (hin : ∀ r, inBox 0 dims r → ∀ c, inBox (b r) (e r) c → inExt (E r) c = true)
    (hup : ∀ r, inBox 0 dims r → (up r).dom = inExt (E r)) (hme : ∀ r, inBox 0 dims r → (me r).dom = inExt (E r)) :
    ∃ D', kRestart k dims conv l up me D = some D' ∧ D'.ext = D.ext ∧
      ∀ r, inBox 0 dims r → ∀ c, inBox (b r) (e r) c → D'.val r c = reloaded k (D.val r c) := by
  have key : ∀ r, inBox 0 dims r → ∃ v, kReload k (conv r) (l r) (D.local r) (up r) (me r) = some v ∧
      ∀ c, inBox (b r) (e r) c → v.val c = reloaded k (D.val r c) := by
    intro r hr
    have hdom : (D.local r).dom = inExt (E r) := by unfold DistView.local; rw [hD r hr]
    have rd1 : ∀ c, inExt (E r) c = true → ((D.local r).comp Fields.rho).rd c = some (D.val r c).rho := fun c h =>
      View.rd_of_dom (v := (D.local r).comp Fields.rho) (by rw [← h, ← hdom]; rfl)
    have rd2 : ∀ c, inExt (E r) c = true → ((D.local r).comp fun s => ({ rhou := s.rhou, E := s.E } : MomEn d F)).rd c =
        some { rhou := (D.val r c).rhou, E := (D.val r c).E } := fun c h =>
      View.rd_of_dom (v := (D.local r).comp fun s => ({ rhou := s.rhou, E := s.E } : MomEn d F)) (by rw [← h, ← hdom]; rfl)
    obtain ⟨v, v1, v2⟩ := parFor_on (s := 0) (hc r hr) (fun c hc => inExt_iff.2 hc) (hup r hr)
      (body := fun c out => do
        let t ← ((D.local r).comp Fields.rho).rd c
        let q ← ((D.local r).comp fun s => ({ rhou := s.rhou, E := s.E } : MomEn d F)).rd c
        out.wr c (k.prim t q)) (f := fun c => k.prim (D.val r c).rho { rhou := (D.val r c).rhou, E := (D.val r c).E }) (by
      intro c hc w _
      rw [rd1 c (inExt_iff.2 hc), rd2 c (inExt_iff.2 hc), add_zero]
      rfl)
    obtain ⟨w, w1, w2⟩ := parFor_on (s := 0) (hl r hr) (hin r hr) (hme r hr)
      (body := fun c out => do
        let t ← ((D.local r).comp Fields.rho).rd c
        let q ← v.rd c
        out.wr c (k.cons t q))
      (f := fun c => k.cons (D.val r c).rho (k.prim (D.val r c).rho { rhou := (D.val r c).rhou, E := (D.val r c).E })) (by
      intro c hc w _
      have h0 := hin r hr c hc
      rw [rd1 c h0, View.rd_of_dom (by rw [v2.dom]; exact h0), v2.val c (inExt_iff.1 h0), add_zero]
      rfl)
    refine ⟨⟨(D.local r).dom, fun c => { D.val r c with rhou := (w.val c).rhou, E := (w.val c).E }⟩, ?_, fun c hc => ?_⟩
    · unfold kReload kConsToPrim
      rw [v1, Option.bind_eq_bind, Option.bind_some]
      unfold kPrimToCons
      rw [w1, Option.bind_eq_bind, Option.bind_some]
      rfl
    · show ({ D.val r c with rhou := (w.val c).rhou, E := (w.val c).E } : Fields d n F) = _
      rw [w2.val c hc, add_zero]
      rfl
  haveI : Nonempty (View Cell (Fields d n F)) := ⟨D.local 0⟩
  choose! v h1 h2 using key
  obtain ⟨v', e1, e2⟩ := allRanks_some (dims := dims) (dflt := fun r => D.local r) h1
  refine ⟨⟨D.ext, fun r => (v' r).val⟩, ?_, rfl, fun r hr c hc => ?_⟩
  · unfold kRestart
    rw [e1]
    rfl
  · show (v' r).val c = _
    rw [e2 r hr, h2 r hr c hc]

theorem distBcs_ext [Neg F] {user : UserBc d n F} {sched : Cell → Cell → List Cell} {bcs : Fin d → Fin 2 → BcKind}
    {isBorder : Cell → Fin 3 → Fin 2 → Bool} {nghost dims : Cell} {order : List (Option ℕ)} {D R : DistView (Fields d n F)}
    (h : distBcs user sched bcs isBorder nghost dims order D = some R) : R.ext = D.ext := by
  unfold distBcs at h
  cases e : allRanks dims (bcUpdate user sched bcs isBorder nghost dims order D) D.local with
  | none => rw [e] at h; cases h
  | some v => rw [e] at h; cases h; rfl

theorem kRun_ext [Zero F] [Neg F] [LT F] [DecidableLT F] {p : KernelParams d n F} {sched : Cell → Cell → List Cell}
    {isBorder : Cell → Fin 3 → Fin 2 → Bool} {nghost dims : Cell} {grav : DistView (Fields d n F) → Cell → GravField d F}
    {M : ℕ → Cell → RankMem d n F} {lf : ℕ → Cell → List Cell} {D : DistView (Fields d n F)} {i : ℕ} {R : DistView (Fields d n F)}
    {hist : List F} (h : kRun p sched isBorder nghost dims grav M lf D i = some (R, hist)) : R.ext = D.ext := by
  induction i generalizing R hist with
  | zero =>
    unfold kRun at h
    obtain ⟨D', e1, e2⟩ := Option.bind_eq_some_iff.1 h
    cases e2
    exact distBcs_ext e1
  | succ i ih =>
    unfold kRun at h
    obtain ⟨s, e1, e2⟩ := Option.bind_eq_some_iff.1 h
    unfold kIter at e2
    obtain ⟨up, -, e2⟩ := Option.bind_eq_some_iff.1 e2
    obtain ⟨dt0, -, e2⟩ := Option.bind_eq_some_iff.1 e2
    obtain ⟨new, -, e2⟩ := Option.bind_eq_some_iff.1 e2
    obtain ⟨D', e3, e4⟩ := Option.bind_eq_some_iff.1 e2
    cases e4
    exact (distBcs_ext e3).trans (ih (R := s.1) (hist := s.2) e1)

end Spec

section Double
variable {d n : ℕ} {rnd : ℚ → ℚ} (hr : Nearest rnd)
include hr

/-- **C86, size of the difference.** In double precision, for a perfect gas with positive constants: a state that goes through a file
and a restart keeps its density and scalars bit by bit; every component of the momentum changes by at most 3 / 2^53 of itself and the
energy by at most 21 / 2^53 of itself, in all cells where the density is positive and the internal energy that the code computes is
not negative, whichever way ties are rounded and on any process grid. The full statement is that nothing changes; it fails
(`C86_restart_violated`). -/
theorem C86_restart_close_partial (tr : Trig FinDbl) (lim : Limiter) (sol : Solver) (geom : Geom) (fix : Option FinDbl) (hd : d ≤ 3)
    (sqrt : FinDbl → FinDbl) {kb mp gamma gm1 mmw : FinDbl} (hkb : 0 < kb.1) (hmp : 0 < mp.1) (hg : 0 < gm1.1) (hm : 0 < mmw.1)
    {dims : Cell} {E b e : Cell → Cell} {conv l : Cell → List Cell} {up : Cell → View Cell (VelPres d FinDbl)}
    {me : Cell → View Cell (MomEn d FinDbl)} {D : DistView (Fields d n FinDbl)}
    (hD : ∀ r, inBox 0 dims r → D.ext r = E r) (hc : ∀ r, inBox 0 dims r → IsSchedule (conv r) 0 (E r))
    (hl : ∀ r, inBox 0 dims r → IsSchedule (l r) (b r) (e r))
    (hin : ∀ r, inBox 0 dims r → ∀ c, inBox (b r) (e r) c → inExt (E r) c = true)
    (hup : ∀ r, inBox 0 dims r → (up r).dom = inExt (E r)) (hme : ∀ r, inBox 0 dims r → (me r).dom = inExt (E r)) :
    letI := dblArith rnd hr tr
    ∃ D', kRestart (orderedKernels lim sol (oPerfectGas sqrt kb mp gamma gm1 mmw) geom fix) dims conv l up me D = some D' ∧
      ∀ r, inBox 0 dims r → ∀ c, inBox (b r) (e r) c → 0 < (D.val r c).rho.1 → 0 ≤ (oEvol (D.val r c).cons).1 →
        (D'.val r c).rho = (D.val r c).rho ∧ (D'.val r c).fx = (D.val r c).fx ∧
        (∀ i, |((D'.val r c).rhou i).1 - ((D.val r c).rhou i).1| ≤ 3 / 2 ^ 53 * |((D.val r c).rhou i).1|) ∧
        |(D'.val r c).E.1 - (D.val r c).E.1| ≤ 21 / 2 ^ 53 * (D.val r c).E.1 := by
  letI := dblArith rnd hr tr
  obtain ⟨D', e1, -, e2⟩ := kRestart_spec
    (orderedKernels (n := n) lim sol (oPerfectGas sqrt kb mp gamma gm1 mmw) geom fix) hD hc hl hin hup hme
  refine ⟨D', e1, fun r hr' c hc' hrho he => ?_⟩
  rw [e2 r hr' c hc']
  refine ⟨rfl, rfl, fun i => ?_, ?_⟩
  · show |rnd ((D.val r c).rho.1 * rnd (((D.val r c).rhou i).1 / (D.val r c).rho.1)) - ((D.val r c).rhou i).1| ≤ _
    set rho := (D.val r c).rho.1
    set x := ((D.val r c).rhou i).1
    have h1 := hr.rel (x / rho)
    have h2 := hr.rel (rho * rnd (x / rho))
    have h3 : |rho * rnd (x / rho) - x| ≤ |x| / 2 ^ 53 := by
      have : rho * rnd (x / rho) - x = -(rho * (x / rho - rnd (x / rho))) := by field_simp; ring
      rw [this, abs_neg, abs_mul, abs_of_pos hrho]
      rw [abs_div, abs_of_pos hrho] at h1
      calc rho * |x / rho - rnd (x / rho)| ≤ rho * (|x| / rho / 2 ^ 53) := mul_le_mul_of_nonneg_left h1 hrho.le
        _ = |x| / 2 ^ 53 := by field_simp
    have h4 : |rho * rnd (x / rho)| ≤ |x| + |x| / 2 ^ 53 := by
      have := abs_sub_abs_le_abs_sub (rho * rnd (x / rho)) x
      linarith
    have h5 : |rnd (rho * rnd (x / rho)) - rho * rnd (x / rho)| ≤ (|x| + |x| / 2 ^ 53) / 2 ^ 53 := by
      rw [abs_sub_comm]
      exact h2.trans (div_le_div_of_nonneg_right h4 (by norm_num))
    have h6 := abs_sub_le (rnd (rho * rnd (x / rho))) (rho * rnd (x / rho)) x
    have hx := abs_nonneg x
    linarith
  · have hn := near_energy hr tr (oPerfectGas sqrt kb mp gamma gm1 mmw) (D.val r c).cons hrho hd he
      (near_perfectGas hr tr sqrt hkb hmp hg hm hrho he)
    have := hn.abs_sub_le (by unfold eps53; norm_num)
    have e3 : (((20 : ℕ) : ℚ) + 1) * eps53 = 21 / 2 ^ 53 := by unfold eps53; norm_num
    rw [e3] at this
    exact this

/-- The conditions on a cell hold with every rounding for density 7, momentum 29 and energy 1000 (the state of
`C86_restart_violated`, where the momentum does change). -/
example (tr : Trig FinDbl) :
    letI := dblArith rnd hr tr
    let s : Fields 1 0 FinDbl := ⟨dblNat 7 (by norm_num), fun _ => dblNat 29 (by norm_num), dblNat 1000 (by norm_num), fun i => i.elim0⟩
    0 < s.rho.1 ∧ 0 ≤ (oEvol s.cons).1 := by
  letI := dblArith rnd hr tr
  intro s
  refine ⟨show (0 : ℚ) < ((7 : ℕ) : ℚ) by norm_num, ?_⟩
  show 0 ≤ rnd (((1000 : ℕ) : ℚ) - rnd (rnd (rnd (0 + rnd (((29 : ℕ) : ℚ) * ((29 : ℕ) : ℚ))) / ((7 : ℕ) : ℚ)) / rnd ((2 : ℕ) : ℚ)))
  have h841 : rnd 841 = 841 := hr.eq_self (by exact_mod_cast isDouble_int (m := 841) (by norm_num))
  have h2 : rnd 2 = 2 := hr.eq_self (by exact_mod_cast isDouble_int (m := 2) (by norm_num))
  have e1 : rnd (0 + rnd (((29 : ℕ) : ℚ) * ((29 : ℕ) : ℚ))) = 841 := by norm_num [h841]
  rw [e1]
  have e2 : rnd (841 / ((7 : ℕ) : ℚ)) ≤ 841 := by
    rw [← h841]; nth_rewrite 1 [h841]; exact hr.mono (by norm_num)
  have e3 : rnd (rnd (841 / ((7 : ℕ) : ℚ)) / rnd ((2 : ℕ) : ℚ)) ≤ 841 := by
    rw [← h841]; nth_rewrite 1 [h841]
    refine hr.mono ?_
    have : rnd ((2 : ℕ) : ℚ) = 2 := by exact_mod_cast h2
    rw [this]
    linarith
  exact hr.nonneg (by push_cast at *; linarith)

/-- Momentum 29 in density 7 after division by the density and multiplication by it. -/
theorem reload_29 :
    rnd ((7 : ℕ) * rnd (((29 : ℕ) : ℚ) / (7 : ℕ))) = ((8162774324609025 : ℤ) : ℚ) * 2 ^ (-48 : ℤ) := by
  have h1 : rnd (((29 : ℕ) : ℚ) / (7 : ℕ)) = ((4664442471205157 : ℤ) : ℚ) * 2 ^ (-50 : ℤ) :=
    hr.eq_of_close (by norm_num) (by norm_num) (by rw [abs_lt]; constructor <;> norm_num)
  rw [h1]
  exact hr.eq_of_close (by norm_num) (by norm_num) (by rw [abs_lt]; constructor <;> norm_num)

/-- The same with the doubles of the model. -/
theorem reloaded_29 (tr : Trig FinDbl) (lim : Limiter) (sol : Solver) (eos : EoS FinDbl) (energy : FinDbl) :
    letI := dblArith rnd hr tr
    ((reloaded (orderedKernels lim sol eos .cartesian none)
      (⟨dblNat 7 (by norm_num), fun _ => dblNat 29 (by norm_num), energy, fun i => i.elim0⟩ : Fields 1 0 FinDbl)).rhou 0).1 =
      ((8162774324609025 : ℤ) : ℚ) * 2 ^ (-48 : ℤ) :=
  reload_29 hr

/-- **C86 is violated.** In double precision, whichever way the machine breaks ties of its rounding to nearest: a periodic tube of 8
cells on two ranks with density 7 and momentum 29 everywhere, any energy, solver, limiter, equation of state and time steps. The
uninterrupted run has momentum 29 in all cells after any number of iterations. The run that stops after `i` of them, writes its file,
restarts from it and goes on for `j` more has momentum 8162774324609025 / 2^48 = 29.000000000000004 in all cells. -/
theorem C86_restart_violated (tr : Trig FinDbl) (lim : Limiter) (sol : Solver) (eos : EoS FinDbl) (energy : FinDbl)
    (policy : List FinDbl → FinDbl) (lo : FinDbl) (user : UserBc 1 0 FinDbl) (i j : ℕ) :
    letI := dblArith rnd hr tr
    let p : KernelParams 1 0 FinDbl :=
      ⟨orderedKernels lim sol eos .cartesian none, .cartesian, lo, policy, user, fun _ _ => .periodic, [some 0, some 1]⟩
    let run := kRun p boxList (borderOf ![2, 1, 1]) (nghostOf 1 2) ![2, 1, 1] (fun _ _ _ _ => some 0)
    let E := localExt ![8, 1, 1] ![2, 1, 1] (nghostOf 1 2)
    ∃ (M : ℕ → Cell → RankMem 1 0 FinDbl) (lf : ℕ → Cell → List Cell) (D : DistView (Fields 1 0 FinDbl)),
      (∀ r, D.ext r = E r) ∧
      (∀ r c, D.val r c = ⟨dblNat 7 (by norm_num), fun _ => dblNat 29 (by norm_num), energy, fun i => i.elim0⟩) ∧
      (∃ R hist, run M lf D (i + j) = some (R, hist) ∧
        ∀ r c, inBox 0 ![2, 1, 1] r → inExt (E r) c = true → ((R.val r c).rhou 0).1 = 29) ∧
      ∃ R1 h1 R2 R3 h3, run M lf D i = some (R1, h1) ∧
        kRestart p.k ![2, 1, 1] (fun r => boxList 0 (E r)) (fun r => boxList (nghostOf 1 2) (E r - nghostOf 1 2))
          (fun r => ⟨inExt (E r), fun _ => ⟨fun _ => 0, 0⟩⟩) (fun r => ⟨inExt (E r), fun _ => ⟨fun _ => 0, 0⟩⟩) R1 = some R2 ∧
        run M lf R2 j = some (R3, h3) ∧
        ∀ r c, inBox 0 ![2, 1, 1] r → inExt (E r) c = true →
          ((R3.val r c).rhou 0).1 = ((8162774324609025 : ℤ) : ℚ) * 2 ^ (-48 : ℤ) := by
  letI := dblArith rnd hr tr
  intro p run E
  have hN : ∀ a, 0 < (![8, 1, 1] : Cell) a := by decide
  have hex : ∀ r, ∃ (m : RankMem 1 0 FinDbl) (lf : List Cell),
      inBox 0 ![2, 1, 1] r → KRankOk p.k p.geom ![8, 1, 1] ![2, 1, 1] 2 (fun _ => dblNodes) r m lf := fun r => by
    by_cases hr' : inBox 0 ![2, 1, 1] r
    · obtain ⟨m, lf, hm⟩ := exists_kRankOk p.k p.geom (fun a => (hN a).le) (by decide) (by norm_num : (0 : ℤ) ≤ 2) hr' (fun _ => dblNodes)
      exact ⟨m, lf, fun _ => hm⟩
    · obtain ⟨m, lf, hm⟩ := exists_kRankOk p.k p.geom (dims := ![2, 1, 1]) (fun a => (hN a).le) (by decide) (by norm_num : (0 : ℤ) ≤ 2)
        (rank := 0) (by decide) (fun _ => dblNodes)
      exact ⟨m, lf, fun h => absurd h hr'⟩
  choose m lf hm using hex
  have hdec : KDecomposition p ![8, 1, 1] 2 (fun _ => dblNodes) (fun _ _ _ => 0) ![2, 1, 1] boxList (fun _ _ _ _ => some 0)
      (fun _ => m) (fun _ => lf) :=
    ⟨by decide, by
      intro a ha r h0 h1
      rw [localSize_eq (hN a).le (lt_of_le_of_lt h0 h1)]
      fin_cases a
      · simp [not_lt.2 h0]
      · simp at ha
      · simp at ha, fun b e => boxList_isSchedule b e, fun _ _ _ _ _ _ _ _ => rfl, fun _ r hr => hm r hr⟩
  have hrun : ∀ (s : Fields 1 0 FinDbl) (D : DistView (Fields 1 0 FinDbl)), (∀ r, inBox 0 ![2, 1, 1] r → D.ext r = E r) →
      (∀ r, inBox 0 ![2, 1, 1] r → ∀ c, inBox (nghostOf 1 2) (fun a => D.ext r a - nghostOf 1 2 a) c → D.val r c = s) → ∀ i,
      ∃ R hist, run (fun _ => m) (fun _ => lf) D i = some (R, hist) ∧ ∀ r c, inBox 0 ![2, 1, 1] r → inExt (E r) c = true →
        R.val r c = s := by
    intro s D hE hs i
    obtain ⟨R, hist, e1, e2⟩ := C85_uniform_flow_double_partial hr tr (by norm_num) (p := p) rfl rfl hN (by norm_num) (fun a f => by simp [p])
      (order := [0, 1]) (by decide) rfl (by
        intro a i h0 h1
        have hi : i < 1000 := lt_of_lt_of_le h1 (by fin_cases a <;> decide)
        show ((max 0 (min i 1000) : ℤ) : ℚ) < ((max 0 (min (i + 1) 1000) : ℤ) : ℚ)
        have : max 0 (min i 1000) < max 0 (min (i + 1) 1000) := by omega
        exact_mod_cast this) hdec (s := s) (fun a f h => by simp [p] at h) hE hs i
    refine ⟨R, hist, e1, fun r c h1 h2 => ?_⟩
    rw [e2 r c h1 h2]
    have : (fun j => (fun x => oClamp (x * s.rho / s.rho) 0 (lit 1))^[i] (s.fx j)) = s.fx := funext fun j => j.elim0
    rw [this]
  have hExt : ∀ M lf D i R hist, run M lf D i = some (R, hist) → (∀ r, inBox 0 ![2, 1, 1] r → D.ext r = E r) →
      ∀ r, inBox 0 ![2, 1, 1] r → R.ext r = E r := by
    intro M lf D i R hist e h r hr'
    rw [kRun_ext e]
    exact h r hr'
  set s : Fields 1 0 FinDbl := ⟨dblNat 7 (by norm_num), fun _ => dblNat 29 (by norm_num), energy, fun i => i.elim0⟩
  refine ⟨fun _ => m, fun _ => lf, ⟨E, fun _ _ => s⟩, fun _ => rfl, fun _ _ => rfl, ?_, ?_⟩
  · obtain ⟨R, hist, e1, e2⟩ := hrun s ⟨E, fun _ _ => s⟩ (fun _ _ => rfl) (fun _ _ _ _ => rfl) (i + j)
    refine ⟨R, hist, e1, fun r c h1 h2 => ?_⟩
    rw [e2 r c h1 h2]
    show ((29 : ℕ) : ℚ) = 29
    norm_num
  · obtain ⟨R1, h1, e1, e2⟩ := hrun s ⟨E, fun _ _ => s⟩ (fun _ _ => rfl) (fun _ _ _ _ => rfl) i
    have x1 := hExt _ _ _ _ _ _ e1 (fun _ _ => rfl)
    have hin : ∀ r, inBox 0 ![2, 1, 1] r → ∀ c, inBox (nghostOf 1 2) (E r - nghostOf 1 2) c → inExt (E r) c = true := by
      intro r _ c hc
      have hg : ∀ a, 0 ≤ nghostOf 1 2 a := by decide
      exact inExt_iff.2 fun a => ⟨(hg a).trans (hc a).1, lt_of_lt_of_le (hc a).2 (by
        show E r a - nghostOf 1 2 a ≤ E r a
        linarith [hg a])⟩
    obtain ⟨R2, f1, f2, f3⟩ := kRestart_spec p.k (dims := ![2, 1, 1]) (E := E) (b := fun _ => nghostOf 1 2)
      (e := fun r => E r - nghostOf 1 2) (conv := fun r => boxList 0 (E r)) (l := fun r => boxList (nghostOf 1 2) (E r - nghostOf 1 2))
      (up := fun r => ⟨inExt (E r), fun _ => ⟨fun _ => 0, 0⟩⟩) (me := fun r => ⟨inExt (E r), fun _ => ⟨fun _ => 0, 0⟩⟩) (D := R1)
      x1 (fun r _ => boxList_isSchedule _ _) (fun r _ => boxList_isSchedule _ _) hin (fun _ _ => rfl) (fun _ _ => rfl)
    obtain ⟨R3, h3, g1, g2⟩ := hrun (reloaded p.k s) R2 (fun r hr' => by rw [f2]; exact x1 r hr') (fun r hr' c hc => by
      have hc' : inBox (nghostOf 1 2) (E r - nghostOf 1 2) c := by
        rw [f2, x1 r hr'] at hc; exact hc
      rw [f3 r hr' c hc', e2 r c hr' (hin r hr' c hc')]) j
    refine ⟨R1, h1, R2, R3, h3, e1, f1, g1, fun r c hr' hc => ?_⟩
    rw [g2 r c hr' hc]
    exact reloaded_29 hr tr lim sol eos energy

end Double

end Heracles

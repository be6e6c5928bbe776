import Verif.Model.RoundedLoop
import Verif.Lemmas.Doubles
import Verif.Props.Loop

/-!
# C84 The time loop in double precision
-/

namespace Heracles

section Exact
variable {H K : Type} [Field K] [LinearOrder K]

/-- Without rounding the loop is that of Model/Loop. -/
theorem rRunN_id (p : LoopParams K) (hy : Hydro H K) (clock : ℕ → Bool) (r : RunState H K) (n : ℕ) :
    rRunN id p hy clock r n = runN p hy clock r n := by
  have h1 : ∀ (s : LoopState H K) dt, rTimeTrigger id p s dt = timeTrigger p s dt := by
    intro s dt
    unfold rTimeTrigger timeTrigger rTimed nextTimed
    simp only [id]
    push_cast
    rfl
  have h2 : ∀ (s : LoopState H K), rTimed id p (s.timeId + 1) = nextTimed p s := by
    intro s
    unfold rTimed nextTimed
    simp only [id]
    push_cast
    rfl
  have h3 : ∀ dt0 c (s : LoopState H K), rDecideStep id p dt0 c s = decideStep p dt0 c s := by
    intro dt0 c s
    unfold rDecideStep decideStep
    simp only [h1, h2]
    rfl
  induction n with
  | zero => rfl
  | succ n ih =>
    rw [rRunN, runN, ih]
    unfold rRunStep runStep rIteration iteration
    simp only [h3]
    rfl

end Exact

section Step
variable {H : Type} {rnd : ℚ → ℚ} {p : LoopParams ℚ} {hy : Hydro H ℚ} {clock : Bool} {s : LoopState H ℚ} {r : RunState H ℚ} {D : Decision ℚ}

/-- The step retained after the time trigger. -/
def rDtTimed (rnd : ℚ → ℚ) (p : LoopParams ℚ) (s : LoopState H ℚ) (dt : ℚ) : ℚ :=
  if rTimeTrigger rnd p s dt then rnd (rTimed rnd p (s.timeId + 1) - s.t) else dt

theorem rDecideStep_eq (p : LoopParams ℚ) (dt0 : ℚ) (clock : Bool) (s : LoopState H ℚ) :
    rDecideStep rnd p dt0 clock s =
      if rTimeTrigger rnd p s (rnd (p.cfl * dt0)) = true ∧ rDtTimed rnd p s (rnd (p.cfl * dt0)) ≤ 0 then
        .error "Error: the time step is negative"
      else .ok
        { dt := if rnd (s.t + rDtTimed rnd p s (rnd (p.cfl * dt0))) ≥ p.tEnd then rnd (p.tEnd - s.t) else rDtTimed rnd p s (rnd (p.cfl * dt0))
          makeOutput := iterTrigger p s || rTimeTrigger rnd p s (rnd (p.cfl * dt0)) ||
            decide (rnd (s.t + rDtTimed rnd p s (rnd (p.cfl * dt0))) ≥ p.tEnd) || decide (s.iter + 1 ≥ p.maxIter) || clock
          exit := decide (rnd (s.t + rDtTimed rnd p s (rnd (p.cfl * dt0))) ≥ p.tEnd) || decide (s.iter + 1 ≥ p.maxIter) || clock
          iterId := if iterTrigger p s then s.iterId + 1 else s.iterId
          timeId := if rTimeTrigger rnd p s (rnd (p.cfl * dt0)) then s.timeId + 1 else s.timeId } := by
  unfold rDecideStep rDtTimed
  by_cases h : rTimeTrigger rnd p s (rnd (p.cfl * dt0)) = true ∧
      (if rTimeTrigger rnd p s (rnd (p.cfl * dt0)) = true then rnd (rTimed rnd p (s.timeId + 1) - s.t) else rnd (p.cfl * dt0)) ≤ 0
  · rw [if_pos h, if_pos h]
    rfl
  · rw [if_neg h, if_neg h]
    simp only [decide_eq_true_eq]
    rfl

/-- The loop variables after an accepted iteration. -/
def rNextState (rnd : ℚ → ℚ) (hy : Hydro H ℚ) (s : LoopState H ℚ) (D : Decision ℚ) : LoopState H ℚ :=
  { h := hy.advance s.h s.t D.dt, t := rnd (s.t + D.dt), iter := s.iter + 1
    outputId := if D.makeOutput then s.outputId + 1 else s.outputId, iterId := D.iterId, timeId := D.timeId }

theorem rRunStep_running (h : r.status = .running) :
    (∃ D, rDecideStep rnd p (hy.timeStep r.s.h) clock r.s = .ok D ∧ hy.bad r.s.h = false ∧
      rRunStep rnd p hy clock r = ⟨rNextState rnd hy r.s D, if D.makeOutput then r.outs ++ [rNextState rnd hy r.s D] else r.outs,
        if D.exit then .finished else .running⟩) ∨
    ((rRunStep rnd p hy clock r).status = .failed ∧ (rRunStep rnd p hy clock r).s = r.s ∧
      (∀ o ∈ r.outs, o ∈ (rRunStep rnd p hy clock r).outs) ∧
      (hy.bad r.s.h = true ∨ ∃ m, rDecideStep rnd p (hy.timeStep r.s.h) clock r.s = .error m)) := by
  unfold rRunStep
  rw [h]
  simp only [rIteration]
  cases e : rDecideStep rnd p (hy.timeStep r.s.h) clock r.s with
  | error m => exact Or.inr ⟨rfl, rfl, fun o ho => ho, Or.inr ⟨m, rfl⟩⟩
  | ok D =>
    by_cases hb : hy.bad r.s.h = true
    · right
      simp only [hb, if_true]
      exact ⟨trivial, trivial, fun o ho => List.mem_append_left _ ho, Or.inl trivial⟩
    · left
      refine ⟨D, rfl, by simpa using hb, ?_⟩
      simp only [hb]
      rfl

theorem rRunStep_stopped (h : r.status ≠ .running) : rRunStep rnd p hy clock r = r := by
  unfold rRunStep
  cases e : r.status with
  | running => exact absurd e h
  | finished => rfl
  | failed => rfl

/-- What an accepted iteration that starts before the end time does to the time. -/
theorem rDecideStep_time (hr : Nearest rnd) {dt0 : ℚ} (h : rDecideStep rnd p dt0 clock s = .ok D) (hpos : 0 < p.cfl * dt0)
    (ht : s.t < p.tEnd) (htD : IsDouble s.t) :
    0 < D.dt ∧ s.t ≤ rnd (s.t + D.dt) ∧ (D.exit = false → rnd (s.t + D.dt) < p.tEnd) ∧
      (rnd (s.t + D.dt) < p.tEnd ∨ D.dt = rnd (p.tEnd - s.t)) := by
  rw [rDecideStep_eq] at h
  split at h
  · cases h
  rename_i hn
  cases h
  have h1 : 0 < rDtTimed rnd p s (rnd (p.cfl * dt0)) := by
    by_cases htt : rTimeTrigger rnd p s (rnd (p.cfl * dt0)) = true
    · rw [not_and] at hn
      exact not_le.1 (hn htt)
    · unfold rDtTimed
      rw [if_neg htt]
      exact hr.pos hpos
  have hle : ∀ {x : ℚ}, 0 < x → s.t ≤ rnd (s.t + x) := by
    intro x hx
    calc s.t = rnd s.t := (hr.eq_self htD).symm
      _ ≤ _ := hr.mono (by linarith)
  simp only
  split
  · rename_i hc
    have hp := hr.pos (by linarith : 0 < p.tEnd - s.t)
    refine ⟨hp, hle hp, fun he => ?_, Or.inr rfl⟩
    simp [hc] at he
  · rename_i hc
    exact ⟨h1, hle h1, fun _ => not_le.1 hc, Or.inl (not_le.1 hc)⟩

end Step

section C84
variable {H : Type} {rnd : ℚ → ℚ} {p : LoopParams ℚ} {hy : Hydro H ℚ} {clock : ℕ → Bool}

/-- Facts kept by a run that started before its end time. -/
structure RRunInv (p : LoopParams ℚ) (t0 : ℚ) (n : ℕ) (r : RunState H ℚ) : Prop where
  double : IsDouble r.s.t
  run : r.status = .running → r.s.t < p.tEnd ∧ r.s.iter = n ∧ (n = 0 ∨ (n : ℤ) < p.maxIter)
  lower : t0 ≤ r.s.t
  upper : r.s.t < p.tEnd ∨ |r.s.t - p.tEnd| ≤ (p.tEnd - t0) / 2 ^ 52
  iter : r.s.iter ≤ max 1 p.maxIter
  done : r.status = .finished → r.outs.getLast? = some r.s

theorem RRunInv.step (hr : Nearest rnd) (hE : IsDouble p.tEnd) {t0 : ℚ} {n : ℕ} {r : RunState H ℚ} {c : Bool} (hcfl : 0 < p.cfl)
    (hdt : ∀ h, 0 < hy.timeStep h) (h : RRunInv p t0 n r) : RRunInv p t0 (n + 1) (rRunStep rnd p hy c r) := by
  by_cases hrun : r.status = .running
  · obtain ⟨h1, h2, h3⟩ := h.run hrun
    rcases rRunStep_running (rnd := rnd) (p := p) (hy := hy) (clock := c) hrun with ⟨D, hD, -, e⟩ | ⟨e1, e2, -⟩
    · obtain ⟨d1, d2, d3, d4⟩ := rDecideStep_time hr hD (mul_pos hcfl (hdt _)) h1 h.double
      have hex : D.exit = false → r.s.iter + 1 < p.maxIter := by
        rw [rDecideStep_eq] at hD
        split at hD
        · cases hD
        · cases hD
          intro he
          simp only [Bool.or_eq_false_iff, decide_eq_false_iff_not, not_le] at he
          exact he.1.2
      have hm : D.exit = true → D.makeOutput = true := by
        rw [rDecideStep_eq] at hD
        split at hD
        · cases hD
        · cases hD
          intro he
          simp only [Bool.or_eq_true] at he ⊢
          tauto
      rw [e]
      refine ⟨hr.double _, fun hs => ?_, h.lower.trans d2, ?_, ?_, fun hs => ?_⟩
      · simp only at hs
        have he : D.exit = false := by
          cases hx : D.exit
          · rfl
          · rw [hx] at hs; cases hs
        have := hex he
        refine ⟨d3 he, ?_, Or.inr ?_⟩
        · simp only [rNextState, h2]
          push_cast
          ring
        · push_cast
          omega
      · rcases d4 with d4 | d4
        · exact Or.inl d4
        · right
          simp only [rNextState, d4]
          refine (hr.land hE).trans ?_
          rw [abs_of_pos (by linarith)]
          exact div_le_div_of_nonneg_right (by linarith [h.lower]) (by norm_num)
      · simp only [rNextState, h2]
        rcases h3 with h3 | h3
        · subst h3
          simp
        · exact le_max_of_le_right (by omega)
      · have he : D.exit = true := by
          simp only at hs
          cases hx : D.exit
          · rw [hx] at hs; cases hs
          · rfl
        simp [hm he]
    · refine ⟨e2 ▸ h.double, fun h' => ?_, by rw [e2]; exact h.lower, by rw [e2]; exact h.upper, by rw [e2]; exact h.iter, fun h' => ?_⟩
      · rw [e1] at h'
        cases h'
      · rw [e1] at h'
        cases h'
  · rw [rRunStep_stopped hrun]
    exact ⟨h.double, fun h' => absurd h' hrun, h.lower, h.upper, h.iter, h.done⟩

theorem rRunInv_fresh (hr : Nearest rnd) (hE : IsDouble p.tEnd) (hcfl : 0 < p.cfl) (hdt : ∀ h, 0 < hy.timeStep h) {tIni : ℚ}
    (hI : IsDouble tIni) (ht : tIni < p.tEnd) (h0 : H) (n : ℕ) : RRunInv p tIni n (rRunN rnd p hy clock (freshRun p tIni h0) n) := by
  induction n with
  | zero =>
    rw [rRunN]
    unfold freshRun
    split
    · exact ⟨hI, fun _ => ⟨ht, by simp, Or.inl rfl⟩, le_rfl, Or.inl ht, by simp, fun h => by cases h⟩
    · exact ⟨hI, fun _ => ⟨ht, by simp, Or.inl rfl⟩, le_rfl, Or.inl ht, by simp, fun h => by cases h⟩
  | succ n ih => exact RRunInv.step hr hE hcfl hdt ih

/-- **C84.** The loop in double precision, with any rounding to nearest (C39 for rounded operations). A fresh run that starts before its
end time, whatever the CFL steps (positive), the parameters and the wall clock: the time is a `double`, never decreases from `t_ini`
on, is below `t_end` while the run goes on, and when the run was ended by `t_end` differs from it by at most `(t_end - t_ini) / 2^52`;
a run that completed has written its last state; at most `max(1, max_iter)` iterations are performed. -/
theorem C84_time (hr : Nearest rnd) (hE : IsDouble p.tEnd) (hcfl : 0 < p.cfl) (hdt : ∀ h, 0 < hy.timeStep h) {tIni : ℚ}
    (hI : IsDouble tIni) (ht : tIni < p.tEnd) (h0 : H) (n : ℕ) :
    let r := rRunN rnd p hy clock (freshRun p tIni h0) n
    let r' := rRunN rnd p hy clock (freshRun p tIni h0) (n + 1)
    IsDouble r.s.t ∧ tIni ≤ r.s.t ∧ r.s.t ≤ r'.s.t ∧ (r.status = .running → r.s.t < p.tEnd) ∧
      (r.s.t < p.tEnd ∨ |r.s.t - p.tEnd| ≤ (p.tEnd - tIni) / 2 ^ 52) ∧
      (r.status = .finished → r.outs.getLast? = some r.s) ∧ r.s.iter ≤ max 1 p.maxIter ∧
      (max 1 p.maxIter ≤ n → r.status ≠ .running) := by
  intro r r'
  have h := rRunInv_fresh (clock := clock) hr hE hcfl hdt hI ht h0 n
  refine ⟨h.double, h.lower, ?_, fun hs => (h.run hs).1, h.upper, h.done, h.iter, fun hn hs => ?_⟩
  · show r.s.t ≤ (rRunStep rnd p hy (clock n) r).s.t
    by_cases hrun : r.status = .running
    · rcases rRunStep_running (rnd := rnd) (p := p) (hy := hy) (clock := clock n) hrun with ⟨D, hD, -, e⟩ | ⟨-, e2, -⟩
      · rw [e]
        exact (rDecideStep_time hr hD (mul_pos hcfl (hdt _)) (h.run hrun).1 h.double).2.1
      · rw [e2]
    · rw [rRunStep_stopped hrun]
  · obtain ⟨-, h2, h3⟩ := h.run hs
    have hn1 := (le_max_left _ _).trans hn
    have hn2 := (le_max_right _ _).trans hn
    rcases h3 with h3 | h3
    · subst h3
      norm_num at hn1
    · omega

/-- **C84, end time.** An iteration that ends the run because of `t_end` and starts at `t_end / 2` or later ends at `t_end` exactly. -/
theorem C84_end_exact (hr : Nearest rnd) (hE : IsDouble p.tEnd) (hcfl : 0 < p.cfl) (hdt : ∀ h, 0 < hy.timeStep h) {tIni : ℚ}
    (hI : IsDouble tIni) (ht : tIni < p.tEnd) (h0 : H) (n : ℕ) (hpos : 0 ≤ tIni)
    (hs : (rRunN rnd p hy clock (freshRun p tIni h0) n).status = .running)
    (hhalf : p.tEnd ≤ 2 * (rRunN rnd p hy clock (freshRun p tIni h0) n).s.t)
    (hend : p.tEnd ≤ (rRunN rnd p hy clock (freshRun p tIni h0) (n + 1)).s.t ∨
      ((rRunN rnd p hy clock (freshRun p tIni h0) (n + 1)).status = .finished ∧ (n : ℤ) + 1 < p.maxIter ∧ clock n = false)) :
    (rRunN rnd p hy clock (freshRun p tIni h0) (n + 1)).s.t = p.tEnd := by
  have h := rRunInv_fresh (clock := clock) hr hE hcfl hdt hI ht h0 n
  obtain ⟨h1, h2, h3⟩ := h.run hs
  rw [rRunN] at hend ⊢
  rcases rRunStep_running (rnd := rnd) (p := p) (hy := hy) (clock := clock n) hs with ⟨D, hD, -, e⟩ | ⟨e1, e2, -⟩
  · obtain ⟨d1, d2, d3, d4⟩ := rDecideStep_time hr hD (mul_pos hcfl (hdt _)) h1 h.double
    have hland : D.dt = rnd (p.tEnd - (rRunN rnd p hy clock (freshRun p tIni h0) n).s.t) := by
      rcases hend with hend | ⟨hend, hmax, hclock⟩
      · rcases d4 with d4 | d4
        · rw [e] at hend
          exact absurd d4 (not_lt.2 hend)
        · exact d4
      · rw [e] at hend
        have he : D.exit = true := by
          simp only at hend
          cases hx : D.exit
          · rw [hx] at hend; cases hend
          · rfl
        rw [rDecideStep_eq] at hD
        split at hD
        · cases hD
        · cases hD
          simp only [Bool.or_eq_true, decide_eq_true_eq, hclock, h2, Bool.false_eq_true, or_false] at he
          rcases he with he | he
          · exact if_pos he
          · omega
    rw [e]
    simp only [rNextState, hland]
    exact hr.land_exact h.double hE hhalf (by linarith [h.lower])
  · rcases hend with hend | ⟨hend, -⟩
    · rw [e2] at hend
      exact absurd h1 (not_lt.2 hend)
    · rw [e1] at hend
      cases hend


theorem rTimed_mono (hr : Nearest rnd) (hF : 0 ≤ p.timeFreq) {j k : ℤ} (h : j ≤ k) : rTimed rnd p j ≤ rTimed rnd p k := by
  refine hr.mono ?_
  have : rnd ((j : ℚ) * p.timeFreq) ≤ rnd ((k : ℚ) * p.timeFreq) :=
    hr.mono (mul_le_mul_of_nonneg_right (by exact_mod_cast h) hF)
  linarith

/-- The times of the outputs are further apart than what rounding can blur. -/
def Separated (rnd : ℚ → ℚ) (p : LoopParams ℚ) (tIni : ℚ) : Prop :=
  ∀ k : ℤ, 0 ≤ k → rTimed rnd p k < p.tEnd → rTimed rnd p k + (p.tEnd - tIni) / 2 ^ 51 < rTimed rnd p (k + 1)

/-- A file close to the output time `k`. -/
def Wrote (rnd : ℚ → ℚ) (p : LoopParams ℚ) (tIni : ℚ) (outs : List (LoopState H ℚ)) (k : ℤ) : Prop :=
  ∃ o ∈ outs, |o.t - rTimed rnd p k| ≤ (p.tEnd - tIni) / 2 ^ 51

/-- Facts about timed outputs of a run. -/
structure RTimeInv (rnd : ℚ → ℚ) (p : LoopParams ℚ) (hy : Hydro H ℚ) (tIni : ℚ) (r : RunState H ℚ) : Prop where
  double : IsDouble r.s.t
  lower : tIni ≤ r.s.t
  run : r.status = .running → r.s.t < p.tEnd ∧ r.s.t < rTimed rnd p (r.s.timeId + 1) ∧ -1 ≤ r.s.timeId ∧
    ∀ k : ℤ, 0 ≤ k → k ≤ r.s.timeId → Wrote rnd p tIni r.outs k
  all : ∀ k : ℤ, 0 ≤ k → rTimed rnd p k ≤ r.s.t → rTimed rnd p k < p.tEnd → Wrote rnd p tIni r.outs k
  fail : r.status = .failed → hy.bad r.s.h = true

theorem RTimeInv.step (hr : Nearest rnd) (hE : IsDouble p.tEnd) {tIni : ℚ} (hsep : Separated rnd p tIni) (hF : 0 < p.timeFreq)
    (hcfl : 0 < p.cfl) (hdt : ∀ h, 0 < hy.timeStep h) {r : RunState H ℚ} {c : Bool} (h : RTimeInv rnd p hy tIni r) :
    RTimeInv rnd p hy tIni (rRunStep rnd p hy c r) := by
  by_cases hs : r.status = .running
  · obtain ⟨h1, h2, h3, h4⟩ := h.run hs
    have hthrow : ¬ (rTimeTrigger rnd p r.s (rnd (p.cfl * hy.timeStep r.s.h)) = true ∧
        rDtTimed rnd p r.s (rnd (p.cfl * hy.timeStep r.s.h)) ≤ 0) := by
      rintro ⟨ht, hle⟩
      unfold rDtTimed at hle
      rw [if_pos ht] at hle
      have := hr.pos (by linarith : 0 < rTimed rnd p (r.s.timeId + 1) - r.s.t)
      linarith
    rcases rRunStep_running (rnd := rnd) (p := p) (hy := hy) (clock := c) hs with ⟨D, hD, -, e⟩ | ⟨e1, e2, e3, e4⟩
    · obtain ⟨d1, d2, d3, d4⟩ := rDecideStep_time hr hD (mul_pos hcfl (hdt _)) h1 h.double
      rw [rDecideStep_eq, if_neg hthrow] at hD
      set n := rTimed rnd p (r.s.timeId + 1) with hn
      have hnD : IsDouble n := hr.double _
      have hkeep : ∀ k, Wrote rnd p tIni r.outs k → Wrote rnd p tIni (rRunStep rnd p hy c r).outs k := by
        rintro k ⟨o, ho, ho'⟩
        refine ⟨o, ?_, ho'⟩
        rw [e]
        simp only
        split
        · exact List.mem_append_left _ ho
        · exact ho
      have hs' : (rRunStep rnd p hy c r).s = rNextState rnd hy r.s D := by rw [e]
      have heps : (p.tEnd - tIni) / 2 ^ 51 = (p.tEnd - tIni) / 2 ^ 52 + (p.tEnd - tIni) / 2 ^ 52 := by ring
      have hlow := h.lower
      have hlandN : n < p.tEnd → |rnd (r.s.t + rnd (n - r.s.t)) - n| ≤ (p.tEnd - tIni) / 2 ^ 52 := by
        intro hlt
        refine (hr.land hnD).trans (div_le_div_of_nonneg_right ?_ (by norm_num))
        rw [abs_of_pos (by linarith)]
        linarith
      have hlandE : |rnd (r.s.t + rnd (p.tEnd - r.s.t)) - p.tEnd| ≤ (p.tEnd - tIni) / 2 ^ 52 := by
        refine (hr.land hE).trans (div_le_div_of_nonneg_right ?_ (by norm_num))
        rw [abs_of_pos (by linarith)]
        linarith
      have hepos : 0 ≤ (p.tEnd - tIni) / 2 ^ 52 := div_nonneg (by linarith) (by norm_num)
      -- what happens with and without the trigger
      have htrig : rTimeTrigger rnd p r.s (rnd (p.cfl * hy.timeStep r.s.h)) = true →
          D.makeOutput = true ∧ D.timeId = r.s.timeId + 1 ∧
          ((p.tEnd ≤ rnd (r.s.t + rnd (n - r.s.t)) ∧ D.dt = rnd (p.tEnd - r.s.t) ∧ D.exit = true) ∨
            (rnd (r.s.t + rnd (n - r.s.t)) < p.tEnd ∧ D.dt = rnd (n - r.s.t))) := by
        intro htt
        have hdt' : rDtTimed rnd p r.s (rnd (p.cfl * hy.timeStep r.s.h)) = rnd (n - r.s.t) := by
          unfold rDtTimed
          rw [if_pos htt]
        rw [hdt'] at hD
        cases hD
        refine ⟨by simp [htt], by simp [htt], ?_⟩
        rcases le_or_gt p.tEnd (rnd (r.s.t + rnd (n - r.s.t))) with hc | hc
        · exact Or.inl ⟨hc, if_pos hc, by simp [hc]⟩
        · exact Or.inr ⟨hc, if_neg (not_le.2 hc)⟩
      have hnotrig : rTimeTrigger rnd p r.s (rnd (p.cfl * hy.timeStep r.s.h)) ≠ true →
          D.timeId = r.s.timeId ∧ (rnd (r.s.t + D.dt) < n ∨ p.tEnd < n) := by
        intro htt
        have hdt' : rDtTimed rnd p r.s (rnd (p.cfl * hy.timeStep r.s.h)) = rnd (p.cfl * hy.timeStep r.s.h) := by
          unfold rDtTimed
          rw [if_neg htt]
        rw [hdt'] at hD
        have hlt : rnd (r.s.t + rnd (p.cfl * hy.timeStep r.s.h)) < n := by
          by_contra hc
          refine htt ?_
          simp only [rTimeTrigger, Bool.and_eq_true, decide_eq_true_eq]
          exact ⟨hF, not_lt.1 hc⟩
        cases hD
        refine ⟨by simp [htt], ?_⟩
        rcases le_or_gt p.tEnd (rnd (r.s.t + rnd (p.cfl * hy.timeStep r.s.h))) with hc | hc
        · exact Or.inr (lt_of_le_of_lt hc hlt)
        · refine Or.inl ?_
          simp only
          rw [if_neg (not_le.2 hc)]
          exact hlt
      have hnew : rTimeTrigger rnd p r.s (rnd (p.cfl * hy.timeStep r.s.h)) = true → n < p.tEnd →
          |rnd (r.s.t + D.dt) - n| ≤ (p.tEnd - tIni) / 2 ^ 51 ∧ Wrote rnd p tIni (rRunStep rnd p hy c r).outs (r.s.timeId + 1) := by
        intro htt hlt
        obtain ⟨hmk, -, hcase⟩ := htrig htt
        have hclose : |rnd (r.s.t + D.dt) - n| ≤ (p.tEnd - tIni) / 2 ^ 51 := by
          have hN := abs_le.1 (hlandN hlt)
          have hEE := abs_le.1 hlandE
          rcases hcase with ⟨hc, hd, -⟩ | ⟨hc, hd⟩
          · rw [hd, heps, abs_le]
            constructor <;> linarith [hN.1, hN.2, hEE.1, hEE.2]
          · rw [hd, heps, abs_le]
            constructor <;> linarith [hN.1, hN.2]
        refine ⟨hclose, rNextState rnd hy r.s D, ?_, hclose⟩
        rw [e]
        simp [hmk]
      have hcross : ∀ k : ℤ, 0 ≤ k → rTimed rnd p k ≤ rnd (r.s.t + D.dt) → rTimed rnd p k < p.tEnd →
          Wrote rnd p tIni (rRunStep rnd p hy c r).outs k := by
        intro k hk hle hlt
        by_cases hkid : k ≤ r.s.timeId
        · exact hkeep k (h4 k hk hkid)
        · have hnk : n ≤ rTimed rnd p k := rTimed_mono hr hF.le (by omega)
          by_cases htt : rTimeTrigger rnd p r.s (rnd (p.cfl * hy.timeStep r.s.h)) = true
          · obtain ⟨hclose, hw⟩ := hnew htt (by linarith)
            rcases eq_or_ne k (r.s.timeId + 1) with rfl | hne
            · exact hw
            · exfalso
              have h5 := hsep (r.s.timeId + 1) (by omega) (by rw [← hn]; linarith)
              have h6 : rTimed rnd p (r.s.timeId + 1 + 1) ≤ rTimed rnd p k := rTimed_mono hr hF.le (by omega)
              have := (abs_le.1 hclose).2
              rw [← hn] at h5
              linarith
          · rcases (hnotrig htt).2 with h5 | h5 <;> linarith
      refine ⟨by rw [hs']; exact hr.double _, by rw [hs']; exact h.lower.trans d2, fun hrun => ?_, fun k hk hle hlt => ?_, fun hf => ?_⟩
      · have hex : D.exit = false := by
          rw [e] at hrun
          simp only at hrun
          cases hx : D.exit
          · rfl
          · rw [hx] at hrun; cases hrun
        have hend := d3 hex
        rw [hs']
        refine ⟨hend, ?_⟩
        by_cases htt : rTimeTrigger rnd p r.s (rnd (p.cfl * hy.timeStep r.s.h)) = true
        · obtain ⟨-, hid, hcase⟩ := htrig htt
          have hd : D.dt = rnd (n - r.s.t) := by
            rcases hcase with ⟨-, -, hx⟩ | ⟨-, hd⟩
            · rw [hex] at hx; cases hx
            · exact hd
          have hw : rnd (r.s.t + D.dt) < rTimed rnd p (r.s.timeId + 1 + 1) ∧ Wrote rnd p tIni (rRunStep rnd p hy c r).outs (r.s.timeId + 1) := by
            rcases lt_or_ge n p.tEnd with hlt | hge
            · obtain ⟨hclose, hw⟩ := hnew htt hlt
              have h5 := hsep (r.s.timeId + 1) (by omega) (by rw [← hn]; exact hlt)
              rw [← hn] at h5
              exact ⟨by linarith [(abs_le.1 hclose).2], hw⟩
            · refine ⟨lt_of_lt_of_le (hend.trans_le hge) (rTimed_mono hr hF.le (by omega)), rNextState rnd hy r.s D, ?_, ?_⟩
              · rw [e]
                simp [(htrig htt).1]
              · have h5 := hr.land (t := r.s.t) hnD
                rw [abs_of_pos (by linarith : 0 < n - r.s.t)] at h5
                simp only [rNextState]
                rw [← hn, hd]
                rw [hd] at hend
                have h6 := abs_le.1 h5
                refine h5.trans ?_
                have h7 : n - r.s.t ≤ p.tEnd - r.s.t + (n - r.s.t) / 2 ^ 52 := by linarith [h6.1]
                have h8 : (n - r.s.t) / 2 ^ 52 ≤ (n - r.s.t) / 2 := div_le_div_of_nonneg_left (by linarith) (by norm_num) (by norm_num)
                have h9 : n - r.s.t ≤ 2 * (p.tEnd - tIni) := by linarith
                calc (n - r.s.t) / 2 ^ 52 ≤ 2 * (p.tEnd - tIni) / 2 ^ 52 := div_le_div_of_nonneg_right h9 (by norm_num)
                  _ = (p.tEnd - tIni) / 2 ^ 51 := by ring
          simp only [rNextState, hid]
          refine ⟨hw.1, by omega, fun k hk hkk => ?_⟩
          rcases hkk.eq_or_lt with rfl | hkk
          · exact hw.2
          · exact hkeep k (h4 k hk (by omega))
        · obtain ⟨hid, hcase⟩ := hnotrig htt
          simp only [rNextState, hid]
          refine ⟨?_, h3, fun k hk hkk => hkeep k (h4 k hk hkk)⟩
          rw [← hn]
          rcases hcase with h5 | h5
          · exact h5
          · linarith
      · rw [hs'] at hle
        exact hcross k hk hle hlt
      · rw [e] at hf
        simp only at hf
        split at hf <;> cases hf
    · refine ⟨e2 ▸ h.double, e2 ▸ h.lower, fun h' => ?_, fun k hk hle hlt => ?_, fun _ => ?_⟩
      · rw [e1] at h'
        cases h'
      · rw [e2] at hle
        obtain ⟨o, ho, ho'⟩ := h.all k hk hle hlt
        exact ⟨o, e3 o ho, ho'⟩
      · rw [e2]
        rcases e4 with e4 | ⟨m, e4⟩
        · exact e4
        · rw [rDecideStep_eq, if_neg hthrow] at e4
          cases e4
  · rw [rRunStep_stopped hs]
    exact ⟨h.double, h.lower, fun h' => absurd h' hs, h.all, h.fail⟩


/-- **C84, outputs.** With a time frequency `F > 0` and a first output after the start, in double precision: once the run passed the
output time `k`, as the code computes it (`first + k F`, rounded twice), it has written a file at this time up to
`(t_end - t_ini) / 2^51`; the exception of the time trigger is never raised. The output times are asked to be further apart than this
(see `C84_separated`). -/
theorem C84_outputs_partial (hr : Nearest rnd) (hE : IsDouble p.tEnd) (hF : 0 < p.timeFreq) (hcfl : 0 < p.cfl) (hdt : ∀ h, 0 < hy.timeStep h)
    {tIni : ℚ} (hI : IsDouble tIni) (ht : tIni < p.tEnd) (hfirst : tIni < rnd p.timeFirst) (hsep : Separated rnd p tIni) (h0 : H) (n : ℕ) :
    let r := rRunN rnd p hy clock (freshRun p tIni h0) n
    (∀ k : ℤ, 0 ≤ k → rnd (p.timeFirst + rnd (k * p.timeFreq)) ≤ r.s.t → rnd (p.timeFirst + rnd (k * p.timeFreq)) < p.tEnd →
      ∃ o ∈ r.outs, |o.t - rnd (p.timeFirst + rnd (k * p.timeFreq))| ≤ (p.tEnd - tIni) / 2 ^ 51) ∧
    (r.status = .failed → hy.bad r.s.h = true) := by
  have : RTimeInv rnd p hy tIni (rRunN rnd p hy clock (freshRun p tIni h0) n) := by
    induction n with
    | zero =>
      have h00 : rTimed rnd p 0 = rnd p.timeFirst := by
        unfold rTimed
        rw [Int.cast_zero, zero_mul, hr.eq_self isDouble_zero, add_zero]
      rw [rRunN]
      unfold freshRun
      rw [if_pos (Or.inr hF)]
      refine ⟨hI, le_rfl, fun _ => ⟨ht, ?_, by simp, fun k hk hkk => ?_⟩, fun k hk hle _ => ?_, fun h => by cases h⟩
      · simp only
        norm_num
        rw [h00]
        exact hfirst
      · simp only at hkk
        omega
      · have := rTimed_mono (p := p) hr hF.le hk
        simp only at hle
        linarith
    | succ n ih => exact RTimeInv.step hr hE hsep hF hcfl hdt ih
  exact ⟨this.all, this.fail⟩

/-- **C84, outputs.** The output times are far enough apart if the frequency is not below `t_end / 2^47`. -/
theorem C84_separated (hr : Nearest rnd) {tIni : ℚ} (hI : 0 ≤ tIni) (ht : tIni < p.tEnd) (hfirst : 0 ≤ p.timeFirst)
    (hF : p.tEnd / 2 ^ 47 ≤ p.timeFreq) : Separated rnd p tIni := by
  have hFp : 0 < p.timeFreq := lt_of_lt_of_le (div_pos (by linarith) (by norm_num)) hF
  have key : ∀ k : ℤ, 0 ≤ k → |p.timeFirst + k * p.timeFreq - rTimed rnd p k| ≤ (p.timeFirst + k * p.timeFreq) / 2 ^ 51 := by
    intro k hk
    have hk' : (0 : ℚ) ≤ k * p.timeFreq := mul_nonneg (by exact_mod_cast hk) hFp.le
    have h1 := hr.rel (k * p.timeFreq)
    have h2 := hr.rel (p.timeFirst + rnd (k * p.timeFreq))
    have h3 := hr.nonneg hk'
    rw [abs_of_nonneg hk'] at h1
    rw [abs_of_nonneg (by linarith : 0 ≤ p.timeFirst + rnd (k * p.timeFreq))] at h2
    have h4 := abs_le.1 h1
    have h5 := abs_le.1 h2
    unfold rTimed
    rw [abs_le]
    constructor <;> linarith [h4.1, h4.2, h5.1, h5.2]
  intro k hk hlt
  have h1 := key k hk
  have h2 := key (k + 1) (by omega)
  push_cast at h2
  have hk' : (0 : ℚ) ≤ k * p.timeFreq := mul_nonneg (by exact_mod_cast hk) hFp.le
  have h4 := abs_le.1 h1
  have h5 := abs_le.1 h2
  have h6 : p.timeFirst + k * p.timeFreq ≤ 2 * p.tEnd := by linarith [h4.1, h4.2]
  linarith [h4.1, h4.2, h5.1, h5.2]

/-! ### What rounding changes -/

/-- An iteration with a timed output before the end of the run. -/
theorem rRunStep_timed {r : RunState H ℚ} (hs : r.status = .running) (hb : hy.bad r.s.h = false)
    (htt : rTimeTrigger rnd p r.s (rnd (p.cfl * hy.timeStep r.s.h)) = true) {n : ℚ} (hn : rTimed rnd p (r.s.timeId + 1) = n)
    (hpos : 0 < rnd (n - r.s.t)) (hlt : rnd (r.s.t + rnd (n - r.s.t)) < p.tEnd) (hmax : r.s.iter + 1 < p.maxIter) :
    ∃ s', rRunStep rnd p hy false r = ⟨s', r.outs ++ [s'], .running⟩ ∧ s'.t = rnd (r.s.t + rnd (n - r.s.t)) ∧
      s'.iter = r.s.iter + 1 ∧ s'.timeId = r.s.timeId + 1 := by
  have hd : rDtTimed rnd p r.s (rnd (p.cfl * hy.timeStep r.s.h)) = rnd (n - r.s.t) := by
    unfold rDtTimed
    rw [if_pos htt, hn]
  have hD := rDecideStep_eq (rnd := rnd) p (hy.timeStep r.s.h) false r.s
  rw [hd, if_neg (by rintro ⟨-, h⟩; linarith), if_neg (not_le.2 hlt)] at hD
  unfold rRunStep
  rw [hs]
  simp only [rIteration, hD, hb, htt, hlt, hmax, ge_iff_le, not_le.2 hlt, not_le.2 hmax, decide_false, Bool.or_false, Bool.or_true, if_true,
    Bool.false_eq_true, if_false]
  exact ⟨_, rfl, rfl, rfl, rfl⟩

/-- An iteration that reaches the end time. -/
theorem rRunStep_end {r : RunState H ℚ} (hs : r.status = .running) (hb : hy.bad r.s.h = false) {dt : ℚ}
    (hdt : rDtTimed rnd p r.s (rnd (p.cfl * hy.timeStep r.s.h)) = dt) (hpos : 0 < dt) (hge : p.tEnd ≤ rnd (r.s.t + dt)) :
    ∃ s', rRunStep rnd p hy false r = ⟨s', r.outs ++ [s'], .finished⟩ ∧ s'.t = rnd (r.s.t + rnd (p.tEnd - r.s.t)) := by
  have hD := rDecideStep_eq (rnd := rnd) p (hy.timeStep r.s.h) false r.s
  rw [hdt, if_neg (by rintro ⟨-, h⟩; linarith), if_pos hge] at hD
  unfold rRunStep
  rw [hs]
  simp only [rIteration, hD, hb, hge, ge_iff_le, decide_true, Bool.or_false, Bool.or_true, Bool.true_or, if_true, Bool.false_eq_true, if_false]
  exact ⟨_, rfl, rfl⟩

/-- An iteration without timed output before the end of the run. -/
theorem rRunStep_plain {r : RunState H ℚ} (hs : r.status = .running) (hb : hy.bad r.s.h = false)
    (htt : rTimeTrigger rnd p r.s (rnd (p.cfl * hy.timeStep r.s.h)) = false) {dt : ℚ}
    (hdt : rDtTimed rnd p r.s (rnd (p.cfl * hy.timeStep r.s.h)) = dt) (hlt : rnd (r.s.t + dt) < p.tEnd) (hmax : r.s.iter + 1 < p.maxIter) :
    ∃ s', (∃ os, rRunStep rnd p hy false r = ⟨s', os, .running⟩) ∧ s'.t = rnd (r.s.t + dt) ∧ s'.iter = r.s.iter + 1 := by
  have hD := rDecideStep_eq (rnd := rnd) p (hy.timeStep r.s.h) false r.s
  rw [hdt, if_neg (by rw [htt]; simp), if_neg (not_le.2 hlt)] at hD
  unfold rRunStep
  rw [hs]
  simp only [rIteration, hD, hb, htt, ge_iff_le, not_le.2 hlt, not_le.2 hmax, decide_false, Bool.or_false, Bool.false_eq_true, if_false]
  exact ⟨_, ⟨_, rfl⟩, rfl, rfl⟩

/-- Parameters with timed outputs and a constant step 1. -/
def outputParams (first freq tEnd : ℚ) : LoopParams ℚ := ⟨1, tEnd, freq, first, 0, 100⟩

/-- A fluid with the constant time step `dt`. -/
def constStep (dt : ℚ) : Hydro Unit ℚ := ⟨fun _ => dt, fun _ => false, fun _ _ _ => ()⟩

/-- **C84, violated.** A file too many, with every rounding to nearest: `first_output = 0.7`, `time_output_frequency = 0.1`,
`t_end = 0.8`. In exact arithmetic the files are at 0, 0.7 and 0.8. In double precision 0.7 + 0.1 is the number below 0.8, so that
the run writes a file there, makes one more step of `2^-53` and writes another file at 0.8. -/
theorem C84_extra_file (hr : Nearest rnd) :
    (runN (outputParams (7 / 10) (1 / 10) (8 / 10)) (constStep 1) (fun _ => false)
      (freshRun (outputParams (7 / 10) (1 / 10) (8 / 10)) 0 ()) 2).outs.map (·.t) = [0, 7 / 10, 8 / 10] ∧
    (runN (outputParams (7 / 10) (1 / 10) (8 / 10)) (constStep 1) (fun _ => false)
      (freshRun (outputParams (7 / 10) (1 / 10) (8 / 10)) 0 ()) 2).status = .finished ∧
    (rRunN rnd (outputParams (rnd (7 / 10)) (rnd (1 / 10)) (rnd (8 / 10))) (constStep 1) (fun _ => false)
      (freshRun (outputParams (rnd (7 / 10)) (rnd (1 / 10)) (rnd (8 / 10))) 0 ()) 3).outs.map (·.t) =
        [0, rnd (7 / 10), rnd (8 / 10) - 2⁻¹ ^ 53, rnd (8 / 10)] ∧
    (rRunN rnd (outputParams (rnd (7 / 10)) (rnd (1 / 10)) (rnd (8 / 10))) (constStep 1) (fun _ => false)
      (freshRun (outputParams (rnd (7 / 10)) (rnd (1 / 10)) (rnd (8 / 10))) 0 ()) 3).status = .finished := by
  refine ⟨by decide +kernel, by decide +kernel, ?_⟩
  have e7 : rnd (7 / 10) = 6305039478318694 / 2 ^ 53 := by
    have := hr.eq_of_close (m := 6305039478318694) (e := -53) (x := 7 / 10) (by norm_num) (by norm_num)
      (by rw [abs_lt]; constructor <;> norm_num)
    rw [this]; norm_num
  have e1 : rnd (1 / 10) = 7205759403792794 / 2 ^ 56 := by
    have := hr.eq_of_close (m := 7205759403792794) (e := -56) (x := 1 / 10) (by norm_num) (by norm_num)
      (by rw [abs_lt]; constructor <;> norm_num)
    rw [this]; norm_num
  have e8 : rnd (8 / 10) = 7205759403792794 / 2 ^ 53 := by
    have := hr.eq_of_close (m := 7205759403792794) (e := -53) (x := 8 / 10) (by norm_num) (by norm_num)
      (by rw [abs_lt]; constructor <;> norm_num)
    rw [this]; norm_num
  set p := outputParams (rnd (7 / 10)) (rnd (1 / 10)) (rnd (8 / 10)) with hp
  set hy := constStep 1
  have h1 : rnd 1 = 1 := hr.eq_self ⟨1, 0, by norm_num, by norm_num⟩
  have hd7 : IsDouble (rnd (7 / 10)) := hr.double _
  have hd8 : IsDouble (rnd (8 / 10)) := hr.double _
  have hn0 : rTimed rnd p 0 = rnd (7 / 10) := by
    unfold rTimed
    rw [Int.cast_zero, zero_mul, hr.eq_self isDouble_zero, add_zero]
    exact hr.eq_self hd7
  have hn1 : rTimed rnd p 1 = rnd (8 / 10) - 2⁻¹ ^ 53 := by
    unfold rTimed
    rw [Int.cast_one, one_mul]
    show rnd (rnd (7 / 10) + rnd (rnd (1 / 10))) = _
    rw [hr.eq_self (hr.double (1 / 10)), e7, e1, e8]
    have := hr.eq_of_close (m := 7205759403792793) (e := -53) (x := 6305039478318694 / 2 ^ 53 + 7205759403792794 / 2 ^ 56) (by norm_num) (by norm_num)
      (by rw [abs_lt]; constructor <;> norm_num)
    rw [this]; norm_num
  have hn2 : rnd (8 / 10) ≤ rTimed rnd p 2 ∧ rTimed rnd p 2 ≤ 1 := by
    have e2 : rnd ((2 : ℤ) * rnd (1 / 10)) = 7205759403792794 / 2 ^ 55 := by
      rw [e1]
      have := hr.eq_self (x := 7205759403792794 / 2 ^ 55) ⟨7205759403792794, -55, by norm_num, by norm_num⟩
      refine Eq.trans (congrArg rnd ?_) this
      norm_num
    have e3 : rTimed rnd p 2 = rnd (6305039478318694 / 2 ^ 53 + 7205759403792794 / 2 ^ 55) := by
      rw [← e7, ← e2]
      rfl
    rw [e3, ← h1]
    refine ⟨?_, hr.mono (by norm_num)⟩
    rw [← hr.eq_self hd8]
    refine hr.mono ?_
    rw [e8]
    norm_num
  have h8d : IsDouble (rnd (8 / 10) - 2⁻¹ ^ 53) := hn1 ▸ hr.double _
  have htrig : ∀ s : LoopState Unit ℚ, 0 ≤ s.t → rTimed rnd p (s.timeId + 1) ≤ 1 → rTimeTrigger rnd p s (rnd (p.cfl * hy.timeStep s.h)) = true := by
    intro s hs hle
    have e9 : rnd (p.cfl * hy.timeStep s.h) = 1 := by
      show rnd (1 * 1) = 1
      rw [one_mul, h1]
    unfold rTimeTrigger
    rw [e9, Bool.and_eq_true, decide_eq_true_eq, decide_eq_true_eq]
    constructor
    · show 0 < rnd (1 / 10)
      rw [e1]
      norm_num
    · refine hle.trans ?_
      rw [← h1]
      refine hr.mono ?_
      rw [h1]
      linarith
  -- first iteration
  set r0 := freshRun p 0 () with hr0
  have hr0' : r0 = ⟨⟨(), 0, 0, 0, 0, -1⟩, [⟨(), 0, 0, 0, 0, -1⟩], .running⟩ := by
    rw [hr0]
    unfold freshRun
    rw [if_pos (Or.inr (by show 0 < rnd (1 / 10); rw [e1]; norm_num))]
  obtain ⟨s1, q1, t1, i1, k1⟩ := rRunStep_timed (rnd := rnd) (p := p) (hy := hy) (r := r0) (by rw [hr0']) rfl
    (htrig r0.s (by rw [hr0']) (by rw [hr0']; norm_num; rw [hn0, e7]; norm_num)) (n := rnd (7 / 10)) (by rw [hr0']; norm_num; exact hn0)
    (by rw [hr0', sub_zero, hr.eq_self hd7, e7]; norm_num)
    (by rw [hr0', sub_zero, zero_add, hr.eq_self hd7, hr.eq_self hd7]; show _ < rnd (8 / 10); rw [e7, e8]; norm_num)
    (by rw [hr0']; show (0 : ℤ) + 1 < 100; norm_num)
  have t1' : s1.t = rnd (7 / 10) := by
    rw [t1, hr0', sub_zero, zero_add, hr.eq_self hd7, hr.eq_self hd7]
  have k1' : s1.timeId = 0 := by rw [k1, hr0']; rfl
  have i1' : s1.iter = 1 := by rw [i1, hr0']; rfl
  -- second iteration
  have hland2 : rnd (rnd (7 / 10) + rnd (rnd (8 / 10) - 2⁻¹ ^ 53 - rnd (7 / 10))) = rnd (8 / 10) - 2⁻¹ ^ 53 :=
    hr.land_exact hd7 h8d (by rw [e7, e8]; norm_num) (by rw [e7, e8]; norm_num)
  obtain ⟨s2, q2, t2, i2, k2⟩ := rRunStep_timed (rnd := rnd) (p := p) (hy := hy) (r := ⟨s1, r0.outs ++ [s1], .running⟩) rfl rfl
    (htrig s1 (by rw [t1', e7]; norm_num) (by rw [k1', zero_add, hn1, e8]; norm_num)) (n := rnd (8 / 10) - 2⁻¹ ^ 53)
    (by rw [k1', zero_add]; exact hn1)
    (by rw [t1']; exact hr.pos (by rw [e7, e8]; norm_num))
    (by rw [t1', hland2]; show _ < rnd (8 / 10); linarith [show (0 : ℚ) < 2⁻¹ ^ 53 by norm_num])
    (by show s1.iter + 1 < 100; rw [i1']; norm_num)
  have t2' : s2.t = rnd (8 / 10) - 2⁻¹ ^ 53 := by
    rw [t2, t1', hland2]
  have k2' : s2.timeId = 1 := by rw [k2, k1']; rfl
  -- third iteration
  have htt3 := htrig s2 (by rw [t2', e8]; norm_num) (by rw [k2']; exact hn2.2)
  have hlast : 0 < rTimed rnd p 2 - s2.t := by
    rw [t2']
    linarith [hn2.1, show (0 : ℚ) < 2⁻¹ ^ 53 by norm_num]
  have hland3 : rnd (s2.t + rnd (rTimed rnd p 2 - s2.t)) = rTimed rnd p 2 := by
    refine hr.land_exact (t2' ▸ h8d) (hr.double _) (hn2.2.trans ?_) ?_
    · rw [t2', e8]; norm_num
    · linarith [hn2.1, e8 ▸ (by norm_num : (0 : ℚ) < 7205759403792794 / 2 ^ 53)]
  obtain ⟨s3, q3, t3⟩ := rRunStep_end (rnd := rnd) (p := p) (hy := hy) (r := ⟨s2, (r0.outs ++ [s1]) ++ [s2], .running⟩) rfl rfl
    (dt := rnd (rTimed rnd p 2 - s2.t)) (by unfold rDtTimed; rw [if_pos htt3, k2']; rfl) (hr.pos hlast)
    (by rw [hland3]; exact hn2.1)
  have t3' : s3.t = rnd (8 / 10) := by
    rw [t3]
    refine hr.land_exact (t2' ▸ h8d) hd8 ?_ ?_
    · show rnd (8 / 10) ≤ 2 * s2.t
      rw [t2', e8]; norm_num
    · show s2.t ≤ 2 * rnd (8 / 10)
      rw [t2', e8]; norm_num
  have hfin : rRunN rnd p hy (fun _ => false) r0 3 = ⟨s3, ((r0.outs ++ [s1]) ++ [s2]) ++ [s3], .finished⟩ := by
    show rRunStep rnd p hy false (rRunStep rnd p hy false (rRunStep rnd p hy false r0)) = _
    rw [q1, q2, q3]
  rw [hfin]
  refine ⟨?_, rfl⟩
  rw [hr0']
  simp [t1', t2', t3']

/-- **C84, violated.** The last iteration can end beside `t_end`: with the default rounding, from `t = 1/4 + 2^-53` a run to
`t_end = 3/2 + 2^-52` ends at `3/2`. -/
theorem C84_end_missed :
    let p : LoopParams ℚ := ⟨1, 3 / 2 + 2⁻¹ ^ 52, 0, 0, 0, 100⟩
    IsDouble p.tEnd ∧ IsDouble (1 / 4 + 2⁻¹ ^ 53) ∧
    (rRunN roundDouble p (constStep 2) (fun _ => false) (freshRun p (1 / 4 + 2⁻¹ ^ 53) ()) 1).status = .finished ∧
    (rRunN roundDouble p (constStep 2) (fun _ => false) (freshRun p (1 / 4 + 2⁻¹ ^ 53) ()) 1).s.t = 3 / 2 := by
  intro p
  have hr := roundDouble_nearest
  have hE : IsDouble p.tEnd := ⟨3 * 2 ^ 51 + 1, -52, by norm_num, by norm_num [p]⟩
  have hI : IsDouble (1 / 4 + 2⁻¹ ^ 53) := ⟨2 ^ 51 + 1, -53, by norm_num, by norm_num⟩
  refine ⟨hE, hI, ?_⟩
  have h2 : roundDouble 2 = 2 := hr.eq_self ⟨2, 0, by norm_num, by norm_num⟩
  have hr0' : freshRun p (1 / 4 + 2⁻¹ ^ 53) () = ⟨⟨(), 1 / 4 + 2⁻¹ ^ 53, 0, -1, -1, -1⟩, [], .running⟩ := by
    unfold freshRun
    rw [if_neg (by simp [p])]
  obtain ⟨s1, q1, t1⟩ := rRunStep_end (rnd := roundDouble) (p := p) (hy := constStep 2) (r := freshRun p (1 / 4 + 2⁻¹ ^ 53) ()) (by rw [hr0']) rfl
    (dt := 2) (by unfold rDtTimed rTimeTrigger; simp [p, constStep, h2]) (by norm_num)
    (by
      rw [hr0', ← hr.eq_self hE]
      exact hr.mono (by norm_num [p]))
  have e1 : roundDouble (p.tEnd - (1 / 4 + 2⁻¹ ^ 53)) = 5 / 4 := by
    have := roundDouble_tie (m := 5 * 2 ^ 50) (e := -52) (by norm_num) (by norm_num) (by norm_num)
    have h3 : p.tEnd - (1 / 4 + 2⁻¹ ^ 53) = (((5 * 2 ^ 50 : ℤ) : ℚ) + 1 / 2) * 2 ^ (-52 : ℤ) := by norm_num [p]
    rw [h3, this]
    norm_num
  have e2 : roundDouble (1 / 4 + 2⁻¹ ^ 53 + 5 / 4) = 3 / 2 := by
    have := roundDouble_tie (m := 3 * 2 ^ 51) (e := -52) (by norm_num) (by norm_num) (by norm_num)
    have h3 : (1 / 4 + 2⁻¹ ^ 53 + 5 / 4 : ℚ) = (((3 * 2 ^ 51 : ℤ) : ℚ) + 1 / 2) * 2 ^ (-52 : ℤ) := by norm_num
    rw [h3, this]
    norm_num
  show (rRunStep roundDouble p (constStep 2) false (freshRun p (1 / 4 + 2⁻¹ ^ 53) ())).status = _ ∧
    (rRunStep roundDouble p (constStep 2) false (freshRun p (1 / 4 + 2⁻¹ ^ 53) ())).s.t = _
  rw [q1]
  refine ⟨rfl, ?_⟩
  show s1.t = _
  rw [t1, hr0', e1, e2]

/-- **C84, violated.** Time can stand still: from `t = 1` to `t_end = 2` with steps of `2^-54` (positive, so that C39 asks for progress)
every iteration leaves `t = 1`, and only `max_iter` ends the run. With every rounding to nearest. -/
theorem C84_stagnation (hr : Nearest rnd) (maxIter : ℤ) (n : ℕ) (hn : (n : ℤ) < maxIter) :
    let p : LoopParams ℚ := ⟨1, 2, 0, 0, 0, maxIter⟩
    let r := rRunN rnd p (constStep (2⁻¹ ^ 54)) (fun _ => false) (freshRun p 1 ()) n
    r.status = .running ∧ r.s.t = 1 ∧ r.s.iter = n := by
  intro p
  have e1 : rnd (2⁻¹ ^ 54) = 2⁻¹ ^ 54 := hr.eq_self ⟨1, -54, by norm_num, by norm_num⟩
  have e2 : rnd (1 + 2⁻¹ ^ 54) = 1 := by
    have h1 : rnd 1 = 1 := hr.eq_self ⟨1, 0, by norm_num, by norm_num⟩
    obtain ⟨m, e, hm, hx⟩ := hr.double (1 + 2⁻¹ ^ 54)
    have hge : 1 ≤ rnd (1 + 2⁻¹ ^ 54) := by
      calc (1 : ℚ) = rnd 1 := h1.symm
        _ ≤ _ := hr.mono (by norm_num)
    have hnear := hr.nearest (1 + 2⁻¹ ^ 54) 1 ⟨1, 0, by norm_num, by norm_num⟩
    rw [add_sub_cancel_left, abs_of_nonneg (by norm_num : (0 : ℚ) ≤ 2⁻¹ ^ 54)] at hnear
    have hle : rnd (1 + 2⁻¹ ^ 54) ≤ 1 + 2⁻¹ ^ 53 := by
      have := (abs_le.1 hnear).1
      norm_num at this ⊢
      linarith
    by_contra hne
    have hgt := lt_of_le_of_ne hge (Ne.symm hne)
    rw [hx] at hgt hle
    rcases le_or_gt (-52) e with he | he
    · have hz : (m : ℚ) * 2 ^ e = ((m * 2 ^ (e - -52).toNat : ℤ) : ℚ) * 2 ^ (-52 : ℤ) := zpow_split he m
      rw [hz] at hgt hle
      have h3 : (2 : ℚ) ^ 52 < ((m * 2 ^ (e - -52).toNat : ℤ) : ℚ) := by
        norm_num at hgt ⊢
        linarith
      have h4 : ((m * 2 ^ (e - -52).toNat : ℤ) : ℚ) < (2 : ℚ) ^ 52 + 1 := by
        norm_num at hle ⊢
        linarith
      have h5 : (2 : ℤ) ^ 52 < m * 2 ^ (e - -52).toNat := by exact_mod_cast h3
      have h6 : m * 2 ^ (e - -52).toNat < (2 : ℤ) ^ 52 + 1 := by exact_mod_cast h4
      omega
    · have hq : (m : ℚ) ≤ 2 ^ 53 := (le_abs_self _).trans (by exact_mod_cast hm)
      have h6 : (2 : ℚ) ^ e ≤ 2 ^ (-53 : ℤ) := zpow_le_zpow_right₀ (by norm_num) (by omega)
      have h7 : (m : ℚ) * 2 ^ e ≤ 2 ^ 53 * 2 ^ (-53 : ℤ) :=
        (mul_le_mul_of_nonneg_right hq (two_zpow_pos _).le).trans (mul_le_mul_of_nonneg_left h6 (by norm_num))
      norm_num at h7
      linarith
  have hr0' : freshRun p 1 () = ⟨⟨(), 1, 0, -1, -1, -1⟩, [], .running⟩ := by
    unfold freshRun
    rw [if_neg (by simp [p])]
  induction n with
  | zero =>
    rw [rRunN, hr0']
    exact ⟨rfl, rfl, rfl⟩
  | succ n ih =>
    intro r
    obtain ⟨h1, h2, h3⟩ := ih (by push_cast at hn; omega)
    set r' := rRunN rnd p (constStep (2⁻¹ ^ 54)) (fun _ => false) (freshRun p 1 ()) n
    have htt : ∀ dt, rTimeTrigger rnd p r'.s dt = false := by
      intro dt
      simp [rTimeTrigger, p]
    have hd : rDtTimed rnd p r'.s (rnd (p.cfl * (constStep (2⁻¹ ^ 54)).timeStep r'.s.h)) = 2⁻¹ ^ 54 := by
      unfold rDtTimed
      rw [htt]
      show rnd (1 * 2⁻¹ ^ 54) = _
      rw [one_mul, e1]
    obtain ⟨s', q, t', i'⟩ := rRunStep_plain (rnd := rnd) (p := p) (hy := constStep (2⁻¹ ^ 54)) (r := r') h1 rfl (htt _) hd
      (by rw [h2, e2]; show (1 : ℚ) < 2; norm_num) (by rw [h3]; show _ < maxIter; push_cast at hn; omega)
    have hr : r = rRunStep rnd p (constStep (2⁻¹ ^ 54)) false r' := rfl
    rw [hr]
    obtain ⟨os, q⟩ := q
    rw [q]
    refine ⟨rfl, ?_, ?_⟩
    · show s'.t = 1
      rw [t', h2, e2]
    · show s'.iter = _
      rw [i', h3]
      push_cast
      rfl

/-- The default rounding meets the hypotheses of C84: outputs every 1/10 from 7/10 on, to the end time 8/10, all rounded. -/
example (h0 : H) (hdt : ∀ h, 0 < hy.timeStep h) (n : ℕ) :
    let p := outputParams (roundDouble (7 / 10)) (roundDouble (1 / 10)) (roundDouble (8 / 10))
    (rRunN roundDouble p hy clock (freshRun p 0 h0) n).status = .failed →
      hy.bad (rRunN roundDouble p hy clock (freshRun p 0 h0) n).s.h = true := by
  intro p
  have hr := roundDouble_nearest
  have b : ∀ x : ℚ, 0 < x → x / 2 ≤ roundDouble x ∧ roundDouble x ≤ 2 * x := by
    intro x hx
    have := abs_le.1 (hr.rel x)
    rw [abs_of_pos hx] at this
    constructor <;> linarith [this.1, this.2]
  have b1 := b (1 / 10) (by norm_num)
  have b7 := b (7 / 10) (by norm_num)
  have b8 := b (8 / 10) (by norm_num)
  have hE : 0 < p.tEnd := by show 0 < roundDouble (8 / 10); linarith
  refine (C84_outputs_partial (p := p) hr (hr.double _) ?_ ?_ hdt isDouble_zero hE ?_ ?_ h0 n).2
  · show 0 < roundDouble (1 / 10); linarith
  · show (0 : ℚ) < 1; norm_num
  · exact hr.pos (by show 0 < roundDouble (7 / 10); linarith)
  · refine C84_separated hr le_rfl hE ?_ ?_
    · show 0 ≤ roundDouble (7 / 10); linarith
    · show roundDouble (8 / 10) / 2 ^ 47 ≤ roundDouble (1 / 10)
      linarith

end C84

end Heracles

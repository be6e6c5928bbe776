import Verif.Model.Loop
import Mathlib.Tactic.Linarith
import Mathlib.Tactic.NormNum
import Mathlib.Tactic.Ring
import Mathlib.Tactic.Push

/-!
# C39–C42 The time loop: end of the run, outputs, restart
-/

namespace Heracles

variable {H K : Type} [Field K] [LinearOrder K]

section Lemmas
variable {p : LoopParams K} {hy : Hydro H K} {clock : Bool} {s : LoopState H K} {r : RunState H K} {D : Decision K} {dt0 : K}

/-- The step retained after the time trigger. -/
def dtTimed (p : LoopParams K) (s : LoopState H K) (dt : K) : K := if timeTrigger p s dt then nextTimed p s - s.t else dt

theorem decideStep_eq (p : LoopParams K) (dt0 : K) (clock : Bool) (s : LoopState H K) :
    decideStep p dt0 clock s =
      if timeTrigger p s (p.cfl * dt0) = true ∧ dtTimed p s (p.cfl * dt0) ≤ 0 then
        .error "Error: the time step is negative"
      else .ok
        { dt := if s.t + dtTimed p s (p.cfl * dt0) ≥ p.tEnd then p.tEnd - s.t else dtTimed p s (p.cfl * dt0)
          makeOutput := iterTrigger p s || timeTrigger p s (p.cfl * dt0) || decide (s.t + dtTimed p s (p.cfl * dt0) ≥ p.tEnd) ||
            decide (s.iter + 1 ≥ p.maxIter) || clock
          exit := decide (s.t + dtTimed p s (p.cfl * dt0) ≥ p.tEnd) || decide (s.iter + 1 ≥ p.maxIter) || clock
          iterId := if iterTrigger p s then s.iterId + 1 else s.iterId
          timeId := if timeTrigger p s (p.cfl * dt0) then s.timeId + 1 else s.timeId } := by
  unfold decideStep dtTimed
  by_cases h : timeTrigger p s (p.cfl * dt0) = true ∧ (if timeTrigger p s (p.cfl * dt0) = true then nextTimed p s - s.t else p.cfl * dt0) ≤ 0
  · rw [if_pos h, if_pos h]
    rfl
  · rw [if_neg h, if_neg h]
    simp only [decide_eq_true_eq]
    rfl

/-- The loop variables after an accepted iteration. -/
def nextState (hy : Hydro H K) (s : LoopState H K) (D : Decision K) : LoopState H K :=
  { h := hy.advance s.h s.t D.dt, t := s.t + D.dt, iter := s.iter + 1
    outputId := if D.makeOutput then s.outputId + 1 else s.outputId, iterId := D.iterId, timeId := D.timeId }

theorem runStep_running (h : r.status = .running) :
    (∃ D, decideStep p (hy.timeStep r.s.h) clock r.s = .ok D ∧ hy.bad r.s.h = false ∧
      runStep p hy clock r = ⟨nextState hy r.s D, if D.makeOutput then r.outs ++ [nextState hy r.s D] else r.outs,
        if D.exit then .finished else .running⟩) ∨
    ((runStep p hy clock r).status = .failed ∧ (runStep p hy clock r).s = r.s ∧
      (hy.bad r.s.h = true ∨ ∃ m, decideStep p (hy.timeStep r.s.h) clock r.s = .error m)) := by
  unfold runStep
  rw [h]
  simp only [iteration]
  cases e : decideStep p (hy.timeStep r.s.h) clock r.s with
  | error m => exact Or.inr ⟨rfl, rfl, Or.inr ⟨m, rfl⟩⟩
  | ok D =>
    by_cases hb : hy.bad r.s.h = true
    · right
      simp only [hb, if_true]
      exact ⟨trivial, trivial, Or.inl trivial⟩
    · left
      refine ⟨D, rfl, by simpa using hb, ?_⟩
      simp only [hb]
      rfl

theorem runStep_stopped (h : r.status ≠ .running) : runStep p hy clock r = r := by
  unfold runStep
  cases e : r.status with
  | running => exact absurd e h
  | finished => rfl
  | failed => rfl

variable [IsStrictOrderedRing K]

/-- Time step retained by an accepted iteration that starts before the end time. -/
theorem decideStep_dt (h : decideStep p dt0 clock s = .ok D) (hpos : 0 < p.cfl * dt0) (ht : s.t < p.tEnd) :
    0 < D.dt ∧ s.t + D.dt ≤ p.tEnd ∧ (D.exit = false → s.t + D.dt < p.tEnd) ∧ D.dt ≤ p.cfl * dt0 := by
  rw [decideStep_eq] at h
  split at h
  · cases h
  rename_i hn
  cases h
  have h1 : 0 < dtTimed p s (p.cfl * dt0) ∧ dtTimed p s (p.cfl * dt0) ≤ p.cfl * dt0 := by
    by_cases htt : timeTrigger p s (p.cfl * dt0) = true
    · rw [not_and] at hn
      refine ⟨not_le.1 (hn htt), ?_⟩
      unfold dtTimed
      rw [if_pos htt]
      simp only [timeTrigger, Bool.and_eq_true, decide_eq_true_eq] at htt
      linarith [htt.2]
    · unfold dtTimed
      rw [if_neg htt]
      exact ⟨hpos, le_rfl⟩
  simp only
  split
  · rename_i hc
    refine ⟨by linarith, by linarith, fun he => ?_, by linarith [h1.2]⟩
    simp [hc] at he
  · rename_i hc
    refine ⟨h1.1, (not_le.1 hc).le, fun _ => not_le.1 hc, h1.2⟩

end Lemmas

section C39
variable [IsStrictOrderedRing K] {p : LoopParams K} {hy : Hydro H K} {clock : ℕ → Bool}

/-- Facts kept by a run that started before its end time at iteration `i0`. -/
structure RunInv (p : LoopParams K) (t0 : K) (i0 : ℤ) (n : ℕ) (r : RunState H K) : Prop where
  run : r.status = .running → r.s.t < p.tEnd ∧ r.s.iter = i0 + n ∧ (n = 0 ∨ i0 + n < p.maxIter)
  time : t0 ≤ r.s.t ∧ r.s.t ≤ p.tEnd
  iter : r.s.iter ≤ max (i0 + 1) p.maxIter
  done : r.status = .finished → r.outs.getLast? = some r.s

theorem RunInv.step {t0 : K} {i0 : ℤ} {n : ℕ} {r : RunState H K} {c : Bool} (hcfl : 0 < p.cfl) (hdt : ∀ h, 0 < hy.timeStep h)
    (h : RunInv p t0 i0 n r) : RunInv p t0 i0 (n + 1) (runStep p hy c r) := by
  by_cases hr : r.status = .running
  · obtain ⟨h1, h2, h3⟩ := h.run hr
    rcases runStep_running (p := p) (hy := hy) (clock := c) hr with ⟨D, hD, -, e⟩ | ⟨e1, e2, -⟩
    · obtain ⟨d1, d2, d3, -⟩ := decideStep_dt hD (mul_pos hcfl (hdt _)) h1
      have hex : D.exit = false → r.s.iter + 1 < p.maxIter := by
        rw [decideStep_eq] at hD
        split at hD
        · cases hD
        · cases hD
          intro he
          simp only [Bool.or_eq_false_iff, decide_eq_false_iff_not, not_le] at he
          exact he.1.2
      rw [e]
      constructor
      · intro hs
        simp only at hs
        have he : D.exit = false := by
          cases hx : D.exit
          · rfl
          · rw [hx] at hs; cases hs
        refine ⟨d3 he, ?_, Or.inr ?_⟩
        · simp only [nextState, h2]
          push_cast
          ring
        · have := hex he
          push_cast
          omega
      · exact ⟨by simp only [nextState]; linarith [h.time.1], by simpa only [nextState] using d2⟩
      · simp only [nextState, h2]
        rcases h3 with h3 | h3
        · subst h3
          simp
        · exact le_max_of_le_right (by omega)
      · intro hs
        have hm : D.makeOutput = true := by
          rw [decideStep_eq] at hD
          split at hD
          · cases hD
          · cases hD
            simp only at hs ⊢
            by_contra hm
            rw [Bool.not_eq_true] at hm
            simp only [Bool.or_eq_false_iff] at hm
            simp [hm] at hs
        simp [hm]
    · refine ⟨fun h' => ?_, by rw [e2]; exact h.time, by rw [e2]; exact h.iter, fun h' => ?_⟩
      · rw [e1] at h'
        cases h'
      · rw [e1] at h'
        cases h'
  · rw [runStep_stopped hr]
    exact ⟨fun h' => absurd h' hr, h.time, h.iter, h.done⟩

theorem RunInv.runN {t0 : K} {i0 : ℤ} {r : RunState H K} (hcfl : 0 < p.cfl) (hdt : ∀ h, 0 < hy.timeStep h)
    (h : RunInv p t0 i0 0 r) (n : ℕ) : RunInv p t0 i0 n (runN p hy clock r n) := by
  induction n with
  | zero => exact h
  | succ n ih => exact RunInv.step hcfl hdt ih

theorem freshRun_inv {tIni : K} (h0 : H) (ht : tIni < p.tEnd) : RunInv p tIni 0 0 (freshRun p tIni h0) := by
  unfold freshRun
  split
  · exact ⟨fun _ => ⟨ht, by simp, Or.inl rfl⟩, ⟨le_rfl, ht.le⟩, by simp, fun h => by cases h⟩
  · exact ⟨fun _ => ⟨ht, by simp, Or.inl rfl⟩, ⟨le_rfl, ht.le⟩, by simp, fun h => by cases h⟩

/-- C39. A fresh run that starts before its end time, whatever the CFL steps (positive), the parameters and the wall clock: at
every moment the time lies between `t_ini` and `t_end`; a run that completed has written its last state; at most
`max(1, max_iter)` iterations are performed, after which the loop has been left. -/
theorem C39_fresh_run (hcfl : 0 < p.cfl) (hdt : ∀ h, 0 < hy.timeStep h) {tIni : K} (ht : tIni < p.tEnd) (h0 : H) (n : ℕ) :
    let r := runN p hy clock (freshRun p tIni h0) n
    (tIni ≤ r.s.t ∧ r.s.t ≤ p.tEnd) ∧ (r.status = .finished → r.outs.getLast? = some r.s) ∧
      r.s.iter ≤ max 1 p.maxIter ∧ (max 1 p.maxIter ≤ n → r.status ≠ .running) := by
  have h := RunInv.runN (hy := hy) (clock := clock) hcfl hdt (freshRun_inv (p := p) h0 ht) n
  refine ⟨h.time, h.done, by simpa using h.iter, fun hn hr => ?_⟩
  obtain ⟨-, h2, h3⟩ := h.run hr
  have hn1 := (le_max_left _ _).trans hn
  have hn2 := (le_max_right _ _).trans hn
  rcases h3 with h3 | h3
  · subst h3
    norm_num at hn1
  · omega

/-- C39: every iteration of such a run that does not fail increases the time strictly and the iteration number by one; a run
that goes on has not reached the end time; a run that completed stopped because of the end time, of the iteration limit or of
the wall clock. -/
theorem C39_strictly_increasing (hcfl : 0 < p.cfl) (hdt : ∀ h, 0 < hy.timeStep h) {tIni : K} (ht : tIni < p.tEnd) (h0 : H) (n : ℕ)
    (hr : (runN p hy clock (freshRun p tIni h0) n).status = .running)
    (hf : (runN p hy clock (freshRun p tIni h0) (n + 1)).status ≠ .failed) :
    (runN p hy clock (freshRun p tIni h0) n).s.t < (runN p hy clock (freshRun p tIni h0) (n + 1)).s.t ∧
      (runN p hy clock (freshRun p tIni h0) n).s.iter = n ∧
      (runN p hy clock (freshRun p tIni h0) (n + 1)).s.iter = n + 1 ∧
      ((runN p hy clock (freshRun p tIni h0) (n + 1)).status = .finished ↔
        (runN p hy clock (freshRun p tIni h0) (n + 1)).s.t = p.tEnd ∨ p.maxIter ≤ n + 1 ∨ clock n = true) := by
  have h := RunInv.runN (hy := hy) (clock := clock) hcfl hdt (freshRun_inv (p := p) h0 ht) n
  obtain ⟨h1, h2, -⟩ := h.run hr
  rw [runN] at hf ⊢
  rcases runStep_running (p := p) (hy := hy) (clock := clock n) hr with ⟨D, hD, -, e⟩ | ⟨e1, -⟩
  · obtain ⟨d1, d2, d3, -⟩ := decideStep_dt hD (mul_pos hcfl (hdt _)) h1
    rw [e]
    refine ⟨by simp only [nextState]; linarith, by simpa using h2, by simp only [nextState, h2]; push_cast; ring, ?_⟩
    have hex : D.exit = true ↔ (runN p hy clock (freshRun p tIni h0) n).s.t + D.dt = p.tEnd ∨ p.maxIter ≤ n + 1 ∨ clock n = true := by
      rw [decideStep_eq] at hD
      split at hD
      · cases hD
      · cases hD
        simp only [Bool.or_eq_true, decide_eq_true_eq, h2, zero_add, or_assoc]
        refine or_congr ?_ (Iff.rfl)
        split
        · rename_i hc
          simp [hc]
        · rename_i hc
          exact ⟨fun h => absurd h hc, fun h => absurd h.ge hc⟩
    simp only [nextState]
    rw [← hex]
    cases D.exit <;> simp
  · exact absurd e1 hf

/-- C39 needs the run to start before its end time: restarted from the file of a completed run with the same `t_end`, the
code performs one more iteration with a time step equal to zero; with a smaller `t_end`, with a negative one, so that the time
decreases. Nothing is reported. -/
theorem C39_late_start {s : LoopState H K} (hp : 0 < p.cfl * hy.timeStep s.h) (hf : p.timeFreq ≤ 0) (ht : p.tEnd ≤ s.t) (hb : hy.bad s.h = false) :
    ∃ s' out, iteration p hy false s = .ok s' out true ∧ s'.t = p.tEnd ∧ s'.iter = s.iter + 1 ∧
      s'.h = hy.advance s.h s.t (p.tEnd - s.t) := by
  have htt : timeTrigger p s (p.cfl * hy.timeStep s.h) = false := by
    simp [timeTrigger, not_lt.2 hf]
  unfold iteration
  rw [decideStep_eq, if_neg (by simp [htt])]
  have hd : dtTimed p s (p.cfl * hy.timeStep s.h) = p.cfl * hy.timeStep s.h := by simp [dtTimed, htt]
  have hge : s.t + p.cfl * hy.timeStep s.h ≥ p.tEnd := by linarith
  simp only [hb, hd, if_pos hge, decide_eq_true hge, Bool.or_true, Bool.true_or, Bool.false_eq_true, if_false]
  exact ⟨_, _, rfl, by simp, rfl, rfl⟩

end C39

section C40
variable [IsStrictOrderedRing K] {p : LoopParams K} {hy : Hydro H K} {clock : ℕ → Bool}

/-- Facts about the iteration counter and the files of a fresh run. -/
structure OutInv (p : LoopParams K) (n : ℕ) (r : RunState H K) : Prop where
  run : r.status = .running → r.s.iter = n ∧ r.s.iterId * p.iterFreq ≤ r.s.iter ∧ r.s.iter < (r.s.iterId + 1) * p.iterFreq
  all : ∀ k : ℤ, 0 ≤ k → k * p.iterFreq ≤ r.s.iter → ∃ o ∈ r.outs, o.iter = k * p.iterFreq
  ids : r.status ≠ .failed → (r.outs.length : ℤ) = r.s.outputId + 1

theorem iterTrigger_iff {s : LoopState H K} (hf : 0 < p.iterFreq) (h : s.iter < (s.iterId + 1) * p.iterFreq) (h' : s.iterId * p.iterFreq ≤ s.iter) :
    iterTrigger p s = true ↔ p.iterFreq ∣ s.iter + 1 := by
  simp only [iterTrigger, Bool.and_eq_true, decide_eq_true_eq]
  constructor
  · rintro ⟨-, h2⟩
    exact ⟨s.iterId + 1, by rw [mul_comm]; omega⟩
  · rintro ⟨k, hk⟩
    refine ⟨hf, ?_⟩
    by_contra hlt
    rw [ge_iff_le, not_le] at hlt
    rw [mul_comm] at hk
    have h1 : s.iterId < k := lt_of_mul_lt_mul_right (a := p.iterFreq) (by omega) hf.le
    have h2 : k < s.iterId + 1 := lt_of_mul_lt_mul_right (a := p.iterFreq) (by omega) hf.le
    omega

theorem OutInv.step {n : ℕ} {r : RunState H K} {c : Bool} (hf : 0 < p.iterFreq)
    (h : OutInv p n r) : OutInv p (n + 1) (runStep p hy c r) := by
  by_cases hr : r.status = .running
  · obtain ⟨h1, h2, h3⟩ := h.run hr
    have hlen := h.ids (by rw [hr]; decide)
    rcases runStep_running (p := p) (hy := hy) (clock := c) hr with ⟨D, hD, -, e⟩ | ⟨e1, e2, -⟩
    · have htr := iterTrigger_iff hf h3 h2
      rw [decideStep_eq] at hD
      split at hD
      · cases hD
      cases hD
      rw [e]
      by_cases ht : iterTrigger p r.s = true
      · have hle : r.s.iter + 1 = (r.s.iterId + 1) * p.iterFreq := by
          have := ht
          simp only [iterTrigger, Bool.and_eq_true, decide_eq_true_eq] at this
          omega
        simp only [nextState, ht, Bool.true_or, if_true]
        refine ⟨fun _ => ⟨by rw [h1]; push_cast; ring, by rw [hle], by rw [hle]; nlinarith⟩, fun k hk hkm => ?_, fun _ => by simp [hlen]⟩
        by_cases hkk : k * p.iterFreq ≤ r.s.iter
        · obtain ⟨o, ho, ho'⟩ := h.all k hk hkk
          exact ⟨o, List.mem_append_left _ ho, ho'⟩
        · exact ⟨_, List.mem_append_right _ (List.mem_singleton.2 rfl), by simp only at hkm ⊢; omega⟩
      · have hnd : ¬ p.iterFreq ∣ r.s.iter + 1 := fun hd => ht (htr.2 hd)
        have hlt : r.s.iter + 1 < (r.s.iterId + 1) * p.iterFreq := by
          have := ht
          simp only [iterTrigger, Bool.and_eq_true, decide_eq_true_eq, not_and, ge_iff_le, not_le] at this
          exact this hf
        simp only [nextState, ht, Bool.false_or]
        refine ⟨fun _ => ⟨by rw [h1]; push_cast; ring, by simp only [Bool.false_eq_true, if_false]; omega, by simpa using hlt⟩, fun k hk hkm => ?_, fun _ => ?_⟩
        · have hkk : k * p.iterFreq ≤ r.s.iter := by
            simp only at hkm
            by_contra hc
            exact hnd ⟨k, by rw [mul_comm]; omega⟩
          obtain ⟨o, ho, ho'⟩ := h.all k hk hkk
          refine ⟨o, ?_, ho'⟩
          simp only
          split
          · exact List.mem_append_left _ ho
          · exact ho
        · simp only
          split
          · simp [hlen]
          · exact hlen
    · refine ⟨fun h' => ?_, fun k hk hkm => ?_, fun h' => absurd e1 h'⟩
      · rw [e1] at h'
        cases h'
      · rw [e2] at hkm
        obtain ⟨o, ho, ho'⟩ := h.all k hk hkm
        refine ⟨o, ?_, ho'⟩
        unfold runStep
        rw [hr]
        simp only
        cases iteration p hy c r.s with
        | ok s out exit => simp only; split; exact List.mem_append_left _ ho; exact ho
        | crash f => exact List.mem_append_left _ ho
        | throw m => exact ho
  · rw [runStep_stopped hr]
    exact ⟨fun h' => absurd h' hr, h.all, h.ids⟩

theorem OutInv.runN {r : RunState H K} (hf : 0 < p.iterFreq) (h : OutInv p 0 r) (n : ℕ) : OutInv p n (runN p hy clock r n) := by
  induction n with
  | zero => exact h
  | succ n ih => exact OutInv.step hf ih

theorem freshRun_outInv {tIni : K} (h0 : H) (hf : 0 < p.iterFreq) : OutInv p 0 (freshRun p tIni h0) := by
  unfold freshRun
  rw [if_pos (Or.inl hf)]
  refine ⟨fun _ => ⟨rfl, by simp, by simpa using hf⟩, fun k hk hkm => ?_, fun _ => by simp⟩
  refine ⟨_, List.mem_singleton.2 rfl, ?_⟩
  simp only at hkm ⊢
  have := mul_nonneg hk hf.le
  omega

/-- C40: with an iteration frequency `f > 0`, a fresh run has written, when it reaches an iteration number, a file for every
multiple of `f` up to it, the initial state included (whatever the other parameters, the CFL steps and the clock). -/
theorem C40_no_multiple_missing (hf : 0 < p.iterFreq) (tIni : K) (h0 : H) (n : ℕ) (k : ℤ) (hk : 0 ≤ k)
    (hkn : k * p.iterFreq ≤ (runN p hy clock (freshRun p tIni h0) n).s.iter) :
    ∃ o ∈ (runN p hy clock (freshRun p tIni h0) n).outs, o.iter = k * p.iterFreq :=
  (OutInv.runN hf (freshRun_outInv h0 hf) n).all k hk hkn

/-- C40: what one iteration of a fresh run writes. After iteration `n + 1` (not failed), a multiple of `f`, the state is
appended to the files; something is appended only if `f` divides `n + 1`, or the time is that of the next timed output, or the
run ends here. Nothing but the current state is ever appended. -/
theorem C40_only_requested (hf : 0 < p.iterFreq) (hcfl : 0 < p.cfl) (hdt : ∀ h, 0 < hy.timeStep h) {tIni : K} (ht : tIni < p.tEnd)
    (h0 : H) (n : ℕ)
    (hr : (runN p hy clock (freshRun p tIni h0) n).status = .running)
    (hnf : (runN p hy clock (freshRun p tIni h0) (n + 1)).status ≠ .failed) :
    let r := runN p hy clock (freshRun p tIni h0) n
    let r' := runN p hy clock (freshRun p tIni h0) (n + 1)
    (r'.outs = r.outs ∨ r'.outs = r.outs ++ [r'.s]) ∧
    (p.iterFreq ∣ n + 1 → r'.outs = r.outs ++ [r'.s] ∧ r'.s.iter = n + 1) ∧
    (r'.outs = r.outs ++ [r'.s] → p.iterFreq ∣ n + 1 ∨
      (0 < p.timeFreq ∧ r'.s.t = p.timeFirst + ((r.s.timeId : K) + 1) * p.timeFreq) ∨ r'.status = .finished) := by
  intro r r'
  have h := OutInv.runN (hy := hy) (clock := clock) hf (freshRun_outInv (tIni := tIni) h0 hf) n
  obtain ⟨h1, h2, h3⟩ := h.run hr
  have htr := iterTrigger_iff hf h3 h2
  change r'.status ≠ _ at hnf
  have hr' : r' = runStep p hy (clock n) r := rfl
  rcases runStep_running (p := p) (hy := hy) (clock := clock n) (r := r) hr with ⟨D, hD, -, e⟩ | ⟨e1, -⟩
  · rw [h1] at htr
    rw [decideStep_eq] at hD
    split at hD
    · cases hD
    cases hD
    rw [hr', e]
    refine ⟨?_, fun hd => ?_, fun ho => ?_⟩
    · simp only
      split
      · exact Or.inr rfl
      · exact Or.inl rfl
    · have := htr.2 hd
      refine ⟨?_, ?_⟩
      · simp only [show iterTrigger p r.s = true from this, Bool.true_or, if_true]
      · simp only [nextState]
        rw [show r.s.iter = n from h1]
    · by_cases hi : iterTrigger p r.s = true
      · exact Or.inl (htr.1 hi)
      right
      rw [Bool.not_eq_true] at hi
      simp only [nextState, hi, Bool.false_or] at ho ⊢
      by_cases hge : r.s.t + dtTimed p r.s (p.cfl * hy.timeStep r.s.h) ≥ p.tEnd
      · right
        simp [hge]
      by_cases htt : timeTrigger p r.s (p.cfl * hy.timeStep r.s.h) = true
      · left
        refine ⟨?_, ?_⟩
        · simp only [timeTrigger, Bool.and_eq_true, decide_eq_true_eq] at htt
          exact htt.1
        · rw [if_neg hge]
          simp only [dtTimed, if_pos htt, nextTimed]
          ring
      · right
        rw [Bool.not_eq_true] at htt
        simp only [htt, Bool.false_or] at ho
        split at ho
        · rename_i hx
          rw [if_pos hx]
        · exact absurd (congrArg List.length ho) (by simp)
  · exact absurd (hr' ▸ e1) hnf

/-- C40: the files of a fresh run that did not fail are numbered consecutively: their count is the last number plus one, and
every file appended gets the next number. -/
theorem C40_consecutive_numbers (hf : 0 < p.iterFreq) (tIni : K) (h0 : H) (n : ℕ)
    (hnf : (runN p hy clock (freshRun p tIni h0) n).status ≠ .failed) :
    ((runN p hy clock (freshRun p tIni h0) n).outs.length : ℤ) = (runN p hy clock (freshRun p tIni h0) n).s.outputId + 1 :=
  (OutInv.runN hf (freshRun_outInv h0 hf) n).ids hnf

end C40

section C41
variable [IsStrictOrderedRing K] {p : LoopParams K} {hy : Hydro H K} {clock : ℕ → Bool}

/-- Facts about timed outputs of a fresh run. -/
structure TimeInv (p : LoopParams K) (r : RunState H K) : Prop where
  run : r.status = .running → r.s.t < p.tEnd ∧ r.s.t < nextTimed p r.s ∧ -1 ≤ r.s.timeId ∧
    ∀ k : ℤ, 0 ≤ k → k ≤ r.s.timeId → ∃ o ∈ r.outs, o.t = p.timeFirst + (k : K) * p.timeFreq
  all : ∀ k : ℤ, 0 ≤ k → p.timeFirst + (k : K) * p.timeFreq ≤ r.s.t → p.timeFirst + (k : K) * p.timeFreq < p.tEnd →
    ∃ o ∈ r.outs, o.t = p.timeFirst + (k : K) * p.timeFreq
  fail : r.status = .failed → hy.bad r.s.h = true

theorem timed_mono {F : K} (hF : 0 < F) {j k : ℤ} : (j : K) * F ≤ (k : K) * F ↔ j ≤ k := by
  rw [mul_le_mul_iff_of_pos_right hF]
  exact Int.cast_le

theorem TimeInv.step {r : RunState H K} {c : Bool} (hF : 0 < p.timeFreq) (hcfl : 0 < p.cfl) (hdt : ∀ h, 0 < hy.timeStep h)
    (h : TimeInv (hy := hy) p r) : TimeInv (hy := hy) p (runStep p hy c r) := by
  by_cases hr : r.status = .running
  · obtain ⟨h1, h2, h3, h4⟩ := h.run hr
    have hthrow : ¬ (timeTrigger p r.s (p.cfl * hy.timeStep r.s.h) = true ∧ dtTimed p r.s (p.cfl * hy.timeStep r.s.h) ≤ 0) := by
      rintro ⟨ht, hle⟩
      unfold dtTimed at hle
      rw [if_pos ht] at hle
      linarith
    rcases runStep_running (p := p) (hy := hy) (clock := c) hr with ⟨D, hD, -, e⟩ | ⟨e1, e2, e3⟩
    · obtain ⟨d1, d2, d3, d4⟩ := decideStep_dt hD (mul_pos hcfl (hdt _)) h1
      have hD' := hD
      rw [decideStep_eq, if_neg hthrow] at hD
      -- outputs already written stay
      have hkeep : ∀ o ∈ r.outs, o ∈ (runStep p hy c r).outs := by
        intro o ho
        rw [e]
        simp only
        split
        · exact List.mem_append_left _ ho
        · exact ho
      have hcross : ∀ k : ℤ, 0 ≤ k → p.timeFirst + (k : K) * p.timeFreq ≤ r.s.t + D.dt → p.timeFirst + (k : K) * p.timeFreq < p.tEnd →
          ∃ o ∈ (runStep p hy c r).outs, o.t = p.timeFirst + (k : K) * p.timeFreq := by
        intro k hk hle hlt
        by_cases hkid : k ≤ r.s.timeId
        · obtain ⟨o, ho, ho'⟩ := h4 k hk hkid
          exact ⟨o, hkeep o ho, ho'⟩
        · have hnext : nextTimed p r.s ≤ p.timeFirst + (k : K) * p.timeFreq := by
            have := (timed_mono hF (j := r.s.timeId + 1) (k := k)).2 (by omega)
            unfold nextTimed
            push_cast at this
            linarith
          by_cases htt : timeTrigger p r.s (p.cfl * hy.timeStep r.s.h) = true
          · have hdt' : dtTimed p r.s (p.cfl * hy.timeStep r.s.h) = nextTimed p r.s - r.s.t := by
              unfold dtTimed
              rw [if_pos htt]
            have hnge : ¬ (r.s.t + dtTimed p r.s (p.cfl * hy.timeStep r.s.h) ≥ p.tEnd) := by
              rw [hdt']
              intro hge
              linarith
            have hdd : D.dt = nextTimed p r.s - r.s.t := by cases hD; exact (if_neg hnge).trans hdt'
            have hmk : D.makeOutput = true := by cases hD; simp [htt]
            rw [hdd] at hle
            refine ⟨nextState hy r.s D, ?_, ?_⟩
            · rw [e]
              simp [hmk]
            · simp only [nextState, hdd]
              linarith
          · simp only [timeTrigger, Bool.and_eq_true, decide_eq_true_eq, not_and, ge_iff_le, not_le] at htt
            have := htt hF
            linarith
      refine ⟨fun hrun => ?_, fun k hk hle hlt => ?_, fun hf => ?_⟩
      · have hex : D.exit = false := by
          rw [e] at hrun
          simp only at hrun
          cases hx : D.exit
          · rfl
          · rw [hx] at hrun; cases hrun
        have hend := d3 hex
        have hs : (runStep p hy c r).s = nextState hy r.s D := by rw [e]
        rw [hs]
        refine ⟨hend, ?_⟩
        have hnge : ¬ (r.s.t + dtTimed p r.s (p.cfl * hy.timeStep r.s.h) ≥ p.tEnd) := by
          cases hD
          intro hge
          simp [hge] at hex
        by_cases htt : timeTrigger p r.s (p.cfl * hy.timeStep r.s.h) = true
        · have hdt' : dtTimed p r.s (p.cfl * hy.timeStep r.s.h) = nextTimed p r.s - r.s.t := by
            unfold dtTimed
            rw [if_pos htt]
          have hid : D.timeId = r.s.timeId + 1 := by cases hD; simp [htt]
          have hdd : D.dt = nextTimed p r.s - r.s.t := by cases hD; exact (if_neg hnge).trans hdt'
          simp only [nextState, hid, hdd]
          refine ⟨?_, by omega, fun k hk hkk => ?_⟩
          · unfold nextTimed
            push_cast
            nlinarith
          · refine hcross k hk ?_ ?_
            · rw [hdd]
              have := (timed_mono hF (j := k) (k := r.s.timeId + 1)).2 hkk
              unfold nextTimed
              push_cast at this
              linarith
            · rw [hdt'] at hnge
              have := (timed_mono hF (j := k) (k := r.s.timeId + 1)).2 hkk
              have hlt : nextTimed p r.s < p.tEnd := by
                have := not_le.1 hnge
                linarith
              unfold nextTimed at hlt
              push_cast at this
              linarith
        · have hid : D.timeId = r.s.timeId := by cases hD; simp [htt]
          have hnx : nextTimed p (nextState hy r.s D) = nextTimed p r.s := by unfold nextTimed nextState; rw [hid]
          simp only [timeTrigger, Bool.and_eq_true, decide_eq_true_eq, not_and, ge_iff_le, not_le] at htt
          have hlt := htt hF
          refine ⟨?_, by simp only [nextState, hid]; exact h3, fun k hk hkk => ?_⟩
          · rw [hnx]
            simp only [nextState]
            linarith
          · simp only [nextState, hid] at hkk
            obtain ⟨o, ho, ho'⟩ := h4 k hk hkk
            exact ⟨o, hkeep o ho, ho'⟩
      · have hs : (runStep p hy c r).s.t = r.s.t + D.dt := by rw [e]; rfl
        rw [hs] at hle
        exact hcross k hk hle hlt
      · rw [e] at hf
        simp only at hf
        split at hf <;> cases hf
    · refine ⟨fun h' => ?_, fun k hk hle hlt => ?_, fun _ => ?_⟩
      · rw [e1] at h'
        cases h'
      · rw [e2] at hle
        obtain ⟨o, ho, ho'⟩ := h.all k hk hle hlt
        refine ⟨o, ?_, ho'⟩
        unfold runStep
        rw [hr]
        simp only
        cases iteration p hy c r.s with
        | ok s out exit => simp only; split; exact List.mem_append_left _ ho; exact ho
        | crash f => exact List.mem_append_left _ ho
        | throw m => exact ho
      · rw [e2]
        rcases e3 with e3 | ⟨m, e3⟩
        · exact e3
        · rw [decideStep_eq, if_neg hthrow] at e3
          cases e3
  · rw [runStep_stopped hr]
    exact ⟨fun h' => absurd h' hr, h.all, h.fail⟩

theorem freshRun_timeInv {tIni : K} (h0 : H) (hF : 0 < p.timeFreq) (ht : tIni < p.tEnd) (hfirst : tIni < p.timeFirst) :
    TimeInv (hy := hy) p (freshRun p tIni h0) := by
  unfold freshRun
  rw [if_pos (Or.inr hF)]
  refine ⟨fun _ => ⟨ht, ?_, by simp, fun k hk hkk => ?_⟩, fun k hk hle _ => ?_, fun h => by cases h⟩
  · simpa [nextTimed] using hfirst
  · simp only at hkk
    omega
  · have : (0 : K) ≤ (k : K) * p.timeFreq := mul_nonneg (by exact_mod_cast hk) hF.le
    simp only at hle
    linarith

/-- C41: with a time frequency `F > 0` and a first output after the start, a fresh run has written, once it passed it, a file
at exactly each time `first + k F` before the end time, for all CFL steps, other triggers and clocks; the exception of the time
trigger is never raised (the only failure is an invalid internal energy). -/
theorem C41_exact_times (hF : 0 < p.timeFreq) (hcfl : 0 < p.cfl) (hdt : ∀ h, 0 < hy.timeStep h) {tIni : K} (ht : tIni < p.tEnd)
    (hfirst : tIni < p.timeFirst) (h0 : H) (n : ℕ) :
    let r := runN p hy clock (freshRun p tIni h0) n
    (∀ k : ℤ, 0 ≤ k → p.timeFirst + (k : K) * p.timeFreq ≤ r.s.t → p.timeFirst + (k : K) * p.timeFreq < p.tEnd →
      ∃ o ∈ r.outs, o.t = p.timeFirst + (k : K) * p.timeFreq) ∧
    (r.status = .failed → hy.bad r.s.h = true) := by
  have : TimeInv (hy := hy) p (runN p hy clock (freshRun p tIni h0) n) := by
    induction n with
    | zero => exact freshRun_timeInv h0 hF ht hfirst
    | succ n ih => exact TimeInv.step hF hcfl hdt ih
  exact ⟨this.all, this.fail⟩

/-- C41: the time step is only ever shortened: an accepted iteration that starts before `t_end` advances by a positive step not
larger than the CFL step. -/
theorem C41_step_shortened {s s' : LoopState H K} {c out ex : Bool} (hp : 0 < p.cfl * hy.timeStep s.h) (ht : s.t < p.tEnd)
    (h : iteration p hy c s = .ok s' out ex) : s.t < s'.t ∧ s'.t ≤ s.t + p.cfl * hy.timeStep s.h := by
  unfold iteration at h
  cases hD : decideStep p (hy.timeStep s.h) c s with
  | error m => rw [hD] at h; cases h
  | ok D =>
    obtain ⟨d1, d2, d3, d4⟩ := decideStep_dt hD hp ht
    rw [hD] at h
    simp only at h
    split at h
    · cases h
    · cases h
      simp only
      exact ⟨by linarith, by linarith⟩

/-- C41: a first output requested at or before the current time (for instance `time_first_output = t_ini`) is not written: the
run raises the exception "the time step is negative" in its first iteration. -/
theorem C41_first_output_too_early {s : LoopState H K} {c : Bool} (hF : 0 < p.timeFreq) (hp : 0 < p.cfl * hy.timeStep s.h)
    (hfirst : p.timeFirst + ((s.timeId : K) + 1) * p.timeFreq ≤ s.t) :
    iteration p hy c s = .throw "Error: the time step is negative" := by
  have htt : timeTrigger p s (p.cfl * hy.timeStep s.h) = true := by
    simp only [timeTrigger, Bool.and_eq_true, decide_eq_true_eq]
    refine ⟨hF, ?_⟩
    unfold nextTimed
    linarith
  have hle : dtTimed p s (p.cfl * hy.timeStep s.h) ≤ 0 := by
    unfold dtTimed nextTimed
    rw [if_pos htt]
    linarith
  unfold iteration
  rw [decideStep_eq, if_pos ⟨htt, hle⟩]

end C41

section C42
variable [IsStrictOrderedRing K] {p : LoopParams K} {hy : Hydro H K}

theorem runStep_prefix {c : Bool} {r : RunState H K} (l : List (LoopState H K)) :
    runStep p hy c { r with outs := l ++ r.outs } = { runStep p hy c r with outs := l ++ (runStep p hy c r).outs } := by
  obtain ⟨s, outs, st⟩ := r
  cases st with
  | running =>
    simp only [runStep]
    cases iteration p hy c s with
    | ok s out exit => simp only; split <;> simp
    | crash f => simp
    | throw m => rfl
  | finished => rfl
  | failed => rfl

theorem runN_add {clock : ℕ → Bool} {r : RunState H K} (n m : ℕ) :
    runN p hy clock r (n + m) = runN p hy (fun i => clock (n + i)) (runN p hy clock r n) m := by
  induction m with
  | zero => rfl
  | succ m ih => rw [Nat.add_succ, runN, runN, ih]

/-- C42: let a run, fresh or itself a restart, with any parameters and clock, have just written a file (its last file is its
current state) and be going on. A run restarted from that file with the same parameters goes through the same states, times,
iteration numbers, counters and output numbers as the uninterrupted run, and writes the same files, for all later turns.
`resume` (reading the fluid, recomputing, boundary conditions) has to restore the fluid of the file. -/
theorem C42_restart_from_file (resume : H → H) {clock : ℕ → Bool} {r : RunState H K} (n : ℕ) {pre : List (LoopState H K)}
    (hr : (runN p hy clock r n).status = .running)
    (hfile : (runN p hy clock r n).outs = pre ++ [(runN p hy clock r n).s])
    (hres : resume (runN p hy clock r n).s.h = (runN p hy clock r n).s.h) (m : ℕ) :
    let file := (runN p hy clock r n).s
    let again := runN p hy (fun i => clock (n + i)) (restartRun resume file) m
    let ref := runN p hy clock r (n + m)
    again.s = ref.s ∧ again.status = ref.status ∧ ref.outs = (pre ++ [file]) ++ again.outs := by
  intro file again ref
  have key : ∀ m, runN p hy (fun i => clock (n + i)) (runN p hy clock r n) m =
      { runN p hy (fun i => clock (n + i)) (restartRun resume file) m with
        outs := (pre ++ [file]) ++ (runN p hy (fun i => clock (n + i)) (restartRun resume file) m).outs } := by
    intro m
    induction m with
    | zero =>
      have e1 : (restartRun resume file).s = file := by
        simp only [restartRun]
        rw [hres]
      show runN p hy clock r n = { s := (restartRun resume file).s, outs := (pre ++ [file]) ++ [], status := .running }
      rw [e1, List.append_nil, ← hfile, ← hr]
    | succ m ih => rw [runN, ih, runStep_prefix]; rfl
  have href : ref = _ := (runN_add n m).trans (key m)
  rw [href]
  exact ⟨rfl, rfl, rfl⟩

/-- Two loop states that differ at most in the number of the last output. -/
structure SameButNumber (s s' : LoopState H K) : Prop where
  h : s.h = s'.h
  t : s.t = s'.t
  iter : s.iter = s'.iter
  iterId : s.iterId = s'.iterId
  timeId : s.timeId = s'.timeId

theorem SameButNumber.eq {s s' : LoopState H K} (h : SameButNumber s s') : s = { s' with outputId := s.outputId } := by
  cases s
  cases s'
  obtain ⟨h1, h2, h3, h4, h5⟩ := h
  simp only at h1 h2 h3 h4 h5
  subst h1 h2 h3 h4 h5
  rfl

theorem decideStep_congr {dt0 : K} {c : Bool} {s s' : LoopState H K} (h : SameButNumber s s') :
    decideStep p dt0 c s = decideStep p dt0 c s' := by
  rw [h.eq]
  rfl

/-- The number of the output is not used by the loop: shifting it by `k` shifts it for ever, and changes nothing else. -/
theorem runStep_shift {c : Bool} {r r' : RunState H K} {k : ℤ} (hs : SameButNumber r.s r'.s) (hid : r.s.outputId = r'.s.outputId + k)
    (hst : r.status = r'.status) :
    SameButNumber (runStep p hy c r).s (runStep p hy c r').s ∧
      (runStep p hy c r).s.outputId = (runStep p hy c r').s.outputId + k ∧
      (runStep p hy c r).status = (runStep p hy c r').status := by
  by_cases hr : r.status = .running
  · unfold runStep
    rw [← hst, hr]
    simp only [iteration]
    rw [decideStep_congr hs, hs.h]
    cases decideStep p (hy.timeStep r'.s.h) c r'.s with
    | error m => exact ⟨hs, hid, rfl⟩
    | ok D =>
      simp only
      by_cases hb : hy.bad r'.s.h = true
      · simp only [hb, if_true]
        exact ⟨hs, hid, trivial⟩
      · simp only [hb]
        refine ⟨⟨by rw [hs.t]; rfl, by rw [hs.t]; rfl, by rw [hs.iter]; rfl, rfl, rfl⟩, ?_, rfl⟩
        simp only [hid]
        simp only [Bool.false_eq_true, if_false]
        split <;> ring
  · rw [runStep_stopped hr, runStep_stopped (hst ▸ hr)]
    exact ⟨hs, hid, hst⟩

omit [IsStrictOrderedRing K] in
theorem decideStep_limit (M : ℤ) (dt0 : K) (clock : Bool) (s : LoopState H K) :
    decideStep { p with maxIter := M } dt0 clock s =
      if timeTrigger p s (p.cfl * dt0) = true ∧ dtTimed p s (p.cfl * dt0) ≤ 0 then
        .error "Error: the time step is negative"
      else .ok
        { dt := if s.t + dtTimed p s (p.cfl * dt0) ≥ p.tEnd then p.tEnd - s.t else dtTimed p s (p.cfl * dt0)
          makeOutput := iterTrigger p s || timeTrigger p s (p.cfl * dt0) || decide (s.t + dtTimed p s (p.cfl * dt0) ≥ p.tEnd) ||
            decide (s.iter + 1 ≥ M) || clock
          exit := decide (s.t + dtTimed p s (p.cfl * dt0) ≥ p.tEnd) || decide (s.iter + 1 ≥ M) || clock
          iterId := if iterTrigger p s then s.iterId + 1 else s.iterId
          timeId := if timeTrigger p s (p.cfl * dt0) then s.timeId + 1 else s.timeId } :=
  decideStep_eq _ _ _ _

/-- While a run with a stopping criterion goes on, it coincides with the run with a later one. -/
theorem runN_limit {clock : ℕ → Bool} {M : ℤ} (hM : p.maxIter ≤ M) {r : RunState H K} (n : ℕ)
    (hr : (runN p hy clock r n).status = .running) :
    runN { p with maxIter := M } hy (fun _ => false) r n = runN p hy clock r n := by
  induction n with
  | zero => rfl
  | succ n ih =>
    have hn : (runN p hy clock r n).status = .running := by
      by_contra hc
      rw [runN, runStep_stopped hc] at hr
      exact hc hr
    rw [runN, runN, ih hn]
    rcases runStep_running (p := p) (hy := hy) (clock := clock n) hn with ⟨D, hD, hb, e⟩ | ⟨e1, -⟩
    · rw [runN, e] at hr
      simp only at hr
      have hex : D.exit = false := by
        cases hx : D.exit
        · rfl
        · rw [hx] at hr; cases hr
      have hD' : decideStep { p with maxIter := M } (hy.timeStep (runN p hy clock r n).s.h) false (runN p hy clock r n).s = .ok D := by
        rw [decideStep_eq] at hD
        rw [decideStep_limit]
        split at hD
        · cases hD
        · rename_i hthrow
          cases hD
          simp only [Bool.or_eq_false_iff, decide_eq_false_iff_not, not_le, ge_iff_le] at hex
          rw [if_neg hthrow]
          have h1 : clock n = false := hex.2
          have h2 : ¬ (p.maxIter ≤ (runN p hy clock r n).s.iter + 1) := not_le.2 hex.1.2
          have h3 : ¬ (M ≤ (runN p hy clock r n).s.iter + 1) := by omega
          simp only [h1, h2, h3, ge_iff_le, decide_false]
      rw [e]
      unfold runStep
      rw [hn]
      simp only [iteration]
      rw [hD']
      simp only [hb]
      rfl
    · rw [runN, e1] at hr
      cases hr

/-- C42 for a run stopped by the iteration limit or by the wall clock before its end time: restarted from its last file with a
later limit `M`, it goes through the same fluids, times, iteration numbers and trigger counters, and has the same status, as
the run that was given the limit `M` from the beginning. The output numbers agree if the uninterrupted run writes a file at that
iteration too; otherwise they are one larger for ever, because the forced last file took a number. -/
theorem C42_stopped_and_restarted (resume : H → H) {clock : ℕ → Bool} {M : ℤ} (hM : p.maxIter ≤ M) {r : RunState H K} (n : ℕ)
    (hr : (runN p hy clock r n).status = .running)
    (hstop : (runN p hy clock r (n + 1)).status = .finished) (ht : (runN p hy clock r (n + 1)).s.t ≠ p.tEnd)
    (hlim : (runN p hy clock r (n + 1)).s.iter < M)
    (hres : resume (runN p hy clock r (n + 1)).s.h = (runN p hy clock r (n + 1)).s.h) (m : ℕ) :
    let ref := runN { p with maxIter := M } hy (fun _ => false) r
    let again := runN { p with maxIter := M } hy (fun _ => false) (restartRun resume (runN p hy clock r (n + 1)).s) m
    SameButNumber again.s (ref (n + 1 + m)).s ∧ again.status = (ref (n + 1 + m)).status ∧
      again.s.outputId = (ref (n + 1 + m)).s.outputId + (if (ref (n + 1)).outs.length = (ref n).outs.length then 1 else 0) := by
  have hpre : runN { p with maxIter := M } hy (fun _ => false) r n = runN p hy clock r n := runN_limit hM n hr
  simp only
  set A := runN p hy clock r n with hA
  have base : SameButNumber (restartRun resume (runN p hy clock r (n + 1)).s).s (runN { p with maxIter := M } hy (fun _ => false) r (n + 1)).s ∧
      (runN { p with maxIter := M } hy (fun _ => false) r (n + 1)).status = .running ∧
      (runN p hy clock r (n + 1)).s.outputId = (runN { p with maxIter := M } hy (fun _ => false) r (n + 1)).s.outputId +
        (if (runN { p with maxIter := M } hy (fun _ => false) r (n + 1)).outs.length = A.outs.length then 1 else 0) := by
    have hstart : SameButNumber (restartRun resume (runN p hy clock r (n + 1)).s).s (runN p hy clock r (n + 1)).s :=
      ⟨by simp only [restartRun]; exact hres, rfl, rfl, rfl, rfl⟩
    have e0 : runN p hy clock r (n + 1) = runStep p hy (clock n) A := rfl
    have e1 : runN { p with maxIter := M } hy (fun _ => false) r (n + 1) = runStep { p with maxIter := M } hy false A := by
      rw [runN, hpre]
    rw [e0] at hstop ht hlim hstart ⊢
    rw [e1]
    rcases runStep_running (p := p) (hy := hy) (clock := clock n) hr with ⟨D, hD, hb, e⟩ | ⟨e2, -⟩
    · rw [e] at hstop ht hlim hstart ⊢
      simp only [nextState] at ht hlim
      rw [decideStep_eq] at hD
      split at hD
      · cases hD
      rename_i hthrow
      have hge : ¬ (A.s.t + dtTimed p A.s (p.cfl * hy.timeStep A.s.h) ≥ p.tEnd) := by
        intro hge
        cases hD
        simp only [if_pos hge] at ht
        exact ht (by ring)
      have hmax : ¬ (A.s.iter + 1 ≥ M) := not_le.2 hlim
      have hD2 : decideStep { p with maxIter := M } (hy.timeStep A.s.h) false A.s = .ok
          { dt := dtTimed p A.s (p.cfl * hy.timeStep A.s.h), makeOutput := iterTrigger p A.s || timeTrigger p A.s (p.cfl * hy.timeStep A.s.h)
            exit := false, iterId := D.iterId, timeId := D.timeId } := by
        cases hD
        rw [decideStep_limit, if_neg hthrow]
        simp only [decide_eq_false hge, if_neg hge, decide_eq_false hmax, Bool.or_false]
      have hdt : D.dt = dtTimed p A.s (p.cfl * hy.timeStep A.s.h) := by cases hD; exact if_neg hge
      have hmk : D.makeOutput = true := by
        cases hx : D.makeOutput
        · have hx' : D.exit = false := by
            cases hD
            simp only [Bool.or_eq_false_iff] at hx ⊢
            exact ⟨⟨hx.1.1.2, hx.1.2⟩, hx.2⟩
          rw [hx'] at hstop
          cases hstop
        · rfl
      have e3 : runStep { p with maxIter := M } hy false A = ⟨nextState hy A.s
          { dt := dtTimed p A.s (p.cfl * hy.timeStep A.s.h), makeOutput := iterTrigger p A.s || timeTrigger p A.s (p.cfl * hy.timeStep A.s.h)
            exit := false, iterId := D.iterId, timeId := D.timeId },
          if (iterTrigger p A.s || timeTrigger p A.s (p.cfl * hy.timeStep A.s.h)) = true then A.outs ++ [nextState hy A.s
          { dt := dtTimed p A.s (p.cfl * hy.timeStep A.s.h), makeOutput := iterTrigger p A.s || timeTrigger p A.s (p.cfl * hy.timeStep A.s.h)
            exit := false, iterId := D.iterId, timeId := D.timeId }] else A.outs, .running⟩ := by
        unfold runStep
        rw [hr]
        simp only [iteration]
        rw [hD2]
        simp only [hb]
        rfl
      rw [e3]
      refine ⟨⟨hstart.h.trans ?_, hstart.t.trans ?_, hstart.iter.trans ?_, hstart.iterId.trans ?_, hstart.timeId.trans ?_⟩, rfl, ?_⟩
      · simp only [nextState, hdt]
      · simp only [nextState, hdt]
      · rfl
      · rfl
      · rfl
      · simp only [nextState, hmk, if_true]
        cases iterTrigger p A.s || timeTrigger p A.s (p.cfl * hy.timeStep A.s.h) <;> simp
    · rw [e2] at hstop
      cases hstop
  obtain ⟨b1, b2, b3⟩ := base
  rw [← hpre] at b3
  have main : ∀ m, SameButNumber (runN { p with maxIter := M } hy (fun _ => false) (restartRun resume (runN p hy clock r (n + 1)).s) m).s
      (runN { p with maxIter := M } hy (fun _ => false) r (n + 1 + m)).s ∧
      (runN { p with maxIter := M } hy (fun _ => false) (restartRun resume (runN p hy clock r (n + 1)).s) m).s.outputId =
        (runN { p with maxIter := M } hy (fun _ => false) r (n + 1 + m)).s.outputId +
        (if (runN { p with maxIter := M } hy (fun _ => false) r (n + 1)).outs.length = (runN { p with maxIter := M } hy (fun _ => false) r n).outs.length then 1 else 0) ∧
      (runN { p with maxIter := M } hy (fun _ => false) (restartRun resume (runN p hy clock r (n + 1)).s) m).status =
        (runN { p with maxIter := M } hy (fun _ => false) r (n + 1 + m)).status := by
    intro m
    induction m with
    | zero => exact ⟨b1, b3, b2.symm⟩
    | succ m ih =>
      rw [runN, Nat.add_succ, runN]
      exact runStep_shift ih.1 ih.2.1 ih.2.2
  exact ⟨(main m).1, (main m).2.2, (main m).2.1⟩

end C42

section Violation

/-- A fluid without content: CFL steps of 10. -/
def stillHydro : Hydro Unit ℚ := { timeStep := fun _ => 10, bad := fun _ => false, advance := fun h _ _ => h }

/-- Timed outputs at 1, 2, 3, ... until `tEnd`. -/
def timedParams (tEnd : ℚ) : LoopParams ℚ := { cfl := 1, tEnd := tEnd, timeFreq := 1, timeFirst := 1, iterFreq := 0, maxIter := 100 }

/-- C42 is violated when the stopping criterion is the end time: a run until `t = 1/2`, restarted until `t = 3`, never writes the
output due at `t = 1` that the uninterrupted run writes, because the counter of timed outputs is incremented although the step
is then cut at the end time. -/
theorem C42_violated :
    ((runN (timedParams 3) stillHydro (fun _ => false) (freshRun (timedParams 3) 0 ()) 3).outs.map (·.t) = [0, 1, 2, 3]) ∧
    ((runN (timedParams (1 / 2)) stillHydro (fun _ => false) (freshRun (timedParams (1 / 2)) 0 ()) 1).outs.map (·.t) = [0, 1 / 2] ∧
      (runN (timedParams (1 / 2)) stillHydro (fun _ => false) (freshRun (timedParams (1 / 2)) 0 ()) 1).status = .finished) ∧
    ((runN (timedParams 3) stillHydro (fun _ => false) (restartRun id
        (runN (timedParams (1 / 2)) stillHydro (fun _ => false) (freshRun (timedParams (1 / 2)) 0 ()) 1).s) 2).outs.map (·.t) = [2, 3] ∧
      (runN (timedParams 3) stillHydro (fun _ => false) (restartRun id
        (runN (timedParams (1 / 2)) stillHydro (fun _ => false) (freshRun (timedParams (1 / 2)) 0 ()) 1).s) 2).status = .finished) := by
  decide +kernel

/-- The same counter problem for the file dumped before the exception on an invalid internal energy: the counters it holds are
those of the step that was not made, so that a run restarted from it skips a timed output. -/
theorem C42_crash_dump_counters :
    ∃ dump : LoopState Unit ℚ, iteration (timedParams 3) { stillHydro with bad := fun _ => true } false (freshRun (timedParams 3) 0 ()).s = .crash dump ∧
      dump.t = 0 ∧ (runN (timedParams 3) stillHydro (fun _ => false) (restartRun id dump) 2).outs.map (·.t) = [2, 3] := by
  refine ⟨{ h := (), t := 0, iter := 0, outputId := 1, iterId := 0, timeId := 0 }, by decide +kernel, rfl, by decide +kernel⟩

end Violation

section Examples

/-- Iteration outputs every 2 iterations, CFL steps of 1, until `t = 5`: files at iterations 0, 2, 4 and the final one. -/
def iterParams (M : ℤ) : LoopParams ℚ := { cfl := 1 / 10, tEnd := 5, timeFreq := 0, timeFirst := 0, iterFreq := 2, maxIter := M }

example : (runN (iterParams 100) stillHydro (fun _ => false) (freshRun (iterParams 100) 0 ()) 5).outs.map (·.iter) = [0, 2, 4, 5] := by
  decide +kernel

example (n : ℕ) := C39_fresh_run (p := timedParams 3) (hy := stillHydro) (clock := fun n => n == 7) (by decide +kernel)
  (fun _ => by norm_num [stillHydro]) (tIni := 0) (by decide +kernel) () n

example := C39_strictly_increasing (p := timedParams 3) (hy := stillHydro) (clock := fun n => n == 7) (by decide +kernel)
  (fun _ => by norm_num [stillHydro]) (tIni := 0) (by decide +kernel) () 1 (by decide +kernel) (by decide +kernel)

example := C39_late_start (p := iterParams 100) (hy := stillHydro) (s := ⟨(), 7, 3, 2, 1, -1⟩) (by decide +kernel) (by decide +kernel)
  (by decide +kernel) rfl

example := C40_no_multiple_missing (p := iterParams 100) (hy := stillHydro) (clock := fun _ => false) (by decide +kernel) 0 () 5 2
  (by norm_num) (by decide +kernel)

example := C40_only_requested (p := iterParams 100) (hy := stillHydro) (clock := fun _ => false) (by decide +kernel) (by decide +kernel)
  (fun _ => by norm_num [stillHydro]) (tIni := 0) (by decide +kernel) () 3 (by decide +kernel) (by decide +kernel)

example := C40_consecutive_numbers (p := iterParams 100) (hy := stillHydro) (clock := fun _ => false) (by decide +kernel) 0 () 4
  (by decide +kernel)

example (n : ℕ) := C41_exact_times (p := timedParams 3) (hy := stillHydro) (clock := fun _ => false) (by decide +kernel)
  (by decide +kernel) (fun _ => by norm_num [stillHydro]) (tIni := 0) (by decide +kernel) (by decide +kernel) () n

example := C41_first_output_too_early (p := timedParams 3) (hy := stillHydro) (s := ⟨(), 1, 0, 0, 0, -1⟩) (c := false)
  (by decide +kernel) (by decide +kernel) (by decide +kernel)

example := C42_restart_from_file (p := iterParams 100) (hy := stillHydro) id (clock := fun _ => false)
  (r := freshRun (iterParams 100) 0 ()) 2 (pre := [⟨(), 0, 0, 0, 0, -1⟩]) (by decide +kernel) (by decide +kernel) rfl 3

/-- Stopped at iteration 3 (where nothing is due), restarted: the numbers are shifted by one. -/
example := C42_stopped_and_restarted (p := iterParams 3) (hy := stillHydro) id (clock := fun _ => false) (M := 100) (by decide +kernel)
  (r := freshRun (iterParams 3) 0 ()) 2 (by decide +kernel) (by decide +kernel) (by decide +kernel) (by decide +kernel) rfl 2

end Examples

end Heracles

import Verif.Props.Loop
import Mathlib.Data.List.Forall2

/-!
# Runs that correspond to each other
-/

namespace Heracles

variable {H H' K : Type} [Field K] [LinearOrder K] [IsStrictOrderedRing K]

/-- The parameters of the loop with all times multiplied by `T`. -/
def LoopParams.scaleTime (T : K) (p : LoopParams K) : LoopParams K :=
  { p with tEnd := T * p.tEnd, timeFreq := T * p.timeFreq, timeFirst := T * p.timeFirst }

/-- The fluids correspond, the times are in the ratio `T`, the counters are equal. -/
structure LoopState.Related (T : K) (Rel : H → H' → Prop) (s : LoopState H K) (s' : LoopState H' K) : Prop where
  h : Rel s.h s'.h
  t : s'.t = T * s.t
  iter : s'.iter = s.iter
  outputId : s'.outputId = s.outputId
  iterId : s'.iterId = s.iterId
  timeId : s'.timeId = s.timeId

/-- The fluids, the files and the status correspond. -/
structure RunState.Related (T : K) (Rel : H → H' → Prop) (r : RunState H K) (r' : RunState H' K) : Prop where
  s : r.s.Related T Rel r'.s
  outs : List.Forall₂ (LoopState.Related T Rel) r.outs r'.outs
  status : r'.status = r.status

/-- What the loop asks of the fluid respects a correspondence. -/
structure Hydro.Related (T : K) (Rel : H → H' → Prop) (hy : Hydro H K) (hy' : Hydro H' K) : Prop where
  timeStep : ∀ h h', Rel h h' → hy'.timeStep h' = T * hy.timeStep h
  bad : ∀ h h', Rel h h' → hy'.bad h' = hy.bad h
  advance : ∀ h h', Rel h h' → ∀ t dt, Rel (hy.advance h t dt) (hy'.advance h' (T * t) (T * dt))

variable {T : K} {Rel : H → H' → Prop} {hy : Hydro H K} {hy' : Hydro H' K} {p : LoopParams K}

theorem decideStep_related (hT : 0 < T) {s : LoopState H K} {s' : LoopState H' K} (h : s.Related T Rel s') (dt0 : K) (clock : Bool) :
    decideStep (p.scaleTime T) (T * dt0) clock s' =
      match decideStep p dt0 clock s with
      | .error m => .error m
      | .ok D => .ok { D with dt := T * D.dt } := by
  have e0 : (p.scaleTime T).cfl * (T * dt0) = T * (p.cfl * dt0) := by
    show p.cfl * (T * dt0) = _
    ring
  have e1 : iterTrigger (p.scaleTime T) s' = iterTrigger p s := by
    unfold iterTrigger
    rw [h.iter, h.iterId]
    rfl
  have e2 : nextTimed (p.scaleTime T) s' = T * nextTimed p s := by
    unfold nextTimed
    rw [h.timeId]
    show T * p.timeFirst + _ * (T * p.timeFreq) = _
    ring
  have e3 : ∀ dt, timeTrigger (p.scaleTime T) s' (T * dt) = timeTrigger p s dt := fun dt => by
    unfold timeTrigger
    rw [e2, h.t, ← mul_add]
    show (decide (0 < T * p.timeFreq) && decide (T * (s.t + dt) ≥ T * nextTimed p s)) = _
    rw [Bool.eq_iff_iff]
    simp only [Bool.and_eq_true, decide_eq_true_eq, ge_iff_le, mul_pos_iff_of_pos_left hT, mul_le_mul_iff_right₀ hT]
  have e4 : ∀ dt, dtTimed (p.scaleTime T) s' (T * dt) = T * dtTimed p s dt := fun dt => by
    unfold dtTimed
    rw [e3, e2, h.t]
    split_ifs
    · ring
    · rfl
  rw [decideStep_eq, decideStep_eq, e0, e3, e4]
  have c1 : (T * dtTimed p s (p.cfl * dt0) ≤ 0) = (dtTimed p s (p.cfl * dt0) ≤ 0) := propext (by
    conv_lhs => rw [← mul_zero T]
    exact mul_le_mul_iff_right₀ hT)
  have c2 : (s'.t + T * dtTimed p s (p.cfl * dt0) ≥ (p.scaleTime T).tEnd) = (s.t + dtTimed p s (p.cfl * dt0) ≥ p.tEnd) := propext (by
    rw [h.t, ← mul_add]
    exact mul_le_mul_iff_right₀ hT)
  simp only [c1, c2, e1]
  by_cases hb : timeTrigger p s (p.cfl * dt0) = true ∧ dtTimed p s (p.cfl * dt0) ≤ 0
  · rw [if_pos hb, if_pos hb]
  · rw [if_neg hb, if_neg hb, h.iter, h.iterId, h.timeId]
    simp only [h.t]
    refine congrArg Except.ok ?_
    have : (if s.t + dtTimed p s (p.cfl * dt0) ≥ p.tEnd then (p.scaleTime T).tEnd - T * s.t else T * dtTimed p s (p.cfl * dt0)) =
        T * (if s.t + dtTimed p s (p.cfl * dt0) ≥ p.tEnd then p.tEnd - s.t else dtTimed p s (p.cfl * dt0)) := by
      split_ifs
      · show T * p.tEnd - T * s.t = _
        ring
      · rfl
    rw [this]
    rfl

/-- What the loop asks of the fluid respects a correspondence in one turn of a run. -/
structure Hydro.RelatedAt (T : K) (Rel : H → H' → Prop) (hy : Hydro H K) (hy' : Hydro H' K) (p : LoopParams K) (clock : Bool)
    (s : LoopState H K) (h' : H') : Prop where
  timeStep : hy'.timeStep h' = T * hy.timeStep s.h
  bad : hy'.bad h' = hy.bad s.h
  advance : ∀ D, decideStep p (hy.timeStep s.h) clock s = .ok D → Rel (hy.advance s.h s.t D.dt) (hy'.advance h' (T * s.t) (T * D.dt))

theorem Hydro.Related.at (hh : hy.Related T Rel hy') (p : LoopParams K) (clock : Bool) {s : LoopState H K} {h' : H'} (h : Rel s.h h') :
    hy.RelatedAt T Rel hy' p clock s h' :=
  ⟨hh.timeStep _ _ h, hh.bad _ _ h, fun _ _ => hh.advance _ _ h _ _⟩

theorem runStep_related (hT : 0 < T) {r : RunState H K} {r' : RunState H' K} (h : r.Related T Rel r') (clock : Bool)
    (hh : r.status = .running → hy.RelatedAt T Rel hy' p clock r.s r'.s.h) :
    (runStep p hy clock r).Related T Rel (runStep (p.scaleTime T) hy' clock r') := by
  by_cases hr : r.status = .running
  · replace hh := hh hr
    unfold runStep
    rw [h.status, hr]
    simp only [iteration]
    rw [hh.timeStep, decideStep_related hT h.s, hh.bad]
    cases hD : decideStep p (hy.timeStep r.s.h) clock r.s with
    | error m => exact ⟨h.s, h.outs, rfl⟩
    | ok D =>
      simp only
      by_cases hb : hy.bad r.s.h = true
      · simp only [hb, if_true]
        refine ⟨h.s, ?_, rfl⟩
        exact List.rel_append h.outs (.cons ⟨h.s.h, h.s.t, h.s.iter, by rw [h.s.outputId], rfl, rfl⟩ .nil)
      · simp only [hb, if_false, Bool.false_eq_true]
        have hs : LoopState.Related T Rel
            { h := hy.advance r.s.h r.s.t D.dt, t := r.s.t + D.dt, iter := r.s.iter + 1, outputId := if D.makeOutput then r.s.outputId + 1 else r.s.outputId, iterId := D.iterId, timeId := D.timeId }
            { h := hy'.advance r'.s.h r'.s.t (T * D.dt), t := r'.s.t + T * D.dt, iter := r'.s.iter + 1, outputId := if D.makeOutput then r'.s.outputId + 1 else r'.s.outputId, iterId := D.iterId, timeId := D.timeId } := by
          refine ⟨?_, ?_, ?_, ?_, rfl, rfl⟩
          · rw [h.s.t]
            exact hh.advance D hD
          · show r'.s.t + T * D.dt = T * (r.s.t + D.dt)
            rw [h.s.t]
            ring
          · show r'.s.iter + 1 = r.s.iter + 1
            rw [h.s.iter]
          · show (if D.makeOutput then r'.s.outputId + 1 else r'.s.outputId) = _
            rw [h.s.outputId]
        refine ⟨hs, ?_, rfl⟩
        show List.Forall₂ _ (if D.makeOutput = true then r.outs ++ [_] else r.outs) (if D.makeOutput = true then r'.outs ++ [_] else r'.outs)
        generalize { h := hy.advance r.s.h r.s.t D.dt, t := r.s.t + D.dt, iter := r.s.iter + 1, outputId := if D.makeOutput then r.s.outputId + 1 else r.s.outputId, iterId := D.iterId, timeId := D.timeId : LoopState H K } = x at hs ⊢
        generalize { h := hy'.advance r'.s.h r'.s.t (T * D.dt), t := r'.s.t + T * D.dt, iter := r'.s.iter + 1, outputId := if D.makeOutput then r'.s.outputId + 1 else r'.s.outputId, iterId := D.iterId, timeId := D.timeId : LoopState H' K } = y at hs ⊢
        by_cases hm : D.makeOutput = true
        · rw [if_pos hm, if_pos hm]
          exact List.rel_append h.outs (.cons hs .nil)
        · rw [if_neg hm, if_neg hm]
          exact h.outs
  · rw [runStep_stopped hr, runStep_stopped (by rw [h.status]; exact hr)]
    exact h

/-- Corresponding runs correspond after any number of turns. -/
theorem runN_related (hT : 0 < T) (hh : hy.Related T Rel hy') {r : RunState H K} {r' : RunState H' K} (h : r.Related T Rel r')
    (clock : ℕ → Bool) (k : ℕ) : (runN p hy clock r k).Related T Rel (runN (p.scaleTime T) hy' clock r' k) := by
  induction k with
  | zero => exact h
  | succ k ih => exact runStep_related hT ih (clock k) fun _ => hh.at p (clock k) ih.s.h

/-- The same when the correspondence is respected in the turns of the run. -/
theorem runN_related_along (hT : 0 < T) {r : RunState H K} {r' : RunState H' K} (h : r.Related T Rel r') (clock : ℕ → Bool) (k : ℕ)
    (hh : ∀ j < k, (runN p hy clock r j).status = .running → ∀ h', Rel (runN p hy clock r j).s.h h' →
      hy.RelatedAt T Rel hy' p (clock j) (runN p hy clock r j).s h') :
    (runN p hy clock r k).Related T Rel (runN (p.scaleTime T) hy' clock r' k) := by
  induction k with
  | zero => exact h
  | succ k ih =>
    have := ih fun j hj => hh j (by omega)
    exact runStep_related hT this (clock k) fun hr => hh k (by omega) hr _ this.s.h

theorem freshRun_related (hT : 0 < T) {h : H} {h' : H'} (hr : Rel h h') (t : K) :
    (freshRun p t h).Related T Rel (freshRun (p.scaleTime T) (T * t) h') := by
  have e : (0 < (p.scaleTime T).iterFreq ∨ 0 < (p.scaleTime T).timeFreq) = (0 < p.iterFreq ∨ 0 < p.timeFreq) := propext (by
    show 0 < p.iterFreq ∨ 0 < T * p.timeFreq ↔ _
    rw [mul_pos_iff_of_pos_left hT])
  unfold freshRun
  simp only [e]
  by_cases hf : 0 < p.iterFreq ∨ 0 < p.timeFreq
  · rw [if_pos hf, if_pos hf]
    exact ⟨⟨hr, rfl, rfl, rfl, rfl, rfl⟩, .cons ⟨hr, rfl, rfl, rfl, rfl, rfl⟩ .nil, rfl⟩
  · rw [if_neg hf, if_neg hf]
    exact ⟨⟨hr, rfl, rfl, rfl, rfl, rfl⟩, .nil, rfl⟩

end Heracles

import Verif.Model.DualView
import Mathlib.Tactic.Linarith

/-!
# C46 The host / device mirror returns the latest write
-/

namespace Heracles

open Dual

variable {V : Type}

/-- Specification: one memory. The values seen by the same operations on a single variable. -/
def oneMemory (x : V) : List (Op V) → V × List (Option V)
  | [] => (x, [])
  | .read _ :: os => let q := oneMemory x os; (q.1, some x :: q.2)
  | .update _ f :: os => let q := oneMemory (f x) os; (q.1, some x :: q.2)
  | .overwrite _ v :: os => let q := oneMemory v os; (q.1, none :: q.2)

/-- The side with the larger flag holds the latest value; with equal flags both do. Flags are at most `n`. -/
structure Mirror (d : DualView V) (x : V) (n : ℕ) : Prop where
  dev : d.flagHost ≤ d.flagDevice → d.device = x
  host : d.flagDevice ≤ d.flagHost → d.host = x
  bound : d.flagDevice ≤ n ∧ d.flagHost ≤ n

theorem Mirror.sync {d : DualView V} {x : V} {n : ℕ} (h : Mirror d x n) (t : Target) :
    Mirror (synchronize d t) x n ∧ (synchronize d t).get t = x ∧
      (match t with
       | .device => (synchronize d t).flagHost ≤ (synchronize d t).flagDevice
       | .host => (synchronize d t).flagDevice ≤ (synchronize d t).flagHost) := by
  cases t
  · by_cases hn : d.flagHost < d.flagDevice
    · have e : synchronize d .host = clear { d with host := d.device } := by simp [synchronize, needSync, hn]
      rw [e]
      exact ⟨⟨fun _ => h.dev hn.le, fun _ => h.dev hn.le, Nat.zero_le _, Nat.zero_le _⟩, h.dev hn.le, le_rfl⟩
    · have e : synchronize d .host = d := by simp [synchronize, needSync, hn]
      rw [e]
      exact ⟨h, h.host (not_lt.1 hn), not_lt.1 hn⟩
  · by_cases hn : d.flagDevice < d.flagHost
    · have e : synchronize d .device = clear { d with device := d.host } := by simp [synchronize, needSync, hn]
      rw [e]
      exact ⟨⟨fun _ => h.host hn.le, fun _ => h.host hn.le, Nat.zero_le _, Nat.zero_le _⟩, h.host hn.le, le_rfl⟩
    · have e : synchronize d .device = d := by simp [synchronize, needSync, hn]
      rw [e]
      exact ⟨h, h.dev (not_lt.1 hn), not_lt.1 hn⟩

/-- Marking a side and storing in it makes it the latest, as long as the flags stay in range. -/
theorem Mirror.write {d : DualView V} {n : ℕ} (hb : d.flagDevice ≤ n ∧ d.flagHost ≤ n) (hn : n + 1 < uintSize) (t : Target) (v : V) :
    Mirror ((markModified d t).set t v) v (n + 1) ∧ ((markModified d t).get t = d.get t) := by
  have hm : (max d.flagHost d.flagDevice + 1) % uintSize = max d.flagHost d.flagDevice + 1 :=
    Nat.mod_eq_of_lt (by omega)
  cases t
  · refine ⟨⟨fun h => ?_, fun _ => rfl, ?_, ?_⟩, rfl⟩
    · simp only [markModified, DualView.set, hm] at h
      omega
    · simp only [markModified, DualView.set]
      omega
    · simp only [markModified, DualView.set, hm]
      omega
  · refine ⟨⟨fun _ => rfl, fun h => ?_, ?_, ?_⟩, rfl⟩
    · simp only [markModified, DualView.set, hm] at h
      omega
    · simp only [markModified, DualView.set, hm]
      omega
    · simp only [markModified, DualView.set]
      omega

theorem execAll_oneMemory (os : List (Op V)) {d : DualView V} {x : V} {n : ℕ} (h : Mirror d x n) (hn : n + os.length < uintSize) :
    (execAll d os).2 = (oneMemory x os).2 ∧ Mirror (execAll d os).1 (oneMemory x os).1 (n + os.length) := by
  induction os generalizing d x n with
  | nil => exact ⟨rfl, h⟩
  | cons o os ih =>
    rw [List.length_cons] at hn
    cases o with
    | read t =>
      obtain ⟨h1, h2, -⟩ := h.sync t
      have h1' : Mirror (exec d (.read t)).1 x (n + 1) := ⟨h1.dev, h1.host, h1.bound.1.trans (Nat.le_succ _), h1.bound.2.trans (Nat.le_succ _)⟩
      obtain ⟨i1, i2⟩ := ih h1' (by omega)
      refine ⟨?_, ?_⟩
      · show some ((synchronize d t).get t) :: _ = some x :: _
        rw [h2]
        exact congrArg _ i1
      · rw [List.length_cons, show n + (os.length + 1) = n + 1 + os.length by omega]
        exact i2
    | update t f =>
      obtain ⟨h1, h2, -⟩ := h.sync t
      obtain ⟨w1, w2⟩ := Mirror.write h1.bound (by omega) t (f x)
      have e : exec d (.update t f) = ((markModified (synchronize d t) t).set t (f x), some x) := by
        show ((markModified (synchronize d t) t).set t (f ((markModified (synchronize d t) t).get t)),
          some ((markModified (synchronize d t) t).get t)) = _
        rw [w2, h2]
      obtain ⟨i1, i2⟩ := ih (d := (exec d (.update t f)).1) (by rw [e]; exact w1) (by omega)
      refine ⟨?_, ?_⟩
      · show (exec d (.update t f)).2 :: _ = some x :: _
        rw [i1, e]
      · rw [List.length_cons, show n + (os.length + 1) = n + 1 + os.length by omega]
        exact i2
    | overwrite t v =>
      obtain ⟨w1, -⟩ := Mirror.write h.bound (by omega) t v
      obtain ⟨i1, i2⟩ := ih (d := (exec d (.overwrite t v)).1) w1 (by omega)
      refine ⟨congrArg _ i1, ?_⟩
      rw [List.length_cons, show n + (os.length + 1) = n + 1 + os.length by omega]
      exact i2

/-- C46: on a new dual view, for every sequence of fewer than 2^32 accesses on either side, every access that reads returns what
a single memory would: the value left by the most recent write, whichever side made it. -/
theorem C46_latest_write (zero : V) (os : List (Op V)) (hn : os.length < 4294967296) :
    (execAll (Dual.mk zero) os).2 = (oneMemory zero os).2 :=
  (execAll_oneMemory os (n := 0) ⟨fun _ => rfl, fun _ => rfl, le_rfl, le_rfl⟩ (by simpa [uintSize] using hn)).1

/-- C46: the bound is on accesses since the last copy: reading the other side of a dual view in any consistent state leaves
both flags at zero if a copy was made, so that the count starts again. -/
theorem C46_copy_resets {d : DualView V} (t : Target) (h : needSync d t = true) :
    (access d t .readOnly).flagDevice = 0 ∧ (access d t .readOnly).flagHost = 0 ∧ (access d t .readOnly).device = (access d t .readOnly).host := by
  have : access d t .readOnly = synchronize d t := rfl
  rw [this]
  unfold synchronize
  rw [if_pos h]
  cases t <;> exact ⟨rfl, rfl, rfl⟩

theorem deviceWrites (v : ℕ → V) (zero : V) (n : ℕ) (hn : n < uintSize) :
    (execAll (Dual.mk zero) ((List.range n).map fun i => Op.overwrite .device (v i))).1 =
      ⟨n, 0, if n = 0 then zero else v (n - 1), zero⟩ := by
  have happ : ∀ (d : DualView V) (a b : List (Op V)), (execAll d (a ++ b)).1 = (execAll (execAll d a).1 b).1 := by
    intro d a b
    induction a generalizing d with
    | nil => rfl
    | cons o a ih => exact ih _
  induction n with
  | zero => rfl
  | succ n ih =>
    rw [List.range_succ, List.map_append, happ, ih (by omega)]
    have hm : (n + 1) % uintSize = n + 1 := Nat.mod_eq_of_lt hn
    simp [execAll, exec, access, hasRead, hasWrite, markModified, DualView.set, hm]

/-- C46, limit of the claim: after 2^32 writes on the device (one per iteration of the time loop) without any access from the
host, the flag has wrapped around and the host reads the value of before all of them. -/
theorem C46_counter_wraps (v : ℕ → V) (zero : V) :
    (execAll (Dual.mk zero) ((List.range 4294967296).map fun i => Op.overwrite .device (v i))).1.flagDevice = 0 ∧
      (exec (execAll (Dual.mk zero) ((List.range 4294967296).map fun i => Op.overwrite .device (v i))).1 (.read .host)).2 = some zero := by
  have happ : ∀ (d : DualView V) (a b : List (Op V)), (execAll d (a ++ b)).1 = (execAll (execAll d a).1 b).1 := by
    intro d a b
    induction a generalizing d with
    | nil => rfl
    | cons o a ih => exact ih _
  have h : (execAll (Dual.mk zero) ((List.range 4294967296).map fun i => Op.overwrite .device (v i))).1 =
      ⟨0, 0, v 4294967295, zero⟩ := by
    rw [show (4294967296 : ℕ) = 4294967295 + 1 from rfl, List.range_succ, List.map_append, happ, deviceWrites v zero _ (by decide)]
    simp [execAll, exec, access, hasRead, hasWrite, markModified, DualView.set, uintSize]
  rw [h]
  exact ⟨rfl, rfl⟩

/-- Writing on the device, reading on the host, updating on the host, reading on the device. -/
example : (execAll (Dual.mk 0) [.overwrite .device 5, .read .host, .update .host (· + 2), .update .device (· * 10), .read .host]).2 =
    [none, some 5, some 5, some 7, some 70] := by decide

example := C46_latest_write (0 : ℕ) [.overwrite .device 5, .read .host, .update .host (· + 2), .update .device (· * 10), .read .host]
  (by decide)

example := C46_copy_resets (d := ⟨3, 1, 7, 8⟩) .host (by decide)

end Heracles

import Verif.Model.Messages

/-!
# Processes in step

All ranks arrive at the same call, it happens, all continue: this is how the other model files put the ranks together.
-/

namespace Heracles

variable {R M X S : Type}

/-- All ranks together perform their next call. In an exchange every rank receives from the rank that sends to it, with the same
tag; in a collective operation all ranks are in the same one. -/
inductive LockStep (P : R → S → Act R M X S) (s : R → S) : (R → S) → Prop
  | exch (dst src : R → R) (tag : R → ℕ) (msg : R → M) (k : R → M → S)
    (h : ∀ r, P r (s r) = .exch (dst r) (src r) (tag r) (msg r) (k r)) (hd : ∀ r, src (dst r) = r) (hs : ∀ r, dst (src r) = r)
    (ht : ∀ r, tag (src r) = tag r) : LockStep P s fun r => k r (msg (src r))
  | coll (kind : ℕ) (x : R → X) (needs : R → R → Bool) (k : R → (R → X) → S)
    (h : ∀ r, P r (s r) = .coll kind (x r) (needs r) (k r)) :
    LockStep P s fun r => k r fun q => if needs r q then x q else x r

/-- `n` calls, one after the other. -/
inductive LockSteps (P : R → S → Act R M X S) (s : R → S) : ℕ → (R → S) → Prop
  | zero : LockSteps P s 0 s
  | succ {n : ℕ} {s' s'' : R → S} (h : LockSteps P s n s') (h' : LockStep P s' s'') : LockSteps P s (n + 1) s''

end Heracles

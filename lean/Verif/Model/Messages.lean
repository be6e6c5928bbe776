import Mathlib.Data.List.Basic
import Mathlib.Logic.Function.Basic

/-!
# Processes that run on their own

MPI processes do not run in step: each computes at its own pace until it needs a message. Here a rank is a deterministic program
that stops in front of each call of MPI, and the network goes from state to state by what one rank does at a time. The calls the
code uses are `MPI_Sendrecv_replace` (src/boundary_distribute.cpp 108) and collective ones: `MPI_Allreduce` (src/hydro/time_step.hpp
79, src/analysis/internal_energy.cpp 42, src/analysis/integration.cpp 34, src/gravity/gravity.cpp 92-93), `MPI_Bcast` (src/main.cpp
390), `MPI_Barrier` (src/main.cpp 349, 564) and the collective writes of HDF5 behind `PDI_multi_expose` (src/io/io.cpp).

Simplifications: the collective calls of all communicators form one sequence (the code only uses `comm_cart` and
`comm_cart_horizontal`, the latter where it has the same ranks); a receive names its source and tag (there is no wildcard in the
code); messages between two ranks with one tag do not overtake each other (as MPI guarantees).
-/

namespace Heracles

variable {R M X S : Type}

/-- What a rank does next: it has ended, it has failed (undefined behaviour), it calls `MPI_Sendrecv_replace` with a buffer `msg`
for `dst` and continues with the buffer received from `src`, or it calls a collective operation. In the latter it contributes `x`
and continues with the contributions of the ranks it needs (all of them for `MPI_Allreduce`, the root for `MPI_Bcast`); `kind`
tells which call it is. -/
inductive Act (R M X S : Type) where
  | stop
  | fail
  | exch (dst src : R) (tag : ℕ) (msg : M) (k : M → S)
  | coll (kind : ℕ) (x : X) (needs : R → Bool) (k : (R → X) → S)

/-- The state of the network: the state of each rank in front of its current call, whether it has entered the call, the buffer it
has received in it; the messages under way from one rank to another with one tag, in the order they were sent; what each rank has
contributed to the collective operations so far. -/
structure Net (R M X S : Type) where
  st : R → S
  posted : R → Bool
  got : R → Option M
  chan : R → R → ℕ → List M
  log : R → List (ℕ × X)

/-- All ranks before their first call. -/
def Net.start (s : R → S) : Net R M X S :=
  { st := s, posted := fun _ => false, got := fun _ => none, chan := fun _ _ _ => [], log := fun _ => [] }

section
variable [DecidableEq R]

/-- Replace the messages under way from `r` to `q` with tag `t`. -/
def setChan (C : R → R → ℕ → List M) (r q : R) (t : ℕ) (l : List M) : R → R → ℕ → List M :=
  fun r' q' t' => if r' = r ∧ q' = q ∧ t' = t then l else C r' q' t'

/-- One step of one rank. With `eager` the library may buffer: a rank leaves `MPI_Sendrecv_replace` when it has its buffer,
although its own message has not been received yet, and a collective operation when the contributions it needs are there, although
other ranks have not entered it. Without, it waits. MPI allows both, for each call. -/
inductive NetStep (P : R → S → Act R M X S) (eager : Bool) (N : Net R M X S) : Net R M X S → Prop
  | post {r dst src : R} {tag : ℕ} {msg : M} {k : M → S} (hp : N.posted r = false) (ha : P r (N.st r) = .exch dst src tag msg k) :
    NetStep P eager N { N with posted := Function.update N.posted r true
                               chan := setChan N.chan r dst tag (N.chan r dst tag ++ [msg]) }
  | recv {r dst src : R} {tag : ℕ} {msg m : M} {q : List M} {k : M → S} (hp : N.posted r = true)
    (ha : P r (N.st r) = .exch dst src tag msg k) (hg : N.got r = none) (hc : N.chan src r tag = m :: q) :
    NetStep P eager N { N with got := Function.update N.got r (some m), chan := setChan N.chan src r tag q }
  | done {r dst src : R} {tag : ℕ} {msg m : M} {k : M → S} (hp : N.posted r = true) (ha : P r (N.st r) = .exch dst src tag msg k)
    (hg : N.got r = some m) (he : eager = true ∨ N.chan r dst tag = []) :
    NetStep P eager N { N with st := Function.update N.st r (k m), posted := Function.update N.posted r false
                               got := Function.update N.got r none }
  | enter {r : R} {kind : ℕ} {x : X} {needs : R → Bool} {k : (R → X) → S} (hp : N.posted r = false)
    (ha : P r (N.st r) = .coll kind x needs k) :
    NetStep P eager N { N with posted := Function.update N.posted r true
                               log := Function.update N.log r (N.log r ++ [(kind, x)]) }
  | leave {r : R} {kind : ℕ} {x : X} {needs : R → Bool} {k : (R → X) → S} {f : R → X} (hp : N.posted r = true)
    (ha : P r (N.st r) = .coll kind x needs k)
    (hf : ∀ q, needs q = true → (N.log q)[(N.log r).length - 1]? = some (kind, f q)) (hn : ∀ q, needs q = false → f q = x)
    (he : eager = true ∨ ∀ q, (N.log r).length ≤ (N.log q).length) :
    NetStep P eager N { N with st := Function.update N.st r (k f), posted := Function.update N.posted r false }

/-- `m` steps. -/
inductive NetSteps (P : R → S → Act R M X S) (eager : Bool) (N : Net R M X S) : ℕ → Net R M X S → Prop
  | zero : NetSteps P eager N 0 N
  | succ {m : ℕ} {N' N'' : Net R M X S} (h : NetSteps P eager N m N') (h' : NetStep P eager N' N'') : NetSteps P eager N (m + 1) N''

end

end Heracles

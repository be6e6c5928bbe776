import Verif.Model.RankProgram

/-!
# What the ranks hold together
-/

namespace Heracles

variable {d n : ℕ}

/-- The contributions `g` of the ranks make up the file `f`. -/
def IsFileOf (A : Machine d n) (nx : Cell) (nAxis : Fin 3 → ℤ) (x : Fin 3 → ℤ → ℝ) (g : Rank A.dims → LoopState (RankFile d n) ℝ)
    (f : LoopState (FluidFile d n) ℝ) : Prop :=
  ∃ (D : DistView (Fields d n ℝ)) (up : Cell → View Cell (VelPres d ℝ)) (T : Cell → View Cell ℝ),
    (∀ r, g r = f.withFluid { U := D.local r.1, up := up r.1, T := T r.1 }) ∧ writeFluid A nx nAxis x D up T = some f.h

/-- The ranks hold the state `z` of a run: each its grid, its part of the fields and the loop variables, each with the same end; what they
have written are the files. -/
def RanksHold (A : Machine d n) (nx : Cell) (v : Rank A.dims → RankVars d n) (z : ProgState d n) : Prop :=
  (∀ r, (v r).grid = z.grid r.1 ∧ (v r).s = z.s.withFluid (z.s.h.local r.1) ∧ (v r).status = z.status) ∧
  ∃ W : List (Rank A.dims → LoopState (RankFile d n) ℝ),
    (∀ r, (v r).written = W.map fun g => g r) ∧ List.Forall₂ (IsFileOf A nx z.nAxis z.x) W z.files

/-- The link between the gravity of a rank and the gravity of the program on all ranks. -/
def GravLink (e : RankEnv d n) : Prop :=
  ∀ D r, e.A.grav D r.1 = e.gravOf r fun q => D.local (if e.massGrav then q.1 else r.1)

/-- What is claimed of the executions from the states `s0` of the ranks: their length is bounded; in whatever state one of them is, some
rank can go on, even if the library buffers nothing, or else all ranks have ended, hold the state `z`, and no message is left. -/
def EveryExecution (e : RankEnv d n) (nx : Cell) (s0 : Rank e.A.dims → RankState d n) (z : ProgState d n) : Prop :=
  ∃ (B : ℕ) (v : Rank e.A.dims → RankVars d n), RanksHold e.A nx v z ∧ ∀ eager m N, NetSteps e.next eager (Net.start s0) m N →
    m ≤ B ∧ ((∃ N', NetStep e.next false N N') ∨ ((∀ r, N.st r = some (.ended, v r)) ∧ ∀ r q t, N.chan r q t = []))

end Heracles

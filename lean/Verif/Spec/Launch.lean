import Verif.Model.Launch

/-!
What is asked of a command line and of the use of resources, without reference to how the program
goes about it.
-/

namespace Heracles

/-- `v` is what the last argument of the form `--pdi-config=v` says. -/
def LastOption (args : List Str) (v : Str) : Prop :=
  ∃ before after, args = before ++ ("--pdi-config=".toList ++ v) :: after
    ∧ ∀ a ∈ after, ¬ "--pdi-config=".toList <+: a

/-- No resource is given back more often than it was taken, at any time. -/
def NeverTooMany (tr : List ResAct) : Prop :=
  ∀ pre, pre <+: tr → ∀ r, pre.count (.give r) ≤ pre.count (.take r)

/-- At the end the resource has been given back as often as it was taken. -/
def GivenBack (tr : List ResAct) (r : Resource) : Prop :=
  tr.count (.give r) = tr.count (.take r)

/-- Nothing is taken or given back outside of the life of MPI: either nothing happens at all, or
taking it is the first act and giving it back the last one. -/
def InsideMpi (tr : List ResAct) : Prop :=
  tr = [] ∨ ∃ mid, tr = .take .mpi :: mid ++ [.give .mpi] ∧ .take .mpi ∉ mid ∧ .give .mpi ∉ mid

end Heracles

import Mathlib.Data.Fintype.Pi
import Mathlib.Data.Int.Interval
import Mathlib.Data.Fin.VecNotation

/-!
# Memory and parallel loops

Common vocabulary for the models of the Kokkos kernels: array views whose accesses are checked
(an access outside the extents, undefined behaviour in C++, is the distinct outcome `none`), and
parallel loops as sequential executions of the loop body in an arbitrary order.
-/

namespace Heracles

/-- Index `(i, j, k)` of a cell or node of a 3-dimensional array.  Arrays always have three space
indices, whatever `ndim` (src/main.cpp 187-205). -/
abbrev Cell := Fin 3 → ℤ

/-- A Kokkos view: the set of indices inside its extents and its contents
(src/utils/kokkos_shortcut.hpp 20-58, aliases `KV_double_*`). Layout and memory space are not
modelled; several views asserted to have equal extents may be packed in one view of structures. -/
structure View (ι K : Type) where
  dom : ι → Bool
  val : ι → K

namespace View
variable {ι K : Type}

/-- Checked read access `v(i)`; reading outside the extents is undefined behaviour: `none`. -/
def rd (v : View ι K) (i : ι) : Option K := if v.dom i then some (v.val i) else none

/-- Checked write access `v(i) = y`. -/
def wr [DecidableEq ι] (v : View ι K) (i : ι) (y : K) : Option (View ι K) :=
  if v.dom i then some { v with val := Function.update v.val i y } else none

end View

/-- `0 ≤ c < ext` componentwise: the index is inside an array of extents `ext`. -/
def inExt (ext : Cell) (c : Cell) : Bool := decide (∀ a, 0 ≤ c a ∧ c a < ext a)

/-- `b ≤ c < e` componentwise: membership in the half-open box of a
`Kokkos::MDRangePolicy<Rank<3>>(b, e)` (src/mesh/range.cpp 137-141). -/
def inBox (b e : Cell) (c : Cell) : Prop := ∀ a, b a ≤ c a ∧ c a < e a

instance (b e c : Cell) : Decidable (inBox b e c) := by unfold inBox; infer_instance

/-- `l` is one possible execution order of a parallel loop over the box `[b, e)`: every index of
the box exactly once and nothing else. -/
def IsSchedule (l : List Cell) (b e : Cell) : Prop := l.Nodup ∧ ∀ c, c ∈ l ↔ inBox b e c

/-- `Kokkos::parallel_for`: the iterations are executed one after the other in the order `l`. The
functor may fail (`none`) when it performs an access out of bounds. Interleavings of two iterations
at a finer grain than an iteration are not modelled. -/
def parFor {ι S : Type} (l : List ι) (body : ι → S → Option S) (s : S) : Option S :=
  l.foldlM (fun s i => body i s) s

/-- The integers of `[b, e)` in increasing order. -/
def intRange (b e : ℤ) : List ℤ := (List.range (e - b).toNat).map (fun n : ℕ => b + (n : ℤ))

/-- The order in which a host loop nest would visit the box (first index slowest here).  Only used to
show that schedules exist and to build concrete examples. -/
def boxList (b e : Cell) : List Cell :=
  (intRange (b 0) (e 0)).flatMap fun i =>
    (intRange (b 1) (e 1)).flatMap fun j =>
      (intRange (b 2) (e 2)).map fun k => ![i, j, k]

end Heracles

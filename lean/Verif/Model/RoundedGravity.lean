import Verif.Model.Ordered
import Verif.Model.Gravity

/-!
# Sums over processes and threads with open arithmetic

`integrate` (src/analysis/integration.cpp) and `make_internal_mass_gravity` (src/gravity/gravity.cpp) as in Model/Reduce and
Model/Gravity, operation by operation, with the order in which partial sums are joined as a parameter: additions of `double`s can
not be regrouped.
-/

namespace Heracles

/-- How partial results are joined: any binary tree. -/
inductive JoinTree (ι : Type) where
  | leaf (i : ι) : JoinTree ι
  | node (l r : JoinTree ι) : JoinTree ι

namespace JoinTree
variable {ι F : Type}

/-- The contributions, from left to right. -/
def leaves : JoinTree ι → List ι
  | leaf i => [i]
  | node l r => l.leaves ++ r.leaves

/-- The number of joins a contribution goes through, at most. -/
def depth : JoinTree ι → ℕ
  | leaf _ => 0
  | node l r => max l.depth r.depth + 1

/-- `Kokkos::parallel_reduce` joins the partial results of the workers, `MPI_Allreduce` those of the ranks. -/
def reduce (op : F → F → F) (f : ι → Option F) : JoinTree ι → Option F
  | leaf i => f i
  | node l r => do
    let x ← l.reduce op f
    let y ← r.reduce op f
    return op x y

end JoinTree

open Arith

variable {F : Type} [Arith F]

/-- src/analysis/integration.cpp 22-37: `integrate`, executed by all ranks together (`integrate`). A worker starts from 0 and adds
its cells in order. -/
def oIntegrate {R : Type} (ranks : JoinTree R) (parts : R → JoinTree (List Cell)) (dv var : R → View Cell F) : Option F :=
  ranks.reduce (· + ·) fun r => (parts r).reduce (· + ·) fun l => parFor l (fun c s => do
    let x ← (var r).rd c
    let y ← (dv r).rd c
    return s + x * y) 0

/-- `ShellRank` with a tree of workers. -/
structure OShellRank (F : Type) where
  rho : View Cell F
  dv : View Cell F
  nxLocal : Cell
  parts : ℤ → JoinTree (List Cell)

/-- src/gravity/gravity.cpp 76-90 (`shellSum`). -/
def oShellSum (nghost : Cell) (r : OShellRank F) (i : ℤ) : Option (F × F) :=
  (r.parts i).reduce (fun s t => (s.1 + t.1, s.2 + t.2)) fun l => parFor l (fun c s => do
    let o : Cell := ![i + nghost 0, c 1 + nghost 1, c 2 + nghost 2]
    let x ← r.rho.rd o
    let w ← r.dv.rd o
    return (s.1 + x * w, s.2 + w)) (0, 0)

/-- src/gravity/gravity.cpp 66-67 and 75 (`shellSums`). -/
def oShellSums (nghost : Cell) (n : ℤ) (r : OShellRank F) : Option (View ℤ (F × F)) :=
  parFor (intRange 0 n) (fun i v => do
    let p ← oShellSum nghost r i
    v.wr i p) (View.line n fun _ => (0, 0))

/-- src/gravity/gravity.cpp 92-93 (`shellTotals`); both reductions join the ranks in the same tree. -/
def oShellTotals (nghost : Cell) (n : ℤ) (ranks : JoinTree (OShellRank F)) : Option (View ℤ (F × F)) :=
  ranks.reduce (fun v w => View.line n fun i => ((v.val i).1 + (w.val i).1, (v.val i).2 + (w.val i).2)) (oShellSums nghost n)

/-- src/gravity/gravity.cpp 95-100 (`shellMeans`). -/
def oShellMeans (n : ℤ) (l : List ℤ) (tot : View ℤ (F × F)) : Option (View ℤ F) :=
  parFor l (fun i m => do
    let x ← m.rd i
    let w ← tot.rd i
    m.wr i (x / w.2)) (View.line n fun i => (tot.val i).1)

/-- src/gravity/gravity.cpp 107-118 (`massIncrement`). -/
def oMassIncrement (Mc : F) (ng : ℤ) (x xc rhoMean : View ℤ F) (i : ℤ) : Option F := do
  let volS3 : F := lit 4 * pi / lit 3
  let off := i - ng
  let x0 ← x.rd i
  let x3 := x0 * x0 * x0
  let c ← xc.rd i
  let m ← rhoMean.rd off
  if i = ng then return Mc + volS3 * (c * c * c - x3) * m
  else
    let cm ← xc.rd (i - 1)
    let mm ← rhoMean.rd (off - 1)
    return volS3 * (x3 - cm * cm * cm) * mm + volS3 * (c * c * c - x3) * m

/-- One block of `Kokkos::parallel_scan`: the final pass from the sum `s.1` of the earlier blocks, and the sum of this block. -/
def oScanBlock (inc : ℤ → Option F) (b : List ℤ) (s : F × View ℤ F) : Option (F × View ℤ F) := do
  let r ← parFor b (fun i q => do
    let t ← inc i
    let M ← q.2.wr i (q.1 + t)
    return (q.1 + t, M)) s
  let tot ← parFor b (fun i q => do
    let t ← inc i
    return q + t) 0
  return (s.1 + tot, r.2)

/-- src/gravity/gravity.cpp 69 and 102-122 (`massProfile`). `blocks` are the parts of `[ng, n)` that the workers of the scan take. -/
def oMassProfile (Mc : F) (ng n : ℤ) (l : List ℤ) (blocks : List (List ℤ)) (x xc rhoMean : View ℤ F) : Option (View ℤ F) := do
  let M ← parFor l (fun i M => M.wr i Mc) (View.line n fun _ => 0)
  let r ← parFor blocks (oScanBlock (oMassIncrement Mc ng x xc rhoMean)) (0, M)
  return r.2

/-- src/gravity/gravity.cpp 124-127 (`gravityFromMass`). -/
def oGravityFromMass (G : F) (n : ℤ) (l : List ℤ) (xc M : View ℤ F) : Option (View ℤ F) :=
  parFor l (fun i g => do
    let m ← M.rd i
    let x ← xc.rd i
    g.wr i (-G * m / (x * x))) (View.line n fun _ => 0)

/-- src/gravity/gravity.cpp 60-130 (`makeInternalMass`), on a process grid with one process in direction 0. -/
def oInternalMass (G Mc : F) (nghost : Cell) (nx0 : ℤ) (ranks : JoinTree (OShellRank F)) (lm lg ln : List ℤ) (blocks : List (List ℤ))
    (x xc : View ℤ F) : Option (View ℤ F) := do
  let tot ← oShellTotals nghost (nx0 + nghost 0) ranks
  let mean ← oShellMeans (nx0 + nghost 0) lm tot
  let M ← oMassProfile Mc (nghost 0) (nx0 + 2 * nghost 0) lg blocks x xc mean
  oGravityFromMass G (nx0 + 2 * nghost 0) ln xc M

end Heracles

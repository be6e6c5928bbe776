import Verif.Model.Reduce

/-!
# Gravity fields

Model of `src/gravity/gravity.cpp`. The call operators (`src/gravity/gravity.hpp`) are `uniformGravity` and `radialGravity`. The constants
`units::G` and `units::pi` are parameters.
-/

namespace Heracles

variable {K : Type} [Field K]

/-- src/gravity/gravity.cpp 29-41: `make_uniform_gravity`, the array `g_array`. -/
def makeUniformGravity (gx0 gx1 gx2 : K) : View ℤ K :=
  View.line 3 fun i => if i = 0 then gx0 else if i = 1 then gx1 else gx2

/-- src/gravity/gravity.cpp 45-56: `make_point_mass_gravity`; `n` is `Nx_local_wg[0]`, `l` the order of the loop. -/
def makePointMass (G M : K) (n : ℤ) (l : List ℤ) (xc : View ℤ K) : Option (View ℤ K) :=
  parFor l (fun i g => do
    let x ← xc.rd i
    g.wr i (-G * M / (x * x))) (View.line n fun _ => 0)

/-- What a rank contributes to the shell averages: its arrays, the number of its cells along the directions 1 and 2, and how its
threads share the reduction over the shell `i`. -/
structure ShellRank (K : Type) where
  rho : View Cell K
  dv : View Cell K
  nxLocal : Cell
  parts : ℤ → List (List Cell)

/-- src/gravity/gravity.cpp 76-90: sums of `rho dv` and `dv` over the shell `i`. The two-dimensional range `(j, k)` is a
three-dimensional one whose first index is always 0. -/
def shellSum (nghost : Cell) (r : ShellRank K) (i : ℤ) : Option (K × K) :=
  parReduce 0 (· + ·) (r.parts i) fun c s => do
    let o : Cell := ![i + nghost 0, c 1 + nghost 1, c 2 + nghost 2]
    let x ← r.rho.rd o
    let w ← r.dv.rd o
    return s + (x * w, w)

/-- src/gravity/gravity.cpp 66-67 and 75: the loop over the shells; `n` is `Nx_local_ng[0] + Nghost[0]`. -/
def shellSums (nghost : Cell) (n : ℤ) (r : ShellRank K) : Option (View ℤ (K × K)) :=
  parFor (intRange 0 n) (fun i v => do
    let p ← shellSum nghost r i
    v.wr i p) (View.line n fun _ => 0)

/-- src/gravity/gravity.cpp 92-93: element-wise sum over the ranks of `comm_cart_horizontal`. -/
def shellTotals (nghost : Cell) (n : ℤ) (ranks : List (ShellRank K)) : Option (View ℤ (K × K)) := do
  let sums ← ranks.mapM (shellSums nghost n)
  let v ← allReduce (fun v w => View.line n fun i => v.val i + w.val i) sums
  return v

/-- src/gravity/gravity.cpp 95-100: `rho_mean(i) /= dv_total(i)`. -/
def shellMeans (n : ℤ) (l : List ℤ) (tot : View ℤ (K × K)) : Option (View ℤ K) :=
  parFor l (fun i m => do
    let x ← m.rd i
    let w ← tot.rd i
    m.wr i (x / w.2)) (View.line n fun i => (tot.val i).1)

/-- src/gravity/gravity.cpp 107-118: what iteration `i` adds to `partial_sum`. -/
def massIncrement (pi Mc : K) (ng : ℤ) (x xc rhoMean : View ℤ K) (i : ℤ) : Option K := do
  let volS3 := 4 * pi / 3
  let off := i - ng
  let x0 ← x.rd i
  let x3 := x0 * x0 * x0
  let c ← xc.rd i
  let m ← rhoMean.rd off
  if i = ng then return Mc + volS3 * (c * c * c - x3) * m
  else
    let cm ← xc.rd (i - 1)
    let mm ← rhoMean.rd (off - 1)
    return volS3 * (x3 - cm * cm * cm) * mm + volS3 * (c * c * c - x3) * m

/-- src/gravity/gravity.cpp 69 and 102-122: `M_r`: the inner ghosts (102), then `parallel_scan` over `[ng, n)` with `n = Nx_local_wg[0]`:
by the contract of the scan the final pass of iteration `i` sees the sum of the increments of the iterations up to `i`. -/
def massProfile (pi Mc : K) (ng n : ℤ) (l : List ℤ) (x xc rhoMean : View ℤ K) : Option (View ℤ K) := do
  let M ← parFor l (fun i M => M.wr i Mc) (View.line n fun _ => 0)
  let r ← parFor (intRange ng n) (fun i s => do
    let t ← massIncrement pi Mc ng x xc rhoMean i
    let M ← s.2.wr i (s.1 + t)
    return (s.1 + t, M)) ((0 : K), M)
  return r.2

/-- src/gravity/gravity.cpp 124-127. -/
def gravityFromMass (G : K) (n : ℤ) (l : List ℤ) (xc M : View ℤ K) : Option (View ℤ K) :=
  parFor l (fun i g => do
    let m ← M.rd i
    let x ← xc.rd i
    g.wr i (-G * m / (x * x))) (View.line n fun _ => 0)

/-- src/gravity/gravity.cpp 60-130: `make_internal_mass_gravity` on one rank. `ranks` are the ranks of `comm_cart_horizontal`
(src/mesh/grid.cpp 129-131: the same first coordinate; all ranks when `dims 0 = 1`); `nx0` is `Nx_local_ng[0]`; `lm`, `lg`, `ln` are
the orders of the three one-dimensional loops. -/
def makeInternalMass (G pi Mc : K) (dims nghost : Cell) (nx0 : ℤ) (ranks : List (ShellRank K)) (lm lg ln : List ℤ) (x xc : View ℤ K) :
    Except String (Option (View ℤ K)) :=
  if dims 0 ≠ 1 then .error "The function make_internal_mass_gravity does not handle more than 1 MPI process in the first dimension"
  else .ok do
    let tot ← shellTotals nghost (nx0 + nghost 0) ranks
    let mean ← shellMeans (nx0 + nghost 0) lm tot
    let M ← massProfile pi Mc (nghost 0) (nx0 + 2 * nghost 0) lg x xc mean
    gravityFromMass G (nx0 + 2 * nghost 0) ln xc M

end Heracles

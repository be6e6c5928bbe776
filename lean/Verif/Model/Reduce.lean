import Verif.Model.Scheme

/-!
# Reductions: time step, integrals, minimum of the internal energy; temperature

Models of `src/hydro/time_step.hpp`, `src/analysis/integration.cpp`, `src/analysis/internal_energy.cpp` and
`src/analysis/temperature.hpp`.
-/

namespace Heracles

variable {d : ℕ} {K : Type}

section Reduce
variable {ι F R : Type}

/-- `Kokkos::max(a, b)`, and the join of the reducer `Kokkos::Max`: `a < b ? b : a`. -/
def kmax [LT F] [DecidableLT F] (a b : F) : F := if a < b then b else a

/-- `Kokkos::min(a, b)`, and the join of the reducer `Kokkos::Min`: `b < a ? b : a`. -/
def kmin [LT F] [DecidableLT F] (a b : F) : F := if b < a then b else a

/-- `Kokkos::parallel_reduce`: the iterations are distributed over workers (`parts`, each in its own order); every worker
starts from the identity `e` of the reducer, and the partial results are joined. -/
def parReduce (e : F) (join : F → F → F) (parts : List (List ι)) (body : ι → F → Option F) : Option F := do
  let partials ← parts.mapM fun l => parFor l body e
  return partials.foldl join e

/-- The workers together run every iteration of the box `[b, e)` once. -/
def IsPartition (parts : List (List Cell)) (b e : Cell) : Prop := IsSchedule parts.flatten b e

/-- `MPI_Allreduce`: all ranks receive the combination of the contributions, combined in the order of the list; no rank, no
result. -/
def allReduce (op : F → F → F) : List F → Option F
  | [] => none
  | v :: vs => some (vs.foldl op v)

end Reduce

section TimeStep
variable [Field K] [LinearOrder K]

/-- src/hydro/time_step.hpp 60-75: `dx_geom[idim]` for `idim < ndim`. -/
def dxGeom (tr : Trig K) (geom : Geom) (d : ℕ) (dx : Fin 3 → K) (xc0 xc1 : K) (idim : Fin 3) : K :=
  if geom = .spherical then
    if d = 2 then (if idim = 1 then dx 1 * xc0 else dx idim)
    else if d = 3 then
      (if idim = 1 then dx 1 * xc0 else if idim = 2 then dx 2 * (xc0 * tr.sin xc1) else dx idim)
    else dx idim
  else dx idim

/-- src/hydro/time_step.hpp 59-79: `cell_inverse_dt`. The model reads both centre coordinates in all cases, the code only those
it uses. -/
def cellInverseDt (eos : EoS K) (tr : Trig K) (geom : Geom) (g : GridData K) (rho : View Cell K)
    (up : View Cell (VelPres d K)) (c : Cell) : Option K := do
  let r ← rho.rd c
  let q ← up.rd c
  let d0 ← (g.dx 0).rd (c 0)
  let d1 ← (g.dx 1).rd (c 1)
  let d2 ← (g.dx 2).rd (c 2)
  let xc0 ← (g.xc 0).rd (c 0)
  let xc1 ← (g.xc 1).rd (c 1)
  let sound := eos.sound r q.P
  return ∑ idim : Fin d, (|q.u idim| + sound) / dxGeom tr geom d ![d0, d1, d2] xc0 xc1 (ax idim)

/-- src/hydro/time_step.hpp 36-88: `time_step`, executed by all ranks together. `lo` is the identity of `Kokkos::Max`, the
lowest finite number; `parts r` is how rank `r` distributes its loop. -/
def timeStep {R : Type} (lo : K) (eos : EoS K) (tr : Trig K) (geom : Geom) (ranks : List R) (parts : R → List (List Cell))
    (g : R → GridData K) (rho : R → View Cell K) (up : R → View Cell (VelPres d K)) : Option K := do
  let v ← ranks.mapM fun r => parReduce lo kmax (parts r) fun c s => do
    let x ← cellInverseDt eos tr geom (g r) (rho r) (up r) c
    return kmax s x
  let m ← allReduce kmax v
  return 1 / m

end TimeStep

section Integrate
variable [Field K]

/-- src/analysis/integration.cpp 22-37: `integrate`, executed by all ranks together. -/
def integrate {R : Type} (ranks : List R) (parts : R → List (List Cell)) (dv var : R → View Cell K) : Option K := do
  let v ← ranks.mapM fun r => parReduce 0 (· + ·) (parts r) fun c s => do
    let x ← (var r).rd c
    let y ← (dv r).rd c
    return s + x * y
  allReduce (· + ·) v

end Integrate

section InternalEnergy

/-- Arithmetic on a type of numbers, for computations that have to be followed with infinities and NaN. -/
structure NumOps (F : Type) where
  add : F → F → F
  sub : F → F → F
  mul : F → F → F
  div : F → F → F
  zero : F
  two : F

/-- src/hydro/euler_equations.hpp 41-65: `compute_ek` and `compute_evol` of a conservative state, with explicit arithmetic
(the loop over `idim` in order). -/
def evolOps {F : Type} (o : NumOps F) (rho : F) (rhou : Fin d → F) (E : F) : F :=
  let norm := (List.finRange d).foldl (fun s i => o.add s (o.mul (rhou i) (rhou i))) o.zero
  o.sub E (o.div (o.div norm rho) o.two)

/-- src/analysis/internal_energy.cpp 20-45: `minimum_internal_energy`, executed by all ranks together. `top` is the identity
of `Kokkos::Min`, the largest finite number. -/
def minInternalEnergy {F R : Type} [LT F] [DecidableLT F] (o : NumOps F) (top : F) (ranks : List R)
    (parts : R → List (List Cell)) (U : R → View Cell (F × (Fin d → F) × F)) : Option F := do
  let v ← ranks.mapM fun r => parReduce top kmin (parts r) fun c s => do
    let x ← (U r).rd c
    return kmin s (evolOps o x.1 x.2.1 x.2.2)
  allReduce kmin v

/-- IEEE comparison `x < y`: false as soon as one side is NaN. -/
def Dbl.lt : Dbl → Dbl → Prop
  | .fin x, .fin y => x < y
  | .fin _, .inf neg => neg = false
  | .inf neg, .fin _ => neg = true
  | .inf neg, .inf neg' => neg = true ∧ neg' = false
  | .nan, _ => False
  | _, .nan => False

instance : LT Dbl := ⟨Dbl.lt⟩

open Classical in
noncomputable instance : DecidableLT Dbl := fun _ _ => inferInstance

/-- `Kokkos::isnan`. -/
def Dbl.isNaN : Dbl → Prop
  | .nan => True
  | _ => False

/-- IEEE addition, without rounding, overflow and signed zeros. -/
def Dbl.add : Dbl → Dbl → Dbl
  | .nan, _ => .nan
  | _, .nan => .nan
  | .fin x, .fin y => .fin (x + y)
  | .fin _, .inf s => .inf s
  | .inf s, .fin _ => .inf s
  | .inf s, .inf t => if s = t then .inf s else .nan

/-- Sign change. -/
def Dbl.neg : Dbl → Dbl
  | .nan => .nan
  | .fin x => .fin (-x)
  | .inf s => .inf (!s)

open Classical in
/-- IEEE multiplication, without rounding, overflow and signed zeros. -/
noncomputable def Dbl.mul : Dbl → Dbl → Dbl
  | .nan, _ => .nan
  | _, .nan => .nan
  | .fin x, .fin y => .fin (x * y)
  | .fin x, .inf s => if x = 0 then .nan else if x < 0 then .inf (!s) else .inf s
  | .inf s, .fin x => if x = 0 then .nan else if x < 0 then .inf (!s) else .inf s
  | .inf s, .inf t => .inf (s ^^ t)

open Classical in
/-- IEEE division, without rounding, overflow and signed zeros: a non-zero number divided by zero is the infinity of its
sign. -/
noncomputable def Dbl.div : Dbl → Dbl → Dbl
  | .nan, _ => .nan
  | _, .nan => .nan
  | .fin x, .fin y => if y = 0 then (if x = 0 then .nan else .inf (decide (x < 0))) else .fin (x / y)
  | .fin _, .inf _ => .fin 0
  | .inf s, .fin y => if y < 0 then .inf (!s) else .inf s
  | .inf _, .inf _ => .nan

/-- The arithmetic of `double` followed with infinities and NaN. -/
noncomputable def dblOps : NumOps Dbl where
  add := Dbl.add
  sub x y := Dbl.add x (Dbl.neg y)
  mul := Dbl.mul
  div := Dbl.div
  zero := .fin 0
  two := .fin 2

/-- src/main.cpp 400: the condition under which the run dumps its state and aborts. -/
def badEnergy (m : Dbl) : Prop := m.isNaN ∨ m < .fin 0

end InternalEnergy

/-- src/analysis/temperature.hpp 19-25: `temperature`. `temp` is `eos.compute_temp_from_pres`. -/
def temperature (temp : K → K → K) (l : List Cell) (rho P T : View Cell K) : Option (View Cell K) :=
  parFor l (fun c T => do
    let r ← rho.rd c
    let p ← P.rd c
    T.wr c (temp r p)) T

end Heracles

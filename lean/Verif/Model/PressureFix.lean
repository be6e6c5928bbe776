import Verif.Model.Scheme

/-!
# Pressure fix

Model of `src/hydro/pressure_fix.hpp`.
-/

namespace Heracles

variable {d n : ℕ} {K : Type} [Field K] [LinearOrder K]

/-- src/hydro/pressure_fix.hpp 57-168: the energy written in a cell where the fix triggers. `s` and `q` are the states of the cell before
and after the Godunov update; `um`, `uPl` the states before the update in the cells before and after along each direction; `r0`, `rm`,
`rp` the face states of the cell and of these neighbours; `ds`, `dsp` the face areas stored at the cell and at the next cell along each
direction. The energy is assigned in every iteration of the two loops with the sums so far (167); what remains is the assignment of the
last iteration, with the full sums (for `ndim ≥ 1`). -/
def pressureFixEnergy (eos : EoS K) (dt eps : K) (s q : Fields d n K) (um uPl : Fin d → Fields d n K) (r0 : Fin 2 → Fin d → Fields d n K)
    (rm rp : Fin d → Fin 2 → Fin d → Fields d n K) (ds : Fin 3 → K) (dsp : Fin d → Fin 3 → K) (dv : K) : K :=
  let eps2 := eps / 10
  let P := (toPrim eos s.cons).P
  let ekin := s.cons.ek
  let evol := s.E - ekin
  let evolNew := q.E - q.cons.ek
  let deGod := evolNew - evol
  let alpha := if evol < eps2 * ekin then 0 else evol * evol / (ekin * ekin * eps * eps)
  -- 139-140
  let us : Fin d → Fin d → K := fun idim ipos => ((toPrim eos (rm idim 1 idim).cons).u ipos + (toPrim eos (r0 0 idim).cons).u ipos) / 2
  let usP : Fin d → Fin d → K := fun idim ipos => ((toPrim eos (r0 1 idim).cons).u ipos + (toPrim eos (rp idim 0 idim).cons).u ipos) / 2
  -- 142
  let divU := ∑ idim, ∑ ipos, (usP idim ipos * dsp idim (ax ipos) - us idim ipos * ds (ax ipos)) / dv
  -- 144-154
  let einR : Fin d → Fin d → K := fun idim ipos =>
    if usP idim ipos > 0 then s.E - s.cons.ek else (uPl idim).E - (uPl idim).cons.ek
  let einL : Fin d → Fin d → K := fun idim ipos => if us idim ipos < 0 then s.E - s.cons.ek else (um idim).E - (um idim).cons.ek
  -- 156
  let divUE := ∑ idim, ∑ ipos,
    (usP idim ipos * einR idim ipos * dsp idim (ax ipos) - us idim ipos * einL idim ipos * ds (ax ipos)) / dv
  let dePf := dt * (-P * divU - divUE)
  let sum := ∑ idr, s.rhou idr * s.rhou idr / s.rho
  let deTot := alpha * deGod + (1 - alpha) * dePf
  evol + deTot + 1 / 2 * sum

/-- src/hydro/pressure_fix.hpp 44-171: one cell; `none` when an access is out of bounds. `E_new` of the cell is read before it is written,
no other cell of `new` is read. -/
def pressureFixCell (eos : EoS K) (g : GridData K) (dt eps : K) (U : View Cell (Fields d n K)) (rec : FaceArr d (Fields d n K))
    (q : Fields d n K) (c : Cell) : Option K := do
  let s ← U.rd c
  if s.E - s.cons.ek < eps * s.cons.ek then
    let r0 ← rec.rd c
    let rm ← seqFin fun idim : Fin d => rec.rd (lindex idim.val c)
    let rp ← seqFin fun idim : Fin d => rec.rd (rindex idim.val c)
    let um ← seqFin fun idim : Fin d => U.rd (lindex idim.val c)
    let uPl ← seqFin fun idim : Fin d => U.rd (rindex idim.val c)
    let ds ← g.ds.rd c
    let dsp ← seqFin fun idim : Fin d => g.ds.rd (rindex idim.val c)
    let dv ← g.dv.rd c
    return pressureFixEnergy eos dt eps s q um uPl r0 rm rp ds dsp dv
  else return q.E

/-- src/hydro/pressure_fix.hpp 19-172: `pressure_fix`, in the order `l`. -/
def pressureFix (eos : EoS K) (g : GridData K) (dt eps : K) (l : List Cell) (U : View Cell (Fields d n K)) (rec : FaceArr d (Fields d n K))
    (new : View Cell (Fields d n K)) : Option (View Cell (Fields d n K)) :=
  parFor l (fun c w => do
    let q ← w.rd c
    let e ← pressureFixCell eos g dt eps U rec q c
    w.wr c { q with E := e }) new

end Heracles

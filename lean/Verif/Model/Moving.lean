import Verif.Model.Geometry

/-!
# Grid shift

Model of `src/moving_grid/moving_grid.cpp`.
-/

namespace Heracles

variable {V K : Type}

/-- src/moving_grid/moving_grid.cpp 51-59: `shift_array`. `Kokkos::deep_copy` copies the planes `1 .. ext 0 - 1` of `old` on the planes
`0 .. ext 0 - 2` of `new`, element by element in the order `l` (a schedule of the box of the destination). `V` is the tuple of the
values of all shifted arrays at a cell: the version for 4-dimensional arrays (61-69) calls this one for each component, and the
four calls (30-33) work on distinct arrays. That `old` and `new` do not overlap (assertion 53) is built in the model: they are two values. -/
def shiftArray (l : List Cell) (old new : View Cell V) : Option (View Cell V) :=
  parFor l (fun c new => do
    let v ← old.rd ![c 0 + 1, c 1, c 2]
    new.wr c v) new

variable [Field K]

/-- src/moving_grid/moving_grid.cpp 38-44: the new nodes of the first direction, computed in place on the host. `n` is the extent of the
array (38). The coherence of the two mirrors of `x0_glob` is the matter of the model of the dual views. -/
def shiftNodes (n : ℤ) (x : View ℤ K) : Option (View ℤ K) := do
  -- 39-41
  let x ← parFor (intRange 0 (n - 1)) (fun i x => do
    let v ← x.rd (i + 1)
    x.wr i v) x
  -- 43
  let x2 ← x.rd (n - 2)
  let x3 ← x.rd (n - 3)
  let x4 ← x.rd (n - 4)
  let r := (x2 - x3) / (x3 - x4)
  -- 44
  x.wr (n - 1) (x2 + (x2 - x3) * r)

/-- src/moving_grid/moving_grid.cpp 15-49: `shift_grid`: new fields, new global nodes, new grid arrays. `lc` is the order of the copy of the
fields, `l1`, `l`, `l'` those of the loops of `set_grid`. -/
def shiftGrid (tr : Trig K) (geom : Geom) (d : ℕ) (topo : GridTopo) (lc : List Cell) (l1 : Fin 3 → List ℤ) (l l' : List Cell)
    (old new : View Cell V) (n : ℤ) (xGlob : Fin 3 → View ℤ K) (g : GridData K) :
    Option (View Cell V × (Fin 3 → View ℤ K) × GridData K) := do
  let new ← shiftArray lc old new
  let x0 ← shiftNodes n (xGlob 0)
  let xGlob := fun a => if a = 0 then x0 else xGlob a
  -- 46
  let g ← setGrid tr geom d topo l1 l l' xGlob g
  return (new, xGlob, g)

end Heracles

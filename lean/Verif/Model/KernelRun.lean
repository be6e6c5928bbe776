import Verif.Model.Distributed
import Verif.Model.PressureFix

/-!
# A decomposed run with the arithmetic of the kernels left open

The other model files compute with exact numbers. Here the numbers are of any type `F` (the `double` of the machine, for
instance), and what a kernel computes from the numbers it has read is a parameter: `Kernels` lists these computations. What is
modelled is the rest: which entries of which arrays every kernel reads and writes, in which order its iterations run, how the
arrays of the ranks are set up, exchanged and reduced. Nothing is assumed of the computations, except that they are functions:
the same numbers give the same results on every rank and in every iteration of a loop.

The definitions follow those of `Model/Geometry.lean`, `Model/Limiter.lean`, `Model/Scheme.lean`, `Model/PressureFix.lean`,
`Model/Reduce.lean` and `Model/Distributed.lean`, line by line.
-/

namespace Heracles

variable {d n : ℕ} {F : Type}

/-- What the kernels compute from the numbers they have read. -/
structure Kernels (d n : ℕ) (F : Type) where
  /-- src/mesh/grid.cpp 34, from `x(i + 1)` and `x(i)`. -/
  size : F → F → F
  /-- src/mesh/grid.cpp 42, from `x(i)` and `x(i + 1)`. -/
  center : F → F → F
  /-- src/mesh/geometry.cpp 47-54, from the three sizes. -/
  areaCart : F → F → F → Fin 3 → F
  /-- src/mesh/geometry.cpp 57, from the three sizes. -/
  volCart : F → F → F → F
  /-- src/mesh/geometry.cpp 77, from `x(i)`. -/
  areaSph1 : F → F
  /-- src/mesh/geometry.cpp 83, from `x(i)`, `x(i + 1)`. -/
  volSph1 : F → F → F
  /-- src/mesh/geometry.cpp 93-95, from `x(i)`, `x(i + 1)`, `y(j)`, `y(j + 1)`. -/
  areaSph2 : F → F → F → F → Fin 2 → F
  /-- src/mesh/geometry.cpp 102-103. -/
  volSph2 : F → F → F → F → F
  /-- src/mesh/geometry.cpp 112-115, from the four nodes and the three sizes. -/
  areaSph3 : F → F → F → F → F → F → F → Fin 3 → F
  /-- src/mesh/geometry.cpp 122-123, from the four nodes and `dz(k)`. -/
  volSph3 : F → F → F → F → F → F
  /-- src/hydro/euler_equations.hpp 111-122: velocity and pressure, from density, momentum and energy. -/
  prim : F → MomEn d F → VelPres d F
  /-- src/hydro/time_step.hpp 59-79: `cell_inverse_dt`, from density, velocity and pressure, the three sizes and two coordinates of
  the centre. -/
  rate : F → VelPres d F → (Fin 3 → F) → F → F → F
  /-- src/hydro/time_step.hpp 87: `1 / inverse_dt`. -/
  inv : F → F
  /-- src/main.cpp 431: `dt / 2`. -/
  half : F → F
  /-- src/hydro/limited_linear_reconstruction.hpp 53-55: size of a cell along a direction, from the three sizes. -/
  len : Fin d → F → F → F → F
  /-- src/hydro/limited_linear_reconstruction.hpp 57-62: the face values, from three sizes and three values. -/
  recon : F → F → F → F → F → F → Fin 2 → F
  /-- src/hydro/euler_equations.hpp 124-134: momentum and energy, from density, velocity and pressure. -/
  cons : F → VelPres d F → MomEn d F
  /-- src/hydro/extrapolation_reconstruction.hpp 94-325: the predictor in a cell, from `dt`, the geometry, gravity, the velocities
  and pressures of the faces and the content of the face arrays. -/
  predict : F → (Fin d → DirGeo F) → (Fin d → F) → (Fin 2 → Fin d → VelPres d F) → (Fin 2 → Fin d → Fields d n F) →
    Fin 2 → Fin d → Fields d n F
  /-- src/hydro/extrapolation_reconstruction.hpp 327-337, for one face. -/
  predictFx : Fields d n F → Fields d n F
  /-- src/hydro/godunov_scheme.hpp 109-291: the update of a cell, from `dt`, the geometry, gravity, the state of the cell, the face
  states of the previous cells, of the cell and of the next cells. -/
  update : F → (Fin d → DirGeo F) → (Fin d → F) → Fields d n F → (Fin d → Fin 2 → Fin d → Fields d n F) →
    (Fin 2 → Fin d → Fields d n F) → (Fin d → Fin 2 → Fin d → Fields d n F) → Fields d n F
  /-- src/hydro/godunov_scheme.hpp 293-301. -/
  updateFx : Fields d n F → Fields d n F
  /-- src/main.cpp 459 and src/hydro/pressure_fix.hpp 57: whether the pressure fix is on and triggers in a cell. -/
  fixOn : Fields d n F → Bool
  /-- src/hydro/pressure_fix.hpp 57-168: the energy written by the fix (arguments as in `pressureFixEnergy`). -/
  fixE : F → Fields d n F → Fields d n F → (Fin d → Fields d n F) → (Fin d → Fields d n F) → (Fin 2 → Fin d → Fields d n F) →
    (Fin d → Fin 2 → Fin d → Fields d n F) → (Fin d → Fin 2 → Fin d → Fields d n F) → (Fin 3 → F) → (Fin d → Fin 3 → F) → F → F

section Grid
variable [Zero F]

/-- src/mesh/geometry.cpp 43-55, 74-77, 89-96, 109-116, one cell (`dsCell`). -/
def kDsCell (k : Kernels d n F) (geom : Geom) (x dx : Fin 3 → View ℤ F) (old : Fin 3 → F) (c : Cell) : Option (Fin 3 → F) :=
  match geom with
  | .cartesian => do
    let d0 ← (dx 0).rd (c 0)
    let d1 ← (dx 1).rd (c 1)
    let d2 ← (dx 2).rd (c 2)
    return k.areaCart d0 d1 d2
  | .spherical =>
    if d = 1 then do
      let r ← (x 0).rd (c 0)
      return ![k.areaSph1 r, old 1, old 2]
    else if d = 2 then do
      let r ← (x 0).rd (c 0)
      let rp ← (x 0).rd (c 0 + 1)
      let t ← (x 1).rd (c 1)
      let tp ← (x 1).rd (c 1 + 1)
      return ![k.areaSph2 r rp t tp 0, k.areaSph2 r rp t tp 1, old 2]
    else if d = 3 then do
      let r ← (x 0).rd (c 0)
      let rp ← (x 0).rd (c 0 + 1)
      let t ← (x 1).rd (c 1)
      let tp ← (x 1).rd (c 1 + 1)
      let d0 ← (dx 0).rd (c 0)
      let d1 ← (dx 1).rd (c 1)
      let d2 ← (dx 2).rd (c 2)
      return k.areaSph3 r rp t tp d0 d1 d2
    else some old

/-- src/mesh/geometry.cpp 57, 79-84, 98-104, 118-124, one cell (`dvCell`). -/
def kDvCell (k : Kernels d n F) (geom : Geom) (x dx : Fin 3 → View ℤ F) (old : F) (c : Cell) : Option F :=
  match geom with
  | .cartesian => do
    let d0 ← (dx 0).rd (c 0)
    let d1 ← (dx 1).rd (c 1)
    let d2 ← (dx 2).rd (c 2)
    return k.volCart d0 d1 d2
  | .spherical =>
    if d = 1 then do
      let r ← (x 0).rd (c 0)
      let rp ← (x 0).rd (c 0 + 1)
      return k.volSph1 r rp
    else if d = 2 then do
      let r ← (x 0).rd (c 0)
      let rp ← (x 0).rd (c 0 + 1)
      let t ← (x 1).rd (c 1)
      let tp ← (x 1).rd (c 1 + 1)
      return k.volSph2 r rp t tp
    else if d = 3 then do
      let r ← (x 0).rd (c 0)
      let rp ← (x 0).rd (c 0 + 1)
      let t ← (x 1).rd (c 1)
      let tp ← (x 1).rd (c 1 + 1)
      let d2 ← (dx 2).rd (c 2)
      return k.volSph3 r rp t tp d2
    else some old

/-- Constructor of `Grid`, array part (src/mesh/grid.cpp 62-75, `GridData.alloc`). -/
def kAlloc (ext : Cell) : GridData F :=
  { x := fun a => View.line (ext a + 1) 0, xc := fun a => View.line (ext a) 0, dx := fun a => View.line (ext a) 0
    ds := ⟨inExt ext, 0⟩, dv := ⟨inExt ext, 0⟩ }

/-- src/mesh/grid.cpp 134-155: `Grid::set_grid` (`setGrid`). -/
def kSetGrid (k : Kernels d n F) (geom : Geom) (topo : GridTopo) (l1 : Fin 3 → List ℤ) (l l' : List Cell)
    (xGlob : Fin 3 → View ℤ F) (g : GridData F) : Option (GridData F) := do
  let x ← seqFin fun a => topo.setNodes a (xGlob a)
  let dx ← seqFin fun a => parFor (l1 a) (fun i dx => do
    let xr ← (x a).rd (i + 1)
    let xl ← (x a).rd i
    dx.wr i (k.size xr xl)) (g.dx a)
  let xc ← seqFin fun a => parFor (l1 a) (fun i xc => do
    let xl ← (x a).rd i
    let xr ← (x a).rd (i + 1)
    xc.wr i (k.center xl xr)) (g.xc a)
  let ds ← parFor l (fun c ds => do
    let old ← ds.rd c
    let s ← kDsCell k geom x dx old c
    ds.wr c s) g.ds
  let dv ← parFor l' (fun c dv => do
    let old ← dv.rd c
    let s ← kDvCell k geom x dx old c
    dv.wr c s) g.dv
  return { x := x, xc := xc, dx := dx, ds := ds, dv := dv }

/-- The reads of geometric data in direction `idim` at cell `c` (`GridData.dirGeo`, same lines and simplification). -/
def GridData.kDirGeo (g : GridData F) (geom : Geom) (idim : Fin d) (c : Cell) : Option (DirGeo F) := do
  let dv ← g.dv.rd c
  let s ← g.ds.rd c
  let sp ← g.ds.rd (rindex idim.val c)
  match geom with
  | .cartesian => return { dv := dv, dsL := s (ax idim), dsR := sp (ax idim), x0 := 0, x0p := 0, x1 := 0, x1p := 0 }
  | .spherical =>
    let x0 ← (g.x 0).rd (c 0)
    let x0p ← (g.x 0).rd (c 0 + 1)
    let x1 ← (g.x 1).rd (c 1)
    let x1p ← (g.x 1).rd (c 1 + 1)
    return { dv := dv, dsL := s (ax idim), dsR := sp (ax idim), x0 := x0, x0p := x0p, x1 := x1, x1p := x1p }

end Grid

/-- src/hydro/array_conversion.hpp 107-138 (`convConsToPrim`). -/
def kConsToPrim (k : Kernels d n F) (l : List Cell) (rho : View Cell F) (me : View Cell (MomEn d F))
    (out : View Cell (VelPres d F)) : Option (View Cell (VelPres d F)) :=
  parFor l (fun c out => do
    let r ← rho.rd c
    let q ← me.rd c
    out.wr c (k.prim r q)) out

/-- src/hydro/array_conversion.hpp 32-63 (`convPrimToCons`). -/
def kPrimToCons (k : Kernels d n F) (l : List Cell) (rho : View Cell F) (up : View Cell (VelPres d F))
    (out : View Cell (MomEn d F)) : Option (View Cell (MomEn d F)) :=
  parFor l (fun c out => do
    let r ← rho.rd c
    let q ← up.rd c
    out.wr c (k.cons r q)) out

/-- src/hydro/limited_linear_reconstruction.hpp 53 (`cellLen`). -/
def kCellLen (k : Kernels d n F) (dx : Fin 3 → View ℤ F) (a : Fin d) (c : Cell) : Option F := do
  let d0 ← (dx 0).rd (c 0)
  let d1 ← (dx 1).rd (c 1)
  let d2 ← (dx 2).rd (c 2)
  return k.len a d0 d1 d2

/-- src/hydro/limited_linear_reconstruction.hpp 49-64 (`reconCell`). -/
def kReconCell (k : Kernels d n F) (dx : Fin 3 → View ℤ F) (var : View Cell F) (c : Cell) : Option (Fin d → Fin 2 → F) :=
  seqFin fun a => do
    let cm := lindex a.val c
    let cp := rindex a.val c
    let dl ← kCellLen k dx a c
    let dlm ← kCellLen k dx a cm
    let dlp ← kCellLen k dx a cp
    let vp ← var.rd cp
    let v ← var.rd c
    let vm ← var.rd cm
    return fun side => k.recon dlm dl dlp vm v vp side

/-- src/hydro/limited_linear_reconstruction.hpp 34-65 (`faceReconstruct`). -/
def kFaceReconstruct (k : Kernels d n F) (dx : Fin 3 → View ℤ F) (l : List Cell) (var : View Cell F) (out : FaceArr d F) :
    Option (FaceArr d F) :=
  parFor l (fun c out => do
    let f ← kReconCell k dx var c
    out.wr c fun side a => f a side) out

section Step
variable [Zero F]

/-- src/hydro/extrapolation_reconstruction.hpp 65-338 (`hancock`). -/
def kHancock (k : Kernels d n F) (geom : Geom) (g : GridData F) (grav : GravField d F) (dt : F) (l l' : List Cell)
    (up : FaceArr d (VelPres d F)) (rec : FaceArr d (Fields d n F)) : Option (FaceArr d (Fields d n F)) := do
  let rec1 ← parFor l (fun c w => do
    let q ← up.rd c
    let old ← w.rd c
    let dg ← seqFin fun idim : Fin d => g.kDirGeo geom idim c
    let gr ← seqFin fun idim : Fin d => grav c idim
    w.wr c (k.predict dt dg gr q old)) rec
  parFor l' (fun c w => do
    let old ← w.rd c
    w.wr c fun side idim => k.predictFx (old side idim)) rec1

/-- src/hydro/hydro_reconstruction.hpp 85-131 (`hydroReconstruct`). -/
def kReconstruct (k : Kernels d n F) (geom : Geom) (g : GridData F) (grav : GravField d F) (dt : F) (sc : RecScheds d n)
    (U : View Cell (Fields d n F)) (up : View Cell (VelPres d F)) (upRec : FaceArr d (VelPres d F))
    (rec : FaceArr d (Fields d n F)) : Option (FaceArr d (Fields d n F)) := do
  let rhoRec ← kFaceReconstruct k g.dx sc.rho (U.comp (·.rho)) (rec.comp fun f side a => (f side a).rho)
  let uRec ← seqFin fun i : Fin d =>
    kFaceReconstruct k g.dx (sc.u i) (up.comp (·.u i)) (upRec.comp fun f side a => (f side a).u i)
  let pRec ← kFaceReconstruct k g.dx sc.P (up.comp (·.P)) (upRec.comp fun f side a => (f side a).P)
  let fxRec ← seqFin fun i : Fin n =>
    kFaceReconstruct k g.dx (sc.fx i) (U.comp (·.fx i)) (rec.comp fun f side a => (f side a).fx i)
  let upRec' : FaceArr d (VelPres d F) :=
    ⟨upRec.dom, fun c side a => { u := fun i => (uRec i).val c side a, P := pRec.val c side a }⟩
  let me ← seqFin fun side : Fin 2 => seqFin fun a : Fin d =>
    kPrimToCons k (sc.conv side a) (rhoRec.comp fun f => f side a) (upRec'.comp fun f => f side a)
      (rec.comp fun f => ({ rhou := (f side a).rhou, E := (f side a).E } : MomEn d F))
  let rec' : FaceArr d (Fields d n F) :=
    ⟨rec.dom, fun c side a =>
      { rho := rhoRec.val c side a, rhou := ((me side a).val c).rhou, E := ((me side a).val c).E
        fx := fun i => (fxRec i).val c side a }⟩
  kHancock k geom g grav dt sc.han sc.hanFx upRec' rec'

/-- src/hydro/godunov_scheme.hpp 77-302 (`godunovCell`, `godunov`). -/
def kGodunov (k : Kernels d n F) (geom : Geom) (g : GridData F) (grav : GravField d F) (dt : F) (l l' : List Cell)
    (U : View Cell (Fields d n F)) (rec : FaceArr d (Fields d n F)) (new : View Cell (Fields d n F)) :
    Option (View Cell (Fields d n F)) := do
  let new1 ← parFor l (fun c w => do
    let s ← U.rd c
    let dg ← seqFin fun idim : Fin d => g.kDirGeo geom idim c
    let gr ← seqFin fun idim : Fin d => grav c idim
    let rm ← seqFin fun idim : Fin d => rec.rd (lindex idim.val c)
    let r0 ← rec.rd c
    let rp ← seqFin fun idim : Fin d => rec.rd (rindex idim.val c)
    w.wr c (k.update dt dg gr s rm r0 rp)) new
  parFor l' (fun c w => do
    let s ← w.rd c
    w.wr c (k.updateFx s)) new1

/-- src/hydro/pressure_fix.hpp 19-172 (`pressureFixCell`, `pressureFix`). With the fix off (src/main.cpp 459) `fixOn` is false
and the loop writes the energies back. -/
def kPressureFix (k : Kernels d n F) (g : GridData F) (dt : F) (l : List Cell) (U : View Cell (Fields d n F))
    (rec : FaceArr d (Fields d n F)) (new : View Cell (Fields d n F)) : Option (View Cell (Fields d n F)) :=
  parFor l (fun c w => do
    let q ← w.rd c
    let s ← U.rd c
    if k.fixOn s then
      let r0 ← rec.rd c
      let rm ← seqFin fun idim : Fin d => rec.rd (lindex idim.val c)
      let rp ← seqFin fun idim : Fin d => rec.rd (rindex idim.val c)
      let um ← seqFin fun idim : Fin d => U.rd (lindex idim.val c)
      let uPl ← seqFin fun idim : Fin d => U.rd (rindex idim.val c)
      let ds ← g.ds.rd c
      let dsp ← seqFin fun idim : Fin d => g.ds.rd (rindex idim.val c)
      let dv ← g.dv.rd c
      w.wr c { q with E := k.fixE dt s q um uPl r0 rm rp ds dsp dv }
    else w.wr c q) new

/-- src/main.cpp 427-475: reconstruction, Godunov update, pressure fix (`lf` is the order of the loop of the fix). -/
def kStep (k : Kernels d n F) (geom : Geom) (g : GridData F) (grav : GravField d F) (dt : F) (sc : RecScheds d n)
    (l l' lf : List Cell) (U : View Cell (Fields d n F)) (up : View Cell (VelPres d F)) (upRec : FaceArr d (VelPres d F))
    (rec : FaceArr d (Fields d n F)) (new : View Cell (Fields d n F)) : Option (View Cell (Fields d n F)) := do
  let rec' ← kReconstruct k geom g grav (k.half dt) sc U up upRec rec
  let new' ← kGodunov k geom g grav dt l l' U rec' new
  kPressureFix k g dt lf U rec' new'

end Step

section TimeStep
variable [LT F] [DecidableLT F]

/-- src/hydro/time_step.hpp 59-79 (`cellInverseDt`). -/
def kCellInverseDt (k : Kernels d n F) (g : GridData F) (rho : View Cell F) (up : View Cell (VelPres d F)) (c : Cell) :
    Option F := do
  let r ← rho.rd c
  let q ← up.rd c
  let d0 ← (g.dx 0).rd (c 0)
  let d1 ← (g.dx 1).rd (c 1)
  let d2 ← (g.dx 2).rd (c 2)
  let xc0 ← (g.xc 0).rd (c 0)
  let xc1 ← (g.xc 1).rd (c 1)
  return k.rate r q ![d0, d1, d2] xc0 xc1

/-- src/hydro/time_step.hpp 36-88 (`timeStep`). -/
def kTimeStep {R : Type} (lo : F) (k : Kernels d n F) (ranks : List R) (parts : R → List (List Cell)) (g : R → GridData F)
    (rho : R → View Cell F) (up : R → View Cell (VelPres d F)) : Option F := do
  let v ← ranks.mapM fun r => parReduce lo kmax (parts r) fun c s => do
    let x ← kCellInverseDt k (g r) (rho r) (up r) c
    return kmax s x
  let m ← allReduce kmax v
  return k.inv m

end TimeStep

/-- The choices of a run that do not depend on the decomposition (`DistParams`). -/
structure KernelParams (d n : ℕ) (F : Type) where
  k : Kernels d n F
  geom : Geom
  lo : F
  policy : List F → F
  user : UserBc d n F
  bcs : Fin d → Fin 2 → BcKind
  order : List (Option ℕ)

section Run
variable [Zero F] [Neg F] [LT F] [DecidableLT F]

/-- src/main.cpp 354-355, 427-484 and 526: one iteration of all ranks (`distIter`, with the pressure fix). `lf r` is the order of
the loop of the fix on rank `r`. The reflexive boundary condition is the only place outside `Kernels` that computes: it negates
(src/boundary.cpp). -/
def kIter (p : KernelParams d n F) (sched : Cell → Cell → List Cell) (isBorder : Cell → Fin 3 → Fin 2 → Bool) (nghost dims : Cell)
    (grav : DistView (Fields d n F) → Cell → GravField d F) (M : Cell → RankMem d n F) (lf : Cell → List Cell)
    (s : DistView (Fields d n F) × List F) : Option (DistView (Fields d n F) × List F) := do
  let D := s.1
  let up ← allRanks dims (fun r => kConsToPrim p.k (M r).conv ((D.local r).comp Fields.rho)
    ((D.local r).comp fun s => { rhou := s.rhou, E := s.E }) (M r).up) fun r => (M r).up
  let dt0 ← kTimeStep p.lo p.k (boxList 0 dims) (fun r => (M r).parts) (fun r => (M r).grid)
    (fun r => (D.local r).comp Fields.rho) up
  let dt := p.policy (dt0 :: s.2)
  let new ← allRanks dims (fun r => kStep p.k p.geom (M r).grid (grav D r) dt (M r).sc (M r).l (M r).l' (lf r)
    (D.local r) (up r) (M r).upRec (M r).faces (M r).new) fun r => (M r).new
  let D' ← distBcs p.user sched p.bcs isBorder nghost dims p.order ⟨D.ext, fun r => (new r).val⟩
  return (D', dt0 :: s.2)

/-- src/main.cpp 307, then `k` iterations (`distRun`). -/
def kRun (p : KernelParams d n F) (sched : Cell → Cell → List Cell) (isBorder : Cell → Fin 3 → Fin 2 → Bool) (nghost dims : Cell)
    (grav : DistView (Fields d n F) → Cell → GravField d F) (M : ℕ → Cell → RankMem d n F) (lf : ℕ → Cell → List Cell)
    (D : DistView (Fields d n F)) : ℕ → Option (DistView (Fields d n F) × List F)
  | 0 => do
    let D' ← distBcs p.user sched p.bcs isBorder nghost dims p.order D
    return (D', [])
  | i + 1 => do
    let s ← kRun p sched isBorder nghost dims grav M lf D i
    kIter p sched isBorder nghost dims grav (M i) (lf i) s

end Run

/-! ### The exact arithmetic as an instance -/

section Exact
variable [Field F]

/-- What `hancockCell` computes from what it has read (src/hydro/extrapolation_reconstruction.hpp 94-325). -/
def hancockPure (eos : EoS F) (tr : Trig F) (geom : Geom) (dt : F) (dg : Fin d → DirGeo F) (gr : Fin d → F)
    (up : Fin 2 → Fin d → VelPres d F) (old : Fin 2 → Fin d → Fields d n F) : Fin 2 → Fin d → Fields d n F :=
  let pL : Fin d → Prim d F := fun idim => facePrim (old 0 idim) (up 0 idim)
  let pR : Fin d → Prim d F := fun idim => facePrim (old 1 idim) (up 1 idim)
  let fL : Fin d → Flux d F := fun idim => fluxPrim eos (pL idim) idim
  let fR : Fin d → Flux d F := fun idim => fluxPrim eos (pR idim) idim
  fun side ipos =>
    { rho := (old side ipos).rho + ∑ idim, fluxDiff (dg idim) (dt / (dg idim).dv) (fL idim).rho (fR idim).rho
      rhou := fun i => (old side ipos).rhou i
        + ∑ idim, (momDiff tr geom (dg idim) (dt / (dg idim).dv) (pL idim) (pR idim) (fL idim) (fR idim) idim i
            + if i = idim then dt * gr idim * (old side ipos).rho else 0)
      E := (old side ipos).E
        + ∑ idim, (fluxDiff (dg idim) (dt / (dg idim).dv) (fL idim).E (fR idim).E
            + dt * gr idim * (old side ipos).rhou idim)
      fx := fun ifx => (old side ipos).fx ifx * (old side ipos).rho
        + ∑ idim, fluxDiff (dg idim) (dt / (dg idim).dv) ((old 0 idim).fx ifx * (fL idim).rho)
            ((old 1 idim).fx ifx * (fR idim).rho) }

/-- What `godunovCell` computes from what it has read (src/hydro/godunov_scheme.hpp 109-291). -/
def godunovPure [LinearOrder F] (sol : Solver) (eos : EoS F) (tr : Trig F) (geom : Geom) (dt : F) (dg : Fin d → DirGeo F)
    (gr : Fin d → F) (s : Fields d n F) (rm : Fin d → Fin 2 → Fin d → Fields d n F) (r0 : Fin 2 → Fin d → Fields d n F)
    (rp : Fin d → Fin 2 → Fin d → Fields d n F) : Fields d n F :=
  let fL : Fin d → Flux d F := fun idim => sol.flux eos (rm idim 1 idim).cons (r0 0 idim).cons idim
  let fR : Fin d → Flux d F := fun idim => sol.flux eos (r0 1 idim).cons (rp idim 0 idim).cons idim
  let pL : Fin d → Prim d F := fun idim => toPrim eos (r0 0 idim).cons
  let pR : Fin d → Prim d F := fun idim => toPrim eos (r0 1 idim).cons
  let fxL : Fin d → Fin n → F := fun idim ifx => if (fL idim).rho < 0 then (r0 0 idim).fx ifx else (rm idim 1 idim).fx ifx
  let fxR : Fin d → Fin n → F := fun idim ifx => if (fR idim).rho < 0 then (rp idim 0 idim).fx ifx else (r0 1 idim).fx ifx
  { rho := s.rho + ∑ idim, fluxDiff (dg idim) (dt / (dg idim).dv) (fL idim).rho (fR idim).rho
    rhou := fun i => s.rhou i
      + ∑ idim, (momDiff tr geom (dg idim) (dt / (dg idim).dv) (pL idim) (pR idim) (fL idim) (fR idim) idim i
          + if i = idim then dt * gr idim * s.rho else 0)
    E := s.E + ∑ idim, (fluxDiff (dg idim) (dt / (dg idim).dv) (fL idim).E (fR idim).E + dt * gr idim * s.rhou idim)
    fx := fun ifx => s.fx ifx * s.rho
      + ∑ idim, fluxDiff (dg idim) (dt / (dg idim).dv) (fxL idim ifx * (fL idim).rho) (fxR idim ifx * (fR idim).rho) }

end Exact

/-- The computations of the exact model. -/
def exactKernels [Field F] [LinearOrder F] (lim : Limiter) (sol : Solver) (eos : EoS F) (tr : Trig F) (geom : Geom)
    (fix : Option F) : Kernels d n F where
  size xr xl := xr - xl
  center xl xr := (xl + xr) / 2
  areaCart d0 d1 d2 idim := (if idim = 0 then 1 else d0) * (if idim = 1 then 1 else d1) * (if idim = 2 then 1 else d2)
  volCart d0 d1 d2 := d0 * d1 * d2
  areaSph1 r := 4 * tr.pi * r * r
  volSph1 r rp := 4 * tr.pi * (rp * rp * rp - r * r * r) / 3
  areaSph2 r rp t tp := ![2 * tr.pi * r * r * (tr.cos t - tr.cos tp), 2 * tr.pi / 2 * (rp * rp - r * r) * tr.sin t]
  volSph2 r rp t tp := 2 * tr.pi / 3 * (rp * rp * rp - r * r * r) * (tr.cos t - tr.cos tp)
  areaSph3 r rp t tp d0 d1 d2 :=
    ![r * r * (tr.cos t - tr.cos tp) * d2, 1 / 2 * (rp * rp - r * r) * tr.sin t * d2, r * d0 * d1]
  volSph3 r rp t tp d2 := 1 / 3 * (rp * rp * rp - r * r * r) * (tr.cos t - tr.cos tp) * d2
  prim rho q := let s := toPrim eos { rho := rho, rhou := q.rhou, E := q.E }; { u := s.u, P := s.P }
  rate rho q dx xc0 xc1 := ∑ idim : Fin d, (|q.u idim| + eos.sound rho q.P) / dxGeom tr geom d dx xc0 xc1 (ax idim)
  inv m := 1 / m
  half dt := dt / 2
  len a d0 d1 d2 := (kron a.val 0 : ℤ) * d0 + (kron a.val 1 : ℤ) * d1 + (kron a.val 2 : ℤ) * d2
  recon := reconFace lim
  cons rho q := let s := toCons eos { rho := rho, u := q.u, P := q.P }; { rhou := s.rhou, E := s.E }
  predict dt dg gr up old := hancockPure eos tr geom dt dg gr up old
  predictFx f := { f with fx := fun ifx => f.fx ifx / f.rho }
  update dt dg gr s rm r0 rp := godunovPure sol eos tr geom dt dg gr s rm r0 rp
  updateFx s := { s with fx := fun ifx => clamp (s.fx ifx / s.rho) 0 1 }
  fixOn s := match fix with | none => false | some eps => decide (s.E - s.cons.ek < eps * s.cons.ek)
  fixE dt s q um uPl r0 rm rp ds dsp dv := pressureFixEnergy eos dt (fix.getD 0) s q um uPl r0 rm rp ds dsp dv

end Heracles

import Verif.Model.Ghost
import Mathlib.Algebra.Group.Defs

/-!
# Physical boundary conditions

Models of `src/boundary.cpp`, `src/boundary.hpp`, `src/boundary_factory.hpp`,
`src/boundary_distribute.cpp` (order of the conditions) and of the part of `src/main.cpp` that selects
the boundary conditions.
-/

namespace Heracles

/-- Position of direction `a < ndim` among the three array indices (`ndim ≤ 3`). -/
def ax {d : ℕ} (a : Fin d) : Fin 3 := Fin.ofNat 3 a.val

/-- The conserved fields of one cell: `rho`, `rhou(.., 0 .. ndim-1)`, `E`, `fx(.., 0 .. nfx-1)`
(src/main.cpp 187-190). -/
@[ext] structure Fields (d n : ℕ) (K : Type) where
  rho : K
  rhou : Fin d → K
  E : K
  fx : Fin n → K

variable {d n : ℕ} {K : Type}

/-- src/boundary.cpp 43-50 (and 81-88): begin corner of the ghost slab of a face. -/
def slabBegin (ext : Cell) (ng : ℤ) (a : Fin 3) (face : Fin 2) : Cell :=
  Function.update 0 a (if face = 1 then ext a - ng else 0)

/-- src/boundary.cpp 44-51 (and 82-89): end corner of the ghost slab of a face. -/
def slabEnd (ext : Cell) (ng : ℤ) (a : Fin 3) (face : Fin 2) : Cell :=
  Function.update ext a (slabBegin ext ng a face a + ng)

/-- src/boundary.cpp 53. -/
def nullOffset (ext : Cell) (ng : ℤ) (a : Fin 3) (face : Fin 2) : ℤ :=
  if face = 0 then slabEnd ext ng a face a else slabBegin ext ng a face a - 1

/-- src/boundary.cpp 33-69: `null_gradient_condition`, executed in the order `l`.  The four arrays have
equal extents (asserted, src/boundary.hpp 111-112) and are packed in one view; the inner loops over the
momentum components (61-63) and scalars (65-67) copy the whole tuple. -/
def nullGradient (ext : Cell) (ng : ℤ) (a : Fin d) (face : Fin 2) (l : List Cell)
    (v : View Cell (Fields d n K)) : Option (View Cell (Fields d n K)) :=
  parFor l (fun c v => do
    let s ← v.rd (Function.update c (ax a) (nullOffset ext ng (ax a) face))
    v.wr c s) v

/-- src/boundary.cpp 91. -/
def mirrorSum (ext : Cell) (ng : ℤ) (a : Fin 3) (face : Fin 2) : ℤ :=
  if face = 0 then 2 * ng - 1 else 2 * (ext a - ng) - 1

/-- src/boundary.cpp 71-108: `reflexive_condition`, executed in the order `l`. Same packing as
`nullGradient`; the sign change (102) reads back the value just written, as the code does. -/
def reflexive [Neg K] (ext : Cell) (ng : ℤ) (a : Fin d) (face : Fin 2) (l : List Cell)
    (v : View Cell (Fields d n K)) : Option (View Cell (Fields d n K)) :=
  parFor l (fun c v => do
    let s ← v.rd (Function.update c (ax a) (mirrorSum ext ng (ax a) face - c (ax a)))
    let v ← v.wr c s
    let t ← v.rd c
    v.wr c { t with rhou := Function.update t.rhou a (-(t.rhou a)) }) v

/-- The classes derived from `IBoundaryCondition` (src/boundary.hpp 90-165 and the `BoundarySetup`
class of each setup). -/
inductive BcKind
  | nullGradient | periodic | reflexive | userDefined
  deriving DecidableEq, Repr

/-- src/boundary_factory.hpp 31-47. -/
def bcFactory (s : String) : Except String BcKind :=
  if s = "NullGradient" then .ok .nullGradient
  else if s = "Periodic" then .ok .periodic
  else if s = "Reflexive" then .ok .reflexive
  else .error s!"Unknown boundary condition : {s}."

/-- src/main.cpp 268-277, one face. -/
def bcConstruct (s : String) : Except String BcKind :=
  if s = "UserDefined" then .ok .userDefined else bcFactory s

/-- A user boundary condition (`BoundarySetup::execute`) is an arbitrary action on the arrays. -/
abbrev UserBc (d n : ℕ) (K : Type) :=
  Fin d → Fin 2 → View Cell (Fields d n K) → Option (View Cell (Fields d n K))

/-- `IBoundaryCondition::execute` (src/boundary.hpp 103-115, 124-136, 152-164) of the condition
`kind` attached to direction `a` and face `face`. `sched b e` is the order in which the box `[b, e)` is
traversed. -/
def bcExecute [Neg K] (user : UserBc d n K) (sched : Cell → Cell → List Cell) (kind : BcKind)
    (ext : Cell) (nghost : Cell) (a : Fin d) (face : Fin 2) (v : View Cell (Fields d n K)) :
    Option (View Cell (Fields d n K)) :=
  let ng := nghost (ax a)
  let l := sched (slabBegin ext ng (ax a) face) (slabEnd ext ng (ax a) face)
  match kind with
  | .nullGradient => nullGradient ext ng a face l v
  | .periodic => some v
  | .reflexive => reflexive ext ng a face l v
  | .userDefined => user a face v

/-- src/boundary_distribute.hpp 69-75: the loop over the faces in the order `m_bc_order`. A slot of the
order that was never assigned (`none`) or out of range is undefined behaviour. -/
def bcLoop [Neg K] (user : UserBc d n K) (sched : Cell → Cell → List Cell)
    (bcs : Fin d → Fin 2 → BcKind) (isBorder : Fin 3 → Fin 2 → Bool) (ext nghost : Cell)
    (order : List (Option ℕ)) (v : View Cell (Fields d n K)) : Option (View Cell (Fields d n K)) :=
  order.foldlM (fun v slot => do
    let id ← slot
    if h : id / 2 < d then
      let a : Fin d := ⟨id / 2, h⟩
      let face : Fin 2 := Fin.ofNat 2 (id % 2)
      if isBorder (ax a) face then
        bcExecute user sched (bcs a face) ext nghost a face v
      else some v
    else none) v

/-- src/boundary_distribute.hpp 43-76: `DistributedBoundaryCondition::operator()` as seen from rank
`rank`: halo exchange of all ranks, then the physical conditions of this rank. -/
def bcUpdate [Neg K] (user : UserBc d n K) (sched : Cell → Cell → List Cell)
    (bcs : Fin d → Fin 2 → BcKind) (isBorder : Cell → Fin 3 → Fin 2 → Bool) (nghost dims : Cell)
    (order : List (Option ℕ)) (D : DistView (Fields d n K)) (rank : Cell) :
    Option (View Cell (Fields d n K)) := do
  let D ← ghostSyncAll d nghost dims D
  bcLoop user sched bcs (isBorder rank) (D.ext rank) nghost order ⟨inExt (D.ext rank), D.val rank⟩

/-! ## Order of the boundary conditions -/

/-- Characters skipped by `std::istream >> std::string` in the "C" locale (src/boundary_distribute.cpp
40-43). -/
def isSpaceC (c : Char) : Bool :=
  c == ' ' || c == '\t' || c == '\n' || c == '\x0b' || c == '\x0c' || c == '\r'

/-- The successive words extracted by `ssin >> word` (src/boundary_distribute.cpp 40-43): `cur` is the
word being read, reversed. -/
def wordsAux : List Char → List Char → List (List Char)
  | [], [] => []
  | [], c :: cur => [(c :: cur).reverse]
  | c :: cs, [] => if isSpaceC c then wordsAux cs [] else wordsAux cs [c]
  | c :: cs, d :: cur =>
    if isSpaceC c then (d :: cur).reverse :: wordsAux cs [] else wordsAux cs (c :: d :: cur)

/-- All the words of a string. -/
def wordsOf (s : List Char) : List (List Char) := wordsAux s []

/-- src/boundary_distribute.cpp 47-65: the slot assigned for a word (`none`: no branch taken). -/
def faceSlot (ndim : ℕ) (w : List Char) : Option ℕ :=
  if w = ['X', '_', 'l', 'e', 'f', 't'] then some 0
  else if w = ['X', '_', 'r', 'i', 'g', 'h', 't'] then some 1
  else if w = ['Y', '_', 'l', 'e', 'f', 't'] ∧ 2 ≤ ndim then some 2
  else if w = ['Y', '_', 'r', 'i', 'g', 'h', 't'] ∧ 2 ≤ ndim then some 3
  else if w = ['Z', '_', 'l', 'e', 'f', 't'] ∧ ndim = 3 then some 4
  else if w = ['Z', '_', 'r', 'i', 'g', 'h', 't'] ∧ ndim = 3 then some 5
  else none

/-- src/boundary_distribute.cpp 33-71: `generate_order`. The member array `m_bc_order` is not
initialised before the call (src/boundary_distribute.hpp 34): its slots start as `none`.
`nfaces = 2 * ndim`; `tmp_arr[i]` is the `i`-th word or the empty string (39-43). -/
def generateOrder (ndim : ℕ) (priority : List Char) : Except String (List (Option ℕ)) :=
  let nfaces := 2 * ndim
  if priority = [] then .ok ((List.range nfaces).map some)
  else
    let tmp : ℕ → List Char := fun i => (wordsOf priority).getD i []
    let st := (List.range nfaces).foldl (fun (st : List (Option ℕ) × ℕ) i =>
      match faceSlot ndim (tmp i) with
      | some f => (st.1.set f (some i), st.2 + 1)
      | none => st) (List.replicate nfaces none, 0)
    if st.2 ≠ nfaces then .error "boundary priority not fully defined !"
    else .ok st.1.reverse

/-! ## Selection of the boundary conditions -/

/-- `INIReader::Get` (vendor/inih/src/INIReader.cpp 32-37) on section "Boundary Condition": `get name`
is the stored value if the key exists. The key is case-insensitive; see the model of the reader. -/
def iniGet (get : String → Option String) (name : String) (dflt : String) : String :=
  (get name).getD dflt

/-- src/boundary.cpp 21-25. -/
def bcDirName (a : Fin 3) : String := ["_X0", "_X1", "_X2"].getD a.val ""

/-- src/boundary.cpp 27-31. -/
def bcFaceName (f : Fin 2) : String := ["_left", "_right"].getD f.val ""

/-- src/utils/param.cpp 63 and src/main.cpp 176-185: resolved choice of one face. -/
def bcChoice (get : String → Option String) (a : Fin 3) (f : Fin 2) : Except String String :=
  let global := iniGet get "BC" ""
  let dir := iniGet get ("BC" ++ bcDirName a) global
  let face := iniGet get ("BC" ++ bcDirName a ++ bcFaceName f) dir
  if face = "" then .error ("boundary condition not fully defined for dimension " ++ bcDirName a)
  else .ok face

/-- src/main.cpp 176-185 then 268-277: first all choices are resolved, then all conditions are built,
both loops over directions and faces. -/
def bcSelect (ndim : ℕ) (get : String → Option String) : Except String (List BcKind) := do
  let faces := ((List.finRange 3).filter (fun a => a.val < ndim)).flatMap fun a =>
    [(a, (0 : Fin 2)), (a, (1 : Fin 2))]
  let choices ← faces.mapM fun (a, f) => bcChoice get a f
  choices.mapM bcConstruct

end Heracles

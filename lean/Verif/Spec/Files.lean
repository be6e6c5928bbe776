import Verif.Model.Files
import Verif.Spec.Xml
import Verif.Spec.Ghost

/-!
# What an output file is expected to hold
-/

namespace Heracles.Files
open Output Xml

variable {K : Type}

/-- The file has a dataset of this name over the cells of the domain, with the values of `G`; the last direction is the first index. -/
def HasField (f : H5 K) (n : Cell) (name : List Char) (G : Cell → K) : Prop :=
  ∃ D, f.arr name = some D ∧ D.sizes = [n 2, n 1, n 0] ∧ ∀ c, inBox 0 n c → D.val [c 2, c 1, c 0] = G c

/-- The file has a dataset of this name with `m` values, those of `x`. -/
def HasLine (f : H5 K) (name : List Char) (m : ℤ) (x : ℤ → K) : Prop :=
  ∃ D, f.arr name = some D ∧ D.sizes = [m] ∧ ∀ i, 0 ≤ i → i < m → D.val [i] = x i

/-- The file of a state: counters, time, nodes with and without ghosts, and one dataset for every field, component of the velocity and passive scalar.
`G s l` is component `l` of the field `s` over the whole domain, `X` are the nodes. -/
structure Holds (ndim nfx : ℕ) (n g : Cell) (outputId iterOutputId timeOutputId iter : ℤ) (t gamma : K) (X : Fin 3 → ℤ → K)
    (G : Source → ℕ → Cell → K) (f : H5 K) : Prop where
  outputId : f.int "output_id".toList = some outputId
  iterOutputId : f.int "iter_output_id".toList = some iterOutputId
  timeOutputId : f.int "time_output_id".toList = some timeOutputId
  iter : f.int "iter".toList = some iter
  time : ∃ D, f.arr "current_time".toList = some D ∧ D.sizes = [] ∧ D.val [] = t
  gamma : ∃ D, f.arr "gamma".toList = some D ∧ D.sizes = [] ∧ D.val [] = gamma
  nodes : ∀ a : Fin 3, HasLine f ("x".toList ++ decimal a) (n a + 2 * g a + 1) (X a)
  inner : ∀ a : Fin 3, HasLine f ("x".toList ++ decimal a ++ "_ng".toList) (n a + 1) fun i => X a (i + g a)
  rho : HasField f n "rho".toList (G .rho 0)
  P : HasField f n "P".toList (G .P 0)
  E : HasField f n "E".toList (G .E 0)
  T : HasField f n "T".toList (G .T 0)
  u : ∀ a < ndim, HasField f n ("ux".toList ++ decimal a) (G .u a)
  fx : ∀ i < nfx, HasField f n ("fx".toList ++ decimal i) (G .fx i)

/-- Sizes as the index writes them. -/
def sizesText : List ℤ → List Char
  | [] => []
  | [m] => decimalInt m
  | m :: ms => decimalInt m ++ [' '] ++ sizesText ms

/-- A node of the index refers to the dataset at `path` and announces the sizes `dims`. -/
inductive Refers : Node → List Char → List Char → Prop
  | item {attrs dims path} : ("Dimensions".toList, dims) ∈ attrs → Refers (.elem "DataItem".toList attrs [.text path]) dims path
  | child {name attrs cs c dims path} : c ∈ cs → Refers c dims path → Refers (.elem name attrs cs) dims path

end Heracles.Files

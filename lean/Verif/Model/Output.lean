import Verif.Model.Casts
import Mathlib.Tactic.Ring

/-!
# Output file names and the XDMF index

Models of `get_output_filename`, `IndentFn` and `XmlWriter` of `src/io/io.cpp`. Strings are lists of characters; a file is the characters
written to it. Opening and flushing the file is not modelled.
-/

namespace Heracles.Output

/-- The character of a decimal digit. -/
def digit (k : ℕ) : Char := Char.ofNat (48 + k)

/-- `operator<<` of a stream for an unsigned number, in base ten, without padding. -/
def decimal (n : ℕ) : List Char := if n < 10 then [digit n] else decimal (n / 10) ++ [digit (n % 10)]
  decreasing_by omega

/-- `operator<<` of a stream for an `int`. -/
def decimalInt : ℤ → List Char
  | .ofNat n => decimal n
  | .negSucc n => '-' :: decimal (n + 1)

/-- `std::setw(w)` with `std::setfill(c)` (right adjusted, the default of a new stream). -/
def padLeft (w : ℕ) (c : Char) (s : List Char) : List Char := List.replicate (w - s.length) c ++ s

/-- src/io/io.cpp 62-74: `get_output_filename`. -/
def outputFilename (pre : List Char) (num : ℕ) : List Char :=
  pre ++ ['_'] ++ padLeft 8 '0' (decimal num) ++ ".h5".toList

/-- `std::size_t`. -/
def sizeT : IntType := { bits := 64, signed := false }

/-- src/io/io.cpp 207: the name used by `write_pdi`; `output_id` is converted from `int` to `std::size_t`. -/
def writeName (pre : List Char) (outputId : ℤ) : List Char := outputFilename pre (staticCast sizeT outputId).toNat

/-- src/io/io.cpp 76-122: `IndentFn`, with the text written so far. `m_max_level` and `m_indent_width` are constant. -/
structure Doc where
  level : ℕ
  maxLevel : ℕ
  width : ℕ
  text : List Char

/-- src/io/io.cpp 93-98: a new indentation, with the default arguments (line 466), and an empty file. -/
def Doc.new : Doc := { level := 0, maxLevel := 10, width := 2, text := [] }

/-- src/io/io.cpp 100-107: `push`. -/
def Doc.push (s : Doc) : Except String Doc :=
  if s.level = s.maxLevel then .error "Level out of bound" else .ok { s with level := s.level + 1 }

/-- src/io/io.cpp 109-116: `pop`. -/
def Doc.pop (s : Doc) : Except String Doc :=
  if s.level = 0 then .error "Level out of bound" else .ok { s with level := s.level - 1 }

/-- `file << x`. -/
def Doc.put (s : Doc) (x : List Char) : Doc := { s with text := s.text ++ x }

/-- src/io/io.cpp 87-90 and 118-121: `file << indent`; `substr` stops at the end of the spaces. -/
def Doc.indent (s : Doc) : Doc := s.put ((List.replicate (s.width * s.maxLevel) ' ').take (s.width * s.level))

/-- src/io/io.cpp 433-445: `m_var_names`; `nfx` and `ndim` are the numbers of scalars and of dimensions. -/
def varNames (nfx ndim : ℕ) : List (List Char) :=
  ["rho".toList, "P".toList, "E".toList, "T".toList] ++ (List.range nfx).map (fun i => "fx".toList ++ decimal i)
    ++ ["ux0".toList, "ux1".toList, "ux2".toList].take ndim

/-- What the writer gets of the grid and of the arrays `x0`, `x1`, `x2`. -/
structure XmlGrid where
  ncells : Fin 3 → ℤ
  nghost : Fin 3 → ℤ
  extent : Fin 3 → ℤ

/-- src/io/io.cpp 496-500 (with `+ 1`) and 536-540: the loop that writes three numbers and the closing quote. -/
def dimensions (n : Fin 3 → ℤ) : List Char :=
  decimalInt (n 2) ++ " ".toList ++ decimalInt (n 1) ++ " ".toList ++ decimalInt (n 0) ++ "\"".toList

/-- src/io/io.cpp 508: `axes_labels`. -/
def axisLabel (a : Fin 3) : List Char := if a = 0 then "x0_ng".toList else if a = 1 then "x1_ng".toList else "x2_ng".toList

/-- src/io/io.cpp 509-522: one axis. -/
def writeAxis (g : XmlGrid) (file : List Char) (s : Doc) (a : Fin 3) : Except String Doc := do
  let s ← s.push
  let s := s.indent.put "<DataItem".toList
  let s := s.put (" NumberType=".toList ++ "\"".toList ++ "Float".toList ++ "\"".toList)
  let s := s.put (" Precision=".toList ++ "\"".toList ++ decimal 8 ++ "\"".toList)
  let s := s.put (" Dimensions=".toList ++ "\"".toList ++ decimalInt (g.extent a - 2 * g.nghost a) ++ "\"".toList)
  let s := s.put (" Format=".toList ++ "\"".toList ++ "HDF".toList ++ "\"".toList)
  let s := s.put ">\n".toList
  let s ← s.push
  let s := s.indent.put (file ++ ":/".toList ++ axisLabel a ++ "\n".toList)
  let s ← s.pop
  let s := s.indent.put "</DataItem>\n".toList
  s.pop

/-- src/io/io.cpp 526-551: one variable. -/
def writeVar (g : XmlGrid) (file : List Char) (s : Doc) (v : List Char) : Except String Doc := do
  let s := s.indent.put "<Attribute".toList
  let s := s.put (" Center=".toList ++ "\"".toList ++ "Cell".toList ++ "\"".toList)
  let s := s.put (" Name=".toList ++ "\"".toList ++ v ++ "\"".toList)
  let s := s.put (" AttributeType=".toList ++ "\"".toList ++ "Scalar".toList ++ "\"".toList)
  let s := s.put ">\n".toList
  let s ← s.push
  let s := s.indent.put "<DataItem".toList
  let s := s.put (" NumberType=".toList ++ "\"".toList ++ "Float".toList ++ "\"".toList)
  let s := s.put (" Precision=".toList ++ "\"".toList ++ decimal 8 ++ "\"".toList)
  let s := s.put (" Dimensions=".toList ++ "\"".toList ++ dimensions g.ncells)
  let s := s.put (" Format=".toList ++ "\"".toList ++ "HDF".toList ++ "\"".toList)
  let s := s.put ">\n".toList
  let s ← s.push
  let s := s.indent.put (file ++ ":/".toList ++ v ++ "\n".toList)
  let s ← s.pop
  let s := s.indent.put "</DataItem>\n".toList
  let s ← s.pop
  return s.indent.put "</Attribute>\n".toList

/-- src/io/io.cpp 483-557: one output; `time` are the characters `operator<<` writes for `outputs_record[i].second`, `num` is
`first_output_id + i`. -/
def writeOutput (g : XmlGrid) (pre : List Char) (vars : List (List Char)) (s : Doc) (num : ℕ) (time : List Char) : Except String Doc := do
  let s ← s.push
  let s := s.indent.put "<Grid".toList
  let s := s.put (" Name=".toList ++ "\"".toList ++ "output".toList ++ "\"".toList)
  let s := s.put (" GridType=".toList ++ "\"".toList ++ "Uniform".toList ++ "\"".toList)
  let s := s.put ">\n".toList
  let s ← s.push
  let s := s.indent.put "<Time".toList
  let s := s.put (" Value=".toList ++ "\"".toList ++ time ++ "\"".toList)
  let s := s.put "/>\n".toList
  let s := s.indent.put "<Topology".toList
  let s := s.put (" TopologyType=".toList ++ "\"".toList ++ "3DRectMesh".toList ++ "\"".toList)
  let s := s.put (" Dimensions=".toList ++ "\"".toList)
  let s := s.put (dimensions fun a => g.ncells a + 1)
  let s := s.put "/>\n".toList
  let s := s.indent.put "<Geometry".toList
  let s := s.put (" GeometryType=".toList ++ "\"".toList ++ "VXVYVZ".toList ++ "\"".toList)
  let s := s.put ">\n".toList
  let file := outputFilename pre num
  let s ← (List.finRange 3).foldlM (writeAxis g file) s
  let s := s.indent.put "</Geometry>\n".toList
  let s ← vars.foldlM (writeVar g file) s
  let s ← s.pop
  let s := s.indent.put "</Grid>\n".toList
  s.pop

/-- src/io/io.cpp 481: `first_output_id`, computed in `std::size_t` from the `int` `output_id`: modulo `2^64`. `n` is
`outputs_record.size()`. -/
def firstOutputId (outputId : ℤ) (n : ℕ) : ℕ := (staticCast sizeT (outputId + 1 - n)).toNat

/-- src/io/io.cpp 447-565: the characters of the file written by rank 0. `shown` turns a time into the characters the stream writes
for it; `outputs_record` is used only through its times. `first_output_id + i` wraps like the `std::size_t` it is. -/
def writeXml {K : Type} (shown : K → List Char) (g : XmlGrid) (pre : List Char) (nfx ndim : ℕ) (outputId : ℤ) (times : List K) :
    Except String (List Char) := do
  let s := Doc.new
  let s := s.indent.put "<?xml version=\"1.0\"?>\n".toList
  let s := s.indent.put "<!DOCTYPE Xdmf SYSTEM \"Xdmf.dtd\" []>\n".toList
  let s := s.indent.put "<Xdmf Version=\"2.0\">\n".toList
  let s ← s.push
  let s := s.indent.put "<Domain>\n".toList
  let s ← s.push
  let s := s.indent.put "<Grid".toList
  let s := s.put (" Name=".toList ++ "\"".toList ++ "TimeSeries".toList ++ "\"".toList)
  let s := s.put (" GridType=".toList ++ "\"".toList ++ "Collection".toList ++ "\"".toList)
  let s := s.put (" CollectionType=".toList ++ "\"".toList ++ "Temporal".toList ++ "\"".toList)
  let s := s.put ">\n".toList
  let s ← (List.finRange times.length).foldlM (fun s (i : Fin times.length) =>
    writeOutput g pre (varNames nfx ndim) s ((firstOutputId outputId times.length + i.val) % 2 ^ 64) (shown (times.get i))) s
  let s := s.indent.put "</Grid>\n".toList
  let s ← s.pop
  let s := s.indent.put "</Domain>\n".toList
  let s ← s.pop
  return (s.indent.put "</Xdmf>\n".toList).text

end Heracles.Output

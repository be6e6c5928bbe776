/-!
# Configuration files

Parser of the configuration file (vendor/inih/src/ini.c) and typed lookups (vendor/inih/src/INIReader.cpp). The options of
vendor/inih/include/inih/ini.h 71-103 have their default values (the CMake files define none): multi-line values, byte order mark, inline comments
introduced by `;`, no stop on the first error, lines of at most 199 bytes.

Bytes are modelled as characters, `isspace` and `tolower` are those of the "C" locale. Strings are lists of characters. `fgets` and
`strtol` follow the C standard; `strtod` is a parameter.
-/

namespace Heracles

abbrev Str := List Char

/-- `isspace` (C standard). -/
def iniSpace (c : Char) : Bool :=
  c = ' ' || c = '\t' || c = '\n' || c = Char.ofNat 11 || c = Char.ofNat 12 || c = '\r'

/-- vendor/inih/src/ini.c 34-40. -/
def rstrip (s : Str) : Str := (s.reverse.dropWhile iniSpace).reverse

/-- vendor/inih/src/ini.c 43-48. -/
def lskip (s : Str) : Str := s.dropWhile iniSpace

/-- vendor/inih/src/ini.c 53-68: the characters before the first one of `chars` or before an inline comment, and the rest from there on.
`chars = []` stands for the null pointer. `was` is the variable `was_space`, initially false. -/
def findCharsOrComment (chars : Str) (was : Bool) : Str → Str × Str
  | [] => ([], [])
  | c :: s =>
    if chars.contains c || (was && c = ';') then ([], c :: s)
    else
      let r := findCharsOrComment chars (iniSpace c) s
      (c :: r.1, r.2)

/-- vendor/inih/src/ini.c 71-76. -/
def strncpy0 (src : Str) (size : Nat) : Str := src.take (size - 1)

/-- vendor/inih/src/ini.c 24-25. -/
def maxSection : Nat := 50
def maxName : Nat := 50

/-- vendor/inih/include/inih/ini.h 103. -/
def iniMaxLine : Nat := 200

/-- Successive results of `fgets(line, num, stream)` until it returns the null pointer (C standard; called at
vendor/inih/src/ini.c 112 and 190): at most `num - 1` characters, the newline included when there is one. `left` is the number of characters that still
fit, `cur` those already read. -/
def fgetsLoop (num : Nat) : Nat → Str → Str → List Str
  | _, cur, [] => if cur.isEmpty then [] else [cur]
  | left, cur, c :: s =>
    if c = '\n' || left ≤ 1 then (cur ++ [c]) :: fgetsLoop num (num - 1) [] s
    else fgetsLoop num (left - 1) (cur ++ [c]) s

def fgetsAll (num : Nat) (s : Str) : List Str := fgetsLoop num (num - 1) [] s

/-- Local variables of the parser (vendor/inih/src/ini.c 88-96) and the object it fills: the map from keys to values
(vendor/inih/include/inih/INIReader.hpp, `_values`), `none` for absent keys. -/
structure IniState where
  sec : Str := []
  prevName : Str := []
  lineno : Nat := 0
  error : Nat := 0
  values : Str → Option Str := fun _ => none

/-- vendor/inih/src/INIReader.cpp 120-126. -/
def makeKey (sec name : Str) : Str := (sec ++ '=' :: name).map Char.toLower

/-- vendor/inih/src/INIReader.cpp 128-137; always returns 1. -/
def valueHandler (st : IniState) (sec name value : Str) : IniState :=
  let key := makeKey sec name
  let old := (st.values key).getD []
  let new := if old.length > 0 then old ++ '\n' :: value else value
  { st with values := fun k => if k = key then some new else st.values k }

/-- `if (!error) error = lineno`. -/
def IniState.fail (st : IniState) : IniState := { st with error := if st.error = 0 then st.lineno else st.error }

/-- Bytes of the byte order mark: vendor/inih/src/ini.c 116-121. -/
def bom : Str := [Char.ofNat 0xEF, Char.ofNat 0xBB, Char.ofNat 0xBF]

/-- One iteration of the loop of `ini_parse_stream`: vendor/inih/src/ini.c 113-179. The buffer is a C string: it ends at the first null
character. `moved` is `start > line`. -/
def iniLine (st0 : IniState) (buf : Str) : IniState :=
  let st := { st0 with lineno := st0.lineno + 1 }
  let line := buf.takeWhile (· ≠ Char.ofNat 0)
  let skip := if st.lineno = 1 ∧ line.take 3 = bom then 3 else 0
  let body := rstrip (line.drop skip)
  let start := lskip body
  let moved := skip > 0 || start.length < body.length
  if start.head? = some ';' ∨ start.head? = some '#' then st
  else if st.prevName ≠ [] ∧ start ≠ [] ∧ moved then valueHandler st st.sec st.prevName start
  else if start.head? = some '[' then
    let r := findCharsOrComment [']'] false start.tail
    if r.2.head? = some ']' then { st with sec := strncpy0 r.1 maxSection, prevName := [] } else st.fail
  else if start ≠ [] then
    let r := findCharsOrComment ['=', ':'] false start
    if r.2.head? = some '=' ∨ r.2.head? = some ':' then
      let name := rstrip r.1
      let value := rstrip (lskip (findCharsOrComment [] false r.2.tail).1)
      valueHandler { st with prevName := strncpy0 name maxName } st.sec name value
    else st.fail
  else st

/-- vendor/inih/src/ini.c 79-187 with `fgets` as reader (190-193). -/
def iniParse (file : Str) : IniState := (fgetsAll iniMaxLine file).foldl iniLine {}

/-- vendor/inih/src/INIReader.cpp 19-30, for a file that can be opened: the map, or the exception. -/
def iniReader (file : Str) : Except String (Str → Option Str) :=
  let st := iniParse file
  if st.error = 0 then .ok st.values else .error s!"Parsing error at line {st.error}"

/-- vendor/inih/src/INIReader.cpp 32-37. -/
def iniLookup (values : Str → Option Str) (sec name dflt : Str) : Str := (values (makeKey sec name)).getD dflt

/-- The digits at the start of a string, as a natural number, and their number. -/
def digitsPrefix : Str → Nat → Nat × Nat
  | [], acc => (acc, 0)
  | c :: s, acc => if c.isDigit then let r := digitsPrefix s (acc * 10 + (c.toNat - '0'.toNat)); (r.1, r.2 + 1) else (acc, 0)

/-- `std::stoi(str)` with the default base 10 (C++ standard, through `strtol`): leading white space, optional sign, digits; what follows is
ignored. -/
def stoi (s : Str) : Except String Int :=
  let t := lskip s
  let neg := t.head? = some '-'
  let u := if t.head? = some '-' ∨ t.head? = some '+' then t.tail else t
  let r := digitsPrefix u 0
  let v : Int := if neg then - (r.1 : Int) else r.1
  if r.2 = 0 then .error "stoi: invalid_argument"
  else if v < -2147483648 ∨ 2147483647 < v then .error "stoi: out_of_range"
  else .ok v

/-- vendor/inih/src/INIReader.cpp 64-69. -/
def iniGetInteger (values : Str → Option Str) (sec name : Str) (dflt : Int) : Except String Int :=
  let valstr := iniLookup values sec name []
  if valstr.isEmpty then .ok dflt else stoi valstr

/-- vendor/inih/src/INIReader.cpp 91-95; `stod` is a parameter. -/
def iniGetReal {K : Type} (stod : Str → Except String K) (values : Str → Option Str) (sec name : Str) (dflt : K) : Except String K :=
  let valstr := iniLookup values sec name []
  if valstr.isEmpty then .ok dflt else stod valstr

/-- vendor/inih/src/INIReader.cpp 105-115 (the lambda `stob`). -/
def stob (s : Str) : Except String Bool :=
  let l := s.map Char.toLower
  if l = "true".toList ∨ l = "yes".toList ∨ l = "on".toList ∨ l = "1".toList then .ok true
  else if l = "false".toList ∨ l = "no".toList ∨ l = "off".toList ∨ l = "0".toList then .ok false
  else .error "stob"

/-- vendor/inih/src/INIReader.cpp 103-118. -/
def iniGetBoolean (values : Str → Option Str) (sec name : Str) (dflt : Bool) : Except String Bool :=
  let valstr := iniLookup values sec name []
  if valstr.isEmpty then .ok dflt else stob valstr

end Heracles

import Verif.Model.Inputs
import Mathlib.Tactic.SplitIfs

/-!
# The parser with a table

The parser of configuration files (Model/Ini) with the stored values in a list, which can be computed.
-/

namespace Heracles

/-- `IniState` with a list of keys and values; the latest value of a key comes first. -/
structure TabState where
  sec : Str := []
  prevName : Str := []
  lineno : Nat := 0
  error : Nat := 0
  values : List (Str × Str) := []
  deriving DecidableEq

/-- `valueHandler`. -/
def TabState.put (st : TabState) (sec name value : Str) : TabState :=
  let key := makeKey sec name
  let old := (st.values.lookup key).getD []
  let new := if old.length > 0 then old ++ '\n' :: value else value
  { st with values := (key, new) :: st.values }

/-- `IniState.fail`. -/
def TabState.fail (st : TabState) : TabState := { st with error := if st.error = 0 then st.lineno else st.error }

/-- `iniLine`. -/
def tabLine (st0 : TabState) (buf : Str) : TabState :=
  let st := { st0 with lineno := st0.lineno + 1 }
  let line := buf.takeWhile (· ≠ Char.ofNat 0)
  let skip := if st.lineno = 1 ∧ line.take 3 = bom then 3 else 0
  let body := rstrip (line.drop skip)
  let start := lskip body
  let moved := skip > 0 || start.length < body.length
  if start.head? = some ';' ∨ start.head? = some '#' then st
  else if st.prevName ≠ [] ∧ start ≠ [] ∧ moved then st.put st.sec st.prevName start
  else if start.head? = some '[' then
    let r := findCharsOrComment [']'] false start.tail
    if r.2.head? = some ']' then { st with sec := strncpy0 r.1 maxSection, prevName := [] } else st.fail
  else if start ≠ [] then
    let r := findCharsOrComment ['=', ':'] false start
    if r.2.head? = some '=' ∨ r.2.head? = some ':' then
      let name := rstrip r.1
      let value := rstrip (lskip (findCharsOrComment [] false r.2.tail).1)
      TabState.put { st with prevName := strncpy0 name maxName } st.sec name value
    else st.fail
  else st

/-- The state the list stands for. -/
def TabState.state (t : TabState) : IniState :=
  { sec := t.sec, prevName := t.prevName, lineno := t.lineno, error := t.error, values := fun k => t.values.lookup k }

theorem TabState.put_state (t : TabState) (sec name value : Str) : (t.put sec name value).state = valueHandler t.state sec name value := by
  unfold TabState.put valueHandler TabState.state
  simp only [IniState.mk.injEq, true_and]
  funext k
  rw [List.lookup_cons]
  by_cases h : k = makeKey sec name
  · rw [h]; simp
  · rw [if_neg h]
    have : (k == makeKey sec name) = false := by simpa using h
    rw [this]

theorem tabLine_state (t : TabState) (buf : Str) : (tabLine t buf).state = iniLine t.state buf := by
  unfold tabLine iniLine
  simp only [apply_ite TabState.state, TabState.put_state]
  rfl

theorem tabFold_state (l : List Str) (t : TabState) : (l.foldl tabLine t).state = l.foldl iniLine t.state := by
  induction l generalizing t with
  | nil => rfl
  | cons b l ih => rw [List.foldl_cons, List.foldl_cons, ih, tabLine_state]

/-- A table as it is written down. -/
def tableOf (t : List (String × String)) : List (Str × Str) := t.map fun p => (p.1.toList, p.2.toList)

/-- What the parser stores is a table that can be computed. -/
theorem reader_table {text : Str} {table : List (Str × Str)}
    (h : ((fgetsAll iniMaxLine text).foldl tabLine {}).values = table ∧ ((fgetsAll iniMaxLine text).foldl tabLine {}).error = 0) :
    iniReader text = .ok fun k => table.lookup k := by
  have e : iniParse text = ((fgetsAll iniMaxLine text).foldl tabLine {}).state := by
    rw [tabFold_state]; rfl
  unfold iniReader
  simp only
  rw [e]
  rw [if_pos (by exact h.2)]
  unfold TabState.state
  rw [h.1]

end Heracles

import Verif.Model.Ini

/-!
# Specification: what a configuration file says

Abstract syntax of well-formed configuration files: blank lines, comments, section headers and entries, with their layout, and the text they are
written as. Nothing here refers to the parser (only to the notion of white space and to the type of strings).
-/

namespace Heracles

/-- White space inside a line. -/
def Blank (s : Str) : Prop := ∀ c ∈ s, iniSpace c = true ∧ c ≠ '\n'

/-- Text inside a line: neither end of line nor null character. -/
def InLine (s : Str) : Prop := ∀ c ∈ s, c ≠ '\n' ∧ c ≠ Char.ofNat 0

/-- Neither the first nor the last character is white space. -/
def Trimmed (s : Str) : Prop := (∀ c, s.head? = some c → iniSpace c = false) ∧ ∀ c, s.getLast? = some c → iniSpace c = false

/-- No inline comment: no semicolon after white space. -/
def NoInline (s : Str) : Prop := ∀ pre c post, s = pre ++ c :: ';' :: post → iniSpace c = false

/-- One line of a configuration file. `ws` is its indentation. -/
inductive IniItem
  /-- an empty line -/
  | blank (ws : Str)
  /-- `ws ; text` or `ws # text` -/
  | comment (ws : Str) (mark : Char) (text : Str)
  /-- `ws [name] junk` -/
  | header (ws name junk : Str)
  /-- `ws name p1 = p2 value p3 tail`, where the tail is empty or a comment `;...` -/
  | entry (ws name p1 : Str) (sep : Char) (p2 value p3 tail : Str)
  /-- `ws text ws'`: an indented line that continues the value of the last entry -/
  | cont (ws text ws' : Str)

/-- The text of the line, without end of line. -/
def IniItem.text : IniItem → Str
  | .blank ws => ws
  | .comment ws mark text => ws ++ mark :: text
  | .header ws name junk => ws ++ ('[' :: name ++ ']' :: junk)
  | .entry ws name p1 sep p2 value p3 tail => ws ++ (name ++ p1 ++ sep :: (p2 ++ value ++ p3 ++ tail))
  | .cont ws text ws' => ws ++ (text ++ ws')

/-- Well-formed lines, when `prev` is the name of the last entry of the section if there is one. A header or an entry may be indented only if
there is none. -/
def IniItem.WF (prev : Option Str) : IniItem → Prop
  | .blank ws => Blank ws
  | .comment ws mark text => Blank ws ∧ (mark = ';' ∨ mark = '#') ∧ InLine text
  | .header ws name junk => Blank ws ∧ (ws = [] ∨ prev = none) ∧ InLine name ∧ InLine junk ∧ ']' ∉ name ∧ NoInline name ∧ name.length ≤ 49
  | .entry ws name p1 sep p2 value p3 tail =>
    Blank ws ∧ (ws = [] ∨ prev = none) ∧
    InLine name ∧ Trimmed name ∧ name ≠ [] ∧ (∀ c, name.head? = some c → c ≠ ';' ∧ c ≠ '#' ∧ c ≠ '[') ∧ '=' ∉ name ∧ ':' ∉ name ∧ NoInline name ∧
    Blank p1 ∧ (sep = '=' ∨ sep = ':') ∧
    Blank p2 ∧ InLine value ∧ Trimmed value ∧ NoInline (p2 ++ value) ∧
    Blank p3 ∧ (tail = [] ∨ (p3 ≠ [] ∧ tail.head? = some ';' ∧ InLine tail))
  | .cont ws text ws' => Blank ws ∧ ws ≠ [] ∧ InLine text ∧ Trimmed text ∧ text ≠ [] ∧ (∀ c, text.head? = some c → c ≠ ';' ∧ c ≠ '#') ∧ Blank ws' ∧
    ∃ p, prev = some p ∧ p.length ≤ 49

/-- The name of the last entry of the section after the line. -/
def IniItem.next (prev : Option Str) : IniItem → Option Str
  | .header _ _ _ => none
  | .entry _ name _ _ _ _ _ _ => some name
  | _ => prev

/-- All lines are well formed. -/
def LinesWF : (prev : Option Str) → List IniItem → Prop
  | _, [] => True
  | prev, it :: rest => it.WF prev ∧ LinesWF (it.next prev) rest

/-- The text of a file. -/
def fileText (items : List IniItem) : Str := items.flatMap fun it => it.text ++ ['\n']

/-- The lines are well formed and fit in the buffer, and the file does not start with a byte order mark. -/
def FileOk (items : List IniItem) : Prop :=
  LinesWF none items ∧ (∀ it ∈ items, it.text.length ≤ 198) ∧ (fileText items).take 3 ≠ [Char.ofNat 0xEF, Char.ofNat 0xBB, Char.ofNat 0xBF]

/-- Letters without case. -/
def lower (s : Str) : Str := s.map Char.toLower

/-- The values given to `name` in section `sec`, in order; `cur` is the current section, `prev` the name of its last entry. Letter case is
ignored. -/
def valuesOf (sec name : Str) : (cur : Str) → (prev : Option Str) → List IniItem → List Str
  | _, _, [] => []
  | _, _, .header _ s _ :: rest => valuesOf sec name s none rest
  | cur, _, .entry _ n _ _ _ v _ _ :: rest =>
    if lower cur = lower sec ∧ lower n = lower name then v :: valuesOf sec name cur (some n) rest else valuesOf sec name cur (some n) rest
  | cur, some n, .cont _ v _ :: rest =>
    if lower cur = lower sec ∧ lower n = lower name then v :: valuesOf sec name cur (some n) rest else valuesOf sec name cur (some n) rest
  | cur, none, .cont _ _ _ :: rest => valuesOf sec name cur none rest
  | cur, prev, .blank _ :: rest => valuesOf sec name cur prev rest
  | cur, prev, .comment _ _ _ :: rest => valuesOf sec name cur prev rest

/-- Several values for the same key: separated by ends of line, leading empty ones dropped. -/
def joined : List Str → Str
  | [] => []
  | [] :: rest => joined rest
  | v :: rest => v ++ rest.flatMap ('\n' :: ·)

/-- A line that is no blank line, comment, header or entry: a bracket that is not closed before a comment, or text without separator before a
comment. -/
def Malformed (s : Str) : Prop :=
  InLine s ∧ Trimmed s ∧ s ≠ [] ∧ (∀ c, s.head? = some c → c ≠ ';' ∧ c ≠ '#') ∧
  ∃ body tail, s = body ++ tail ∧ (tail = [] ∨ ∃ pre c, body = pre ++ [c] ∧ iniSpace c = true ∧ tail.head? = some ';') ∧
    ((s.head? = some '[' ∧ ']' ∉ body) ∨ (s.head? ≠ some '[' ∧ '=' ∉ body ∧ ':' ∉ body))

end Heracles

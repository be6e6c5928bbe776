/-!
# Well-formed XML text

A small grammar of XML (no comments, entities, CDATA or processing instructions inside the content), independent of the writer.
-/

namespace Heracles.Xml

/-- An element or a text. -/
inductive Node
  | elem (name : List Char) (attrs : List (List Char × List Char)) (children : List Node)
  | text (s : List Char)

/-- No character with a meaning in XML markup. -/
def Plain (s : List Char) : Prop := ∀ c ∈ s, c ≠ '<' ∧ c ≠ '>' ∧ c ≠ '&' ∧ c ≠ '"' ∧ c ≠ '\''

/-- A letter followed by letters and digits. -/
def IsName (s : List Char) : Prop := ∃ c r, s = c :: r ∧ c.isAlpha ∧ ∀ x ∈ r, x.isAlphanum

/-- `s` is a sequence of attributes: a space, the name, `=`, the quoted value. -/
inductive Attrs : List (List Char × List Char) → List Char → Prop
  | nil : Attrs [] []
  | cons {k v as s} : IsName k → Plain v → Attrs as s → Attrs ((k, v) :: as) ([' '] ++ k ++ ['=', '"'] ++ v ++ ['"'] ++ s)

/-- `s` is the text of a sequence of nodes: every start tag is closed by an end tag of the same name around its children. -/
inductive Content : List Node → List Char → Prop
  | nil : Content [] []
  | space {c ns s} : c = ' ' ∨ c = '\n' → Content ns s → Content ns (c :: s)
  | text {t ns s} : t ≠ [] → Plain t → Content ns s → Content (.text t :: ns) (t ++ s)
  | elem {nm as a cs b ns s} : IsName nm → Attrs as a → Content cs b → Content ns s →
      Content (.elem nm as cs :: ns) (['<'] ++ nm ++ a ++ ['>'] ++ b ++ ['<', '/'] ++ nm ++ ['>'] ++ s)
  | empty {nm as a ns s} : IsName nm → Attrs as a → Content ns s →
      Content (.elem nm as [] :: ns) (['<'] ++ nm ++ a ++ ['/', '>'] ++ s)

/-- A document: the XML declaration, a document type naming the root element, the root element. -/
def Document (root : Node) (s : List Char) : Prop :=
  ∃ nm as cs body, root = .elem nm as cs ∧ Content [root] body ∧
    s = "<?xml version=\"1.0\"?>\n".toList ++ "<!DOCTYPE ".toList ++ nm ++ " SYSTEM \"Xdmf.dtd\" []>\n".toList ++ body

end Heracles.Xml

import Verif.Spec.Tokenizer
import Verif.Spec.Names
import Verif.Spec.Format
/-
Trees of elements, attributes, texts and comments with strings in them; how they are written, and what somebody
should get who reads them.
-/
namespace Aitch.Spec.Markup

/-- A tree.  An attribute has a name and, unless it is a boolean attribute, a value. -/
inductive Tree where
  | element (name : Bytes) (attrs : List (Bytes × Option Bytes)) (children : List Tree)
  | void (name : Bytes) (attrs : List (Bytes × Option Bytes))
  | text (s : Bytes)
  | comment (s : Bytes)
  | doctype (s : Bytes)

/-- A string without its NUL bytes. -/
def seen (s : Bytes) : Bytes := s.filter (· ≠ 0)

/-! ### Writing -/

/-- An attribute, written. -/
def writeAttr : Bytes × Option Bytes → Bytes
  | (n, none) => b%" " ++ n
  | (n, some v) => b%" " ++ n ++ b%"=\"" ++ escaped v ++ b%"\""

/-- A start tag, written. -/
def writeTag (name : Bytes) (attrs : List (Bytes × Option Bytes)) : Bytes :=
  b%"<" ++ name ++ attrs.flatMap writeAttr ++ b%">"

mutual
/-- A tree, written. -/
def write : Tree → Bytes
  | .element name attrs children => writeTag name attrs ++ writeAll children ++ b%"</" ++ name ++ b%">"
  | .void name attrs => writeTag name attrs
  | .text s => escaped s
  | .comment s => b%"<!--" ++ escaped s ++ b%"-->"
  | .doctype s => b%"<!DOCTYPE " ++ escaped s ++ b%">\n"
/-- Trees, written one after the other. -/
def writeAll : List Tree → Bytes
  | [] => []
  | t :: ts => write t ++ writeAll ts
end

/-! ### Reading -/

/-- The start tag to be read. -/
def startTok (name : Bytes) (attrs : List (Bytes × Option Bytes)) : Tok :=
  .start (lower name) (attrs.map fun a => (lower a.1, seen (a.2.getD []))) false

mutual
/-- What is to be read from a tree.  In the elements for raw text, such as `script`, character references are not
decoded, so texts appear in escaped form there (`raw`); in comments they always do. -/
def toks (raw : Bool) : Tree → List Tok
  | .element name attrs children =>
    startTok name attrs :: toksAll (decide (lower name ∈ rawtextNames)) children ++ [.close (lower name)]
  | .void name attrs => [startTok name attrs]
  | .text s => (if raw then escaped s else seen s).map .char
  | .comment s => [.comment (escaped s)]
  | .doctype s => [.doctype (b%"DOCTYPE " ++ escaped s), .char 10]
/-- The same for a list of trees. -/
def toksAll (raw : Bool) : List Tree → List Tok
  | [] => []
  | t :: ts => toks raw t ++ toksAll raw ts
end

mutual
/-- What the author of a tree means: the same, with all texts and comments as they are. -/
def meant : Tree → List Tok
  | .element name attrs children => startTok name attrs :: meantAll children ++ [.close (lower name)]
  | .void name attrs => [startTok name attrs]
  | .text s => (seen s).map .char
  | .comment s => [.comment (seen s)]
  | .doctype s => [.doctype (b%"DOCTYPE " ++ seen s), .char 10]
/-- The same for a list of trees. -/
def meantAll : List Tree → List Tok
  | [] => []
  | t :: ts => meant t ++ meantAll ts
end

/-- No character that has to be escaped. -/
def Simple (s : Bytes) : Prop := ∀ c ∈ s, c ∉ b%"<>&\"'"

mutual
/-- Where a reader decodes nothing there is nothing to decode: comments, and texts in `script` and the like, have no
character that has to be escaped. -/
def Literal (raw : Bool) : Tree → Prop
  | .element name _ children => LiteralAll (decide (lower name ∈ rawtextNames)) children
  | .void _ _ => True
  | .text s => raw = true → Simple s
  | .comment s => Simple s
  | .doctype s => Simple s
/-- `Literal` for all trees. -/
def LiteralAll (raw : Bool) : List Tree → Prop
  | [] => True
  | t :: ts => Literal raw t ∧ LiteralAll raw ts
end

/-- Attributes with valid names that differ (not only in case). -/
def AttrsOK (attrs : List (Bytes × Option Bytes)) : Prop :=
  (∀ a ∈ attrs, ValidName a.1) ∧ (attrs.map fun a => lower a.1).Nodup

mutual
/-- Valid names, and no attribute twice. -/
def Named : Tree → Prop
  | .element name attrs children =>
    ValidName name ∧ (∀ a ∈ attrs, ValidName a.1) ∧ (attrs.map fun a => a.1).Nodup ∧ NamedAll children
  | .void name attrs => ValidName name ∧ (∀ a ∈ attrs, ValidName a.1) ∧ (attrs.map fun a => a.1).Nodup
  | .text _ => True
  | .comment _ => True
  | .doctype _ => True
/-- `Named` for all trees. -/
def NamedAll : List Tree → Prop
  | [] => True
  | t :: ts => Named t ∧ NamedAll ts
end

/-- A text. -/
def Tree.IsText : Tree → Prop
  | .text _ => True
  | _ => False

/-- The elements whose content is text for a reader of HTML. -/
def textNames : List Bytes := rcdataNames ++ rawtextNames

mutual
/-- Valid names, and only text in the elements that can only have text. -/
def Proper : Tree → Prop
  | .element name attrs children =>
    ValidName name ∧ lower name ≠ b%"plaintext" ∧ AttrsOK attrs ∧
      ((lower name ∈ textNames ∧ ∀ t ∈ children, t.IsText) ∨ (lower name ∉ textNames ∧ ProperAll children))
  | .void name attrs => ValidName name ∧ lower name ≠ b%"plaintext" ∧ AttrsOK attrs ∧ lower name ∉ textNames
  | .text _ => True
  | .comment _ => True
  | .doctype _ => True
/-- `Proper` for all trees. -/
def ProperAll : List Tree → Prop
  | [] => True
  | t :: ts => Proper t ∧ ProperAll ts
end

end Aitch.Spec.Markup

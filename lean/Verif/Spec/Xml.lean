import Verif.Spec.Lines
/-
How XML is read, after "Extensible Markup Language (XML) 1.0 (Fifth Edition)".  Nothing here refers to the model of the
code.

The reader works on bytes; all bytes from 0x80 on count as name characters.  Left out: the XML declaration, DOCTYPEs,
processing instructions, CDATA sections and numeric character references; a document with one of these is not accepted.
-/
namespace Aitch.Spec.Xml

open Markup (Item newlines)

/-- [2] Char: the characters a document may have. -/
def IsChar (c : Char) : Prop :=
  c.val = 0x9 ∨ c.val = 0xA ∨ c.val = 0xD ∨ (0x20 ≤ c.val ∧ c.val ≤ 0xD7FF) ∨ (0xE000 ≤ c.val ∧ c.val ≤ 0xFFFD) ∨
    (0x10000 ≤ c.val ∧ c.val ≤ 0x10FFFF)

/-- Text in UTF-8 whose characters are allowed. -/
def Characters (w : Bytes) : Prop := ∃ cs : List Char, (∀ c ∈ cs, IsChar c) ∧ w = cs.flatMap String.utf8EncodeChar

/-- [3] S: white space. -/
def isSpace (c : UInt8) : Bool := c == 32 || c == 9 || c == 13 || c == 10

/-- [4] NameStartChar. -/
def isNameStart (c : UInt8) : Bool :=
  (c%'A' ≤ c && c ≤ c%'Z') || (c%'a' ≤ c && c ≤ c%'z') || c == c%'_' || c == c%':' || 128 ≤ c

/-- [4a] NameChar. -/
def isNameChar (c : UInt8) : Bool := isNameStart c || c == c%'-' || c == c%'.' || (c%'0' ≤ c && c ≤ c%'9')

/-- A token. -/
inductive Tok where
  /-- a character (byte) of text; `ref`: it was written as a reference -/
  | char (c : UInt8) (ref : Bool)
  | start (name : Bytes) (attrs : List (Bytes × Bytes))
  | close (name : Bytes)
  | comment (data : Bytes)
deriving DecidableEq, Repr

/-- Where the reader is.  `n`, `as` are the name and the attributes of the tag being read, `a`, `v` the name and value of
the attribute, `q` the quote around the value, `d` the text of the comment. -/
inductive Mode where
  /-- content, after so many `]` (0, 1, or 2 and more) -/
  | content (brackets : Nat)
  | less
  | tagName (n : Bytes)
  | inTag (n : Bytes) (as : List (Bytes × Bytes))
  | attrName (n : Bytes) (as : List (Bytes × Bytes)) (a : Bytes)
  | afterAttrName (n : Bytes) (as : List (Bytes × Bytes)) (a : Bytes)
  | beforeValue (n : Bytes) (as : List (Bytes × Bytes)) (a : Bytes)
  | value (n : Bytes) (as : List (Bytes × Bytes)) (a : Bytes) (q : UInt8) (v : Bytes)
  | afterValue (n : Bytes) (as : List (Bytes × Bytes))
  | emptyTag (n : Bytes) (as : List (Bytes × Bytes))
  | endName (n : Bytes)
  | afterEndName (n : Bytes)
  | bang
  | bangDash
  | comment (d : Bytes)
  | commentDash (d : Bytes)
  | commentDashDash (d : Bytes)

/-- A start tag.  "An attribute name MUST NOT appear more than once in the same start-tag." -/
def startTag (n : Bytes) (as : List (Bytes × Bytes)) : Option (List Tok) :=
  if (as.map (·.1)).Nodup then some [.start n as] else none

/-- The end of a start tag. -/
def tagEnd (n : Bytes) (as : List (Bytes × Bytes)) (empty : Bool) : Option (Mode × List Tok) :=
  (startTag n as).map fun ts => (.content 0, if empty then ts ++ [.close n] else ts)

/-- One character; `none` if there cannot be such a character here (`&` is treated elsewhere). -/
def step : Mode → UInt8 → Option (Mode × List Tok)
  | .content k, c =>
    -- [14] CharData: no `<`, and not `]]>`
    if c = c%'<' then some (.less, [])
    else if c = c%']' then some (.content (min (k + 1) 2), [.char c false])
    else if c = c%'>' ∧ k = 2 then none
    else some (.content 0, [.char c false])
  | .less, c =>
    if c = c%'/' then some (.endName [], [])
    else if c = c%'!' then some (.bang, [])
    else if isNameStart c then some (.tagName [c], [])
    else none
  -- [40] STag and [44] EmptyElemTag
  | .tagName n, c =>
    if isNameChar c then some (.tagName (n ++ [c]), [])
    else if isSpace c then some (.inTag n [], [])
    else if c = c%'/' then some (.emptyTag n [], [])
    else if c = c%'>' then tagEnd n [] false
    else none
  | .inTag n as, c =>
    if isSpace c then some (.inTag n as, [])
    else if c = c%'/' then some (.emptyTag n as, [])
    else if c = c%'>' then tagEnd n as false
    else if isNameStart c then some (.attrName n as [c], [])
    else none
  -- [41] Attribute, [25] Eq
  | .attrName n as a, c =>
    if isNameChar c then some (.attrName n as (a ++ [c]), [])
    else if isSpace c then some (.afterAttrName n as a, [])
    else if c = c%'=' then some (.beforeValue n as a, [])
    else none
  | .afterAttrName n as a, c =>
    if isSpace c then some (.afterAttrName n as a, [])
    else if c = c%'=' then some (.beforeValue n as a, [])
    else none
  | .beforeValue n as a, c =>
    if isSpace c then some (.beforeValue n as a, [])
    else if c = c%'"' ∨ c = c%'\'' then some (.value n as a c [], [])
    else none
  -- [10] AttValue; 3.3.3: white space becomes a space
  | .value n as a q v, c =>
    if c = q then some (.afterValue n (as ++ [(a, v)]), [])
    else if c = c%'<' then none
    else if isSpace c then some (.value n as a q (v ++ [32]), [])
    else some (.value n as a q (v ++ [c]), [])
  | .afterValue n as, c =>
    if isSpace c then some (.inTag n as, [])
    else if c = c%'/' then some (.emptyTag n as, [])
    else if c = c%'>' then tagEnd n as false
    else none
  | .emptyTag n as, c => if c = c%'>' then tagEnd n as true else none
  -- [42] ETag
  | .endName [], c => if isNameStart c then some (.endName [c], []) else none
  | .endName n, c =>
    if isNameChar c then some (.endName (n ++ [c]), [])
    else if isSpace c then some (.afterEndName n, [])
    else if c = c%'>' then some (.content 0, [.close n])
    else none
  | .afterEndName n, c =>
    if isSpace c then some (.afterEndName n, [])
    else if c = c%'>' then some (.content 0, [.close n])
    else none
  -- [15] Comment: "the string "--" (double-hyphen) MUST NOT occur within comments"
  | .bang, c => if c = c%'-' then some (.bangDash, []) else none
  | .bangDash, c => if c = c%'-' then some (.comment [], []) else none
  | .comment d, c => if c = c%'-' then some (.commentDash d, []) else some (.comment (d ++ [c]), [])
  | .commentDash d, c => if c = c%'-' then some (.commentDashDash d, []) else some (.comment (d ++ [c%'-', c]), [])
  | .commentDashDash d, c => if c = c%'>' then some (.content 0, [.comment d]) else none

/-- Where an `&` starts a reference, and what becomes of the character it stands for.  (In comments it does not.) -/
def refStep : Mode → Option (UInt8 → Mode × List Tok)
  | .content _ => some fun u => (.content 0, [.char u true])
  | .value n as a q v => some fun u => (.value n as a q (v ++ [u]), [])
  | _ => none

/-- [68] EntityRef: the five entities that every reader knows (4.6). -/
def entity (name : Bytes) : Option UInt8 :=
  if name = b%"lt" then some c%'<'
  else if name = b%"gt" then some c%'>'
  else if name = b%"amp" then some c%'&'
  else if name = b%"apos" then some c%'\''
  else if name = b%"quot" then some c%'"'
  else none

/-- The tokens of an input.  `ref` is the reference being read, without its `&`. -/
def run : Mode → (ref : Option Bytes) → Bytes → Option (List Tok)
  | .content _, none, [] => some []
  | _, _, [] => none
  | m, some r, c :: rest =>
    if c = c%';' then
      match refStep m, entity r with
      | some f, some u => (run (f u).1 none rest).map ((f u).2 ++ ·)
      | _, _ => none
    else run m (some (r ++ [c])) rest
  | m, none, c :: rest =>
    if c = c%'&' ∧ (refStep m).isSome then run m (some []) rest
    else match step m c with
      | some (m', ts) => (run m' none rest).map (ts ++ ·)
      | none => none

/-- [1] document, [39] element: start and end tags match ("The Name in an element's end-tag MUST match the element type in the
start-tag"), and there is exactly one element that is in no other; around it there are only comments and white space.
`stack` are the open elements, `root`: there was one already. -/
def nested : (stack : List Bytes) → (root : Bool) → List Tok → Bool
  | [], root, [] => root
  | _ :: _, _, [] => false
  | [], false, .start n _ :: ts => nested [n] true ts
  | [], true, .start _ _ :: _ => false
  | m :: st, root, .start n _ :: ts => nested (n :: m :: st) root ts
  | [], _, .close _ :: _ => false
  | m :: st, root, .close n :: ts => n == m && nested st root ts
  | [], root, .char c ref :: ts => isSpace c && !ref && nested [] root ts
  | m :: st, root, .char _ _ :: ts => nested (m :: st) root ts
  | st, root, .comment _ :: ts => nested st root ts

/-- The token without the note how it was written. -/
def Tok.plain : Tok → Markup.Tok
  | .char c _ => .char c
  | .start n as => .start n as false
  | .close n => .close n
  | .comment d => .comment d

/-- A document is `w`, and a reader gets `is` from it: its tags, texts and comments.  (2.11: line ends are normalised
first.) -/
def Reads (w : Bytes) (is : List Item) : Prop :=
  Characters w ∧ ∃ ts, run (.content 0) none (newlines w) = some ts ∧ nested [] false ts = true ∧ is = Markup.items (ts.map Tok.plain)

/-- A well-formed document. -/
def WellFormed (w : Bytes) : Prop := ∃ is, Reads w is

/-! ### Trees -/

open Markup (Tree seen)

mutual
/-- What can be written as XML: elements with their end tags, attributes with values, texts, and comments without two hyphens
in a row and without a hyphen at the end. -/
def Fits : Tree → Prop
  | .element _ attrs children => (∀ a ∈ attrs, a.2 ≠ none) ∧ FitsAll children
  | .void _ _ => False
  | .text _ => True
  | .comment s => ¬ b%"--" <:+: seen s ∧ ¬ b%"-" <:+ seen s
  | .doctype _ => False
/-- `Fits` for all trees. -/
def FitsAll : List Tree → Prop
  | [] => True
  | t :: ts => Fits t ∧ FitsAll ts
end

/-- An element. -/
def IsElement : Tree → Prop
  | .element _ _ _ => True
  | _ => False

mutual
/-- All texts, values and comments of a tree have only characters that are allowed in XML (NUL bytes apart). -/
def CharactersIn : Tree → Prop
  | .element _ attrs children => (∀ a ∈ attrs, ∀ v, a.2 = some v → Characters (seen v)) ∧ CharactersInAll children
  | .void _ attrs => ∀ a ∈ attrs, ∀ v, a.2 = some v → Characters (seen v)
  | .text s => Characters (seen s)
  | .comment s => Characters (seen s)
  | .doctype s => Characters (seen s)
/-- The same for all trees. -/
def CharactersInAll : List Tree → Prop
  | [] => True
  | t :: ts => CharactersIn t ∧ CharactersInAll ts
end

mutual
/-- What is to be read from a tree.  `comment` says what becomes of the text of a comment. -/
def markup (comment : Bytes → Bytes) : Tree → List Markup.Tok
  | .element name attrs children =>
    .start name (attrs.map fun a => (a.1, seen (a.2.getD []))) false :: markupAll comment children ++ [.close name]
  | .void name attrs => [.start name (attrs.map fun a => (a.1, seen (a.2.getD []))) false]
  | .text s => (seen s).map .char
  | .comment s => [.comment (comment s)]
  | .doctype _ => []
/-- The same for all trees. -/
def markupAll (comment : Bytes → Bytes) : List Tree → List Markup.Tok
  | [] => []
  | t :: ts => markup comment t ++ markupAll comment ts
end

/-- White space becomes spaces. -/
def spaces (v : Bytes) : Bytes := v.map fun c => if isSpace c then 32 else c

/-- White space in attribute values becomes spaces. -/
def itemSpaces : Item → Item
  | .start n as sc => .start n (as.map fun a => (a.1, spaces a.2)) sc
  | i => i

/-- An item that line ends, white space and escaping leave alone: no carriage return, no tab or line end in a value, no
character to be escaped in a comment. -/
def Unchanged : Item → Prop
  | .text s => 13 ∉ s
  | .start _ as _ => ∀ a ∈ as, 13 ∉ a.2 ∧ 10 ∉ a.2 ∧ 9 ∉ a.2
  | .close _ => True
  | .comment d => 13 ∉ d ∧ Markup.Simple d
  | .doctype _ => False

end Aitch.Spec.Xml

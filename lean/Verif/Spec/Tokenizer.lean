import Verif.Model.Basic
/-
How HTML is read: the tokenizer of the HTML standard (section 13.2.5), on bytes.  Nothing here refers to the model of
the code.

All bytes from 0x80 on are treated alike, as the standard does for the characters they encode.  Left out: the
preprocessing of the input (decoding, newlines), the CDATA sections of foreign content, the parts of a DOCTYPE (it is
one token), and that foreign content never switches to the states for raw text.  Character references are a parameter: see `CharRefs`.
-/
namespace Aitch.Spec.Markup

/-- A token. -/
inductive Tok where
  /-- a character (byte) of text -/
  | char (c : UInt8)
  | start (name : Bytes) (attrs : List (Bytes × Bytes)) (selfClosing : Bool)
  | close (name : Bytes)
  | comment (data : Bytes)
  | doctype (data : Bytes)
deriving DecidableEq, Repr

/-- The table of character references: what follows an `&`, inside or outside of an attribute value, may be a reference
of some length, to some text.  Of the table we need the five references below (no name in the table of the standard is
longer than one of them and starts with it). -/
structure CharRefs where
  find : (inAttr : Bool) → Bytes → Option (Nat × Bytes)
  amp : ∀ b rest, find b (b%"amp;" ++ rest) = some (4, b%"&")
  lt : ∀ b rest, find b (b%"lt;" ++ rest) = some (3, b%"<")
  gt : ∀ b rest, find b (b%"gt;" ++ rest) = some (3, b%">")
  quot : ∀ b rest, find b (b%"quot;" ++ rest) = some (5, b%"\"")
  apos : ∀ b rest, find b (b%"apos;" ++ rest) = some (5, b%"'")

/-- The tag being read. -/
structure Tag where
  isEnd : Bool
  name : Bytes
  attrs : List (Bytes × Bytes) := []

/-- The states.  `d` is the comment read so far; `n`, `v` the name and value of the attribute being read. -/
inductive State where
  | data
  /-- RCDATA (`refs` true) or RAWTEXT, in the element `elem` -/
  | text (refs : Bool) (elem : Bytes)
  | textLess (refs : Bool) (elem : Bytes)
  | textEndOpen (refs : Bool) (elem : Bytes)
  | textEndName (refs : Bool) (elem : Bytes) (buf : Bytes)
  /-- Script data, which otherwise is as RAWTEXT: after `<!` and `<!-` -/
  | escapeStart
  | escapeStartDash
  /-- script data escaped, after `dashes` (0, 1, or 2 and more) of `-` -/
  | escaped (dashes : Nat)
  | escapedLess
  | escapedEndOpen
  | escapedEndName (buf : Bytes)
  | doubleEscapeStart (buf : Bytes)
  /-- script data double escaped -/
  | doubleEscaped (dashes : Nat)
  | doubleEscapedLess
  | doubleEscapeEnd (buf : Bytes)
  | plaintext
  | tagOpen
  | endTagOpen
  | tagName (t : Tag)
  | beforeAttrName (t : Tag)
  | attrName (t : Tag) (n : Bytes)
  | afterAttrName (t : Tag) (n : Bytes)
  | beforeAttrValue (t : Tag) (n : Bytes)
  | doubleQuoted (t : Tag) (n v : Bytes)
  | singleQuoted (t : Tag) (n v : Bytes)
  | unquoted (t : Tag) (n v : Bytes)
  | afterAttrValue (t : Tag)
  | selfClosing (t : Tag)
  | bogusComment (d : Bytes)
  | markupDecl
  | markupDeclDash
  | declaration (d : Bytes)
  | commentStart
  | commentStartDash
  | comment (d : Bytes)
  | commentLess (d : Bytes)
  | commentLessBang (d : Bytes)
  | commentLessBangDash (d : Bytes)
  | commentLessBangDashDash (d : Bytes)
  | commentEndDash (d : Bytes)
  | commentEnd (d : Bytes)
  | commentEndBang (d : Bytes)

/-- ASCII letters. -/
def isUpper (c : UInt8) : Bool := c%'A' ≤ c && c ≤ c%'Z'
@[inherit_doc isUpper] def isLower (c : UInt8) : Bool := c%'a' ≤ c && c ≤ c%'z'
@[inherit_doc isUpper] def isAlpha (c : UInt8) : Bool := isUpper c || isLower c

/-- ASCII lower case. -/
def lowerByte (c : UInt8) : UInt8 := if isUpper c then c + 32 else c
@[inherit_doc lowerByte] def lower (s : Bytes) : Bytes := s.map lowerByte

/-- Tab, line feed, form feed, space. -/
def isSpace (c : UInt8) : Bool := c == 9 || c == 10 || c == 12 || c == 32

/-- U+FFFD replaces NUL. -/
def noNul (c : UInt8) : Bytes := if c = 0 then [0xEF, 0xBF, 0xBD] else [c]

/-- Elements whose content is text with character references, or just text. -/
def rcdataNames : List Bytes := [b%"title", b%"textarea"]
@[inherit_doc rcdataNames] def rawtextNames : List Bytes :=
  [b%"style", b%"xmp", b%"iframe", b%"noembed", b%"noframes", b%"noscript", b%"script"]

/-- The state after a start tag. -/
def contentState (name : Bytes) : State :=
  if name ∈ rcdataNames then .text true name
  else if name ∈ rawtextNames then .text false name
  else if name = b%"plaintext" then .plaintext
  else .data

/-- Of attributes with the same name only the first counts. -/
def firstOnly : List (Bytes × Bytes) → List (Bytes × Bytes)
  | [] => []
  | a :: as => a :: (firstOnly as).filter fun b => b.1 ≠ a.1

/-- The end of a tag. -/
def emitTag (t : Tag) (selfClosing : Bool) : State × List Tok :=
  if t.isEnd then (.data, [.close t.name])
  else (contentState t.name, [.start t.name (firstOnly t.attrs) selfClosing])

/-- The tag with one more attribute. -/
def Tag.add (t : Tag) (n v : Bytes) : Tag := { t with attrs := t.attrs ++ [(n, v)] }

/-! One function per state (or group of states): the next state and the tokens emitted, given a character.
`[reconsume]` in the standard is a call of the function of the other state. -/

/-- 13.2.5.1 Data state (without `&`). -/
def stepData (c : UInt8) : State × List Tok := if c = c%'<' then (.tagOpen, []) else (.data, [.char c])

/-- 13.2.5.41 Bogus comment state. -/
def stepBogus (d : Bytes) (c : UInt8) : State × List Tok :=
  if c = c%'>' then (.data, [.comment d]) else (.bogusComment (d ++ noNul c), [])

/-- 13.2.5.6 Tag open state. -/
def stepTagOpen (c : UInt8) : State × List Tok :=
  if c = c%'!' then (.markupDecl, [])
  else if c = c%'/' then (.endTagOpen, [])
  else if isAlpha c then (.tagName { isEnd := false, name := [lowerByte c] }, [])
  else if c = c%'?' then stepBogus [] c
  else ((stepData c).1, .char c%'<' :: (stepData c).2)

/-- 13.2.5.7 End tag open state. -/
def stepEndTagOpen (c : UInt8) : State × List Tok :=
  if isAlpha c then (.tagName { isEnd := true, name := [lowerByte c] }, [])
  else if c = c%'>' then (.data, [])
  else stepBogus [] c

/-- 13.2.5.8 Tag name state. -/
def stepTagName (t : Tag) (c : UInt8) : State × List Tok :=
  if isSpace c then (.beforeAttrName t, [])
  else if c = c%'/' then (.selfClosing t, [])
  else if c = c%'>' then emitTag t false
  else (.tagName { t with name := t.name ++ noNul (lowerByte c) }, [])

/-- 13.2.5.34 After attribute name state, up to its last case. -/
def stepAfterAttrName (t : Tag) (n : Bytes) (c : UInt8) (other : State × List Tok) : State × List Tok :=
  if isSpace c then (.afterAttrName t n, [])
  else if c = c%'/' then (.selfClosing (t.add n []), [])
  else if c = c%'=' then (.beforeAttrValue t n, [])
  else if c = c%'>' then emitTag (t.add n []) false
  else other

/-- 13.2.5.33 Attribute name state.  (Space, `/` and `>` are reconsumed in the after attribute name state.) -/
def stepAttrName (t : Tag) (n : Bytes) (c : UInt8) : State × List Tok :=
  if isSpace c || c == c%'/' || c == c%'>' then stepAfterAttrName t n c (.data, [])
  else if c = c%'=' then (.beforeAttrValue t n, [])
  else (.attrName t (n ++ noNul (lowerByte c)), [])

/-- 13.2.5.32 Before attribute name state. -/
def stepBeforeAttrName (t : Tag) (c : UInt8) : State × List Tok :=
  if isSpace c then (.beforeAttrName t, [])
  else if c = c%'/' then (.selfClosing t, [])
  else if c = c%'>' then emitTag t false
  else if c = c%'=' then (.attrName t [c], [])
  else stepAttrName t [] c

/-- 13.2.5.38 Attribute value (unquoted) state (without `&`). -/
def stepUnquoted (t : Tag) (n v : Bytes) (c : UInt8) : State × List Tok :=
  if isSpace c then (.beforeAttrName (t.add n v), [])
  else if c = c%'>' then emitTag (t.add n v) false
  else (.unquoted t n (v ++ noNul c), [])

/-- 13.2.5.35 Before attribute value state. -/
def stepBeforeAttrValue (t : Tag) (n : Bytes) (c : UInt8) : State × List Tok :=
  if isSpace c then (.beforeAttrValue t n, [])
  else if c = c%'"' then (.doubleQuoted t n [], [])
  else if c = c%'\'' then (.singleQuoted t n [], [])
  else if c = c%'>' then emitTag (t.add n []) false
  else stepUnquoted t n [] c

/-- 13.2.5.39 After attribute value (quoted) state. -/
def stepAfterAttrValue (t : Tag) (c : UInt8) : State × List Tok :=
  if isSpace c then (.beforeAttrName t, [])
  else if c = c%'/' then (.selfClosing t, [])
  else if c = c%'>' then emitTag t false
  else stepBeforeAttrName t c

/-- 13.2.5.40 Self-closing start tag state. -/
def stepSelfClosing (t : Tag) (c : UInt8) : State × List Tok :=
  if c = c%'>' then emitTag t true else stepBeforeAttrName t c

/-- 13.2.5.45 Comment state. -/
def stepComment (d : Bytes) (c : UInt8) : State × List Tok :=
  if c = c%'<' then (.commentLess (d ++ [c]), [])
  else if c = c%'-' then (.commentEndDash d, [])
  else (.comment (d ++ noNul c), [])

/-- 13.2.5.50 Comment end dash state. -/
def stepCommentEndDash (d : Bytes) (c : UInt8) : State × List Tok :=
  if c = c%'-' then (.commentEnd d, []) else stepComment (d ++ b%"-") c

/-- 13.2.5.51 Comment end state. -/
def stepCommentEnd (d : Bytes) (c : UInt8) : State × List Tok :=
  if c = c%'>' then (.data, [.comment d])
  else if c = c%'!' then (.commentEndBang d, [])
  else if c = c%'-' then (.commentEnd (d ++ b%"-"), [])
  else stepComment (d ++ b%"--") c

/-- 13.2.5.52 Comment end bang state. -/
def stepCommentEndBang (d : Bytes) (c : UInt8) : State × List Tok :=
  if c = c%'-' then (.commentEndDash (d ++ b%"--!"), [])
  else if c = c%'>' then (.data, [.comment d])
  else stepComment (d ++ b%"--!") c

/-- 13.2.5.2-4 RCDATA, RAWTEXT and script data states (without `&`). -/
def stepText (refs : Bool) (elem : Bytes) (c : UInt8) : State × List Tok :=
  if c = c%'<' then (.textLess refs elem, []) else (.text refs elem, (noNul c).map .char)

/-- 13.2.5.9, 12 and 15 RCDATA, RAWTEXT and script data less-than sign states. -/
def stepTextLess (refs : Bool) (elem : Bytes) (c : UInt8) : State × List Tok :=
  if c = c%'/' then (.textEndOpen refs elem, [])
  else if c == c%'!' && elem == b%"script" then (.escapeStart, (b%"<!").map .char)
  else ((stepText refs elem c).1, .char c%'<' :: (stepText refs elem c).2)

/-- 13.2.5.11, 14 and 17 RCDATA, RAWTEXT and script data end tag name states. -/
def stepTextEndName (refs : Bool) (elem buf : Bytes) (c : UInt8) : State × List Tok :=
  if isSpace c && lower buf == elem then (.beforeAttrName { isEnd := true, name := elem }, [])
  else if c == c%'/' && lower buf == elem then (.selfClosing { isEnd := true, name := elem }, [])
  else if c == c%'>' && lower buf == elem then emitTag { isEnd := true, name := elem } false
  else if isAlpha c then (.textEndName refs elem (buf ++ [c]), [])
  else ((stepText refs elem c).1, (b%"</" ++ buf).map .char ++ (stepText refs elem c).2)

/-- 13.2.5.18-19 Script data escape start and escape start dash states: a second and third character of `<!--`. -/
def stepEscapeStart (next : State) (c : UInt8) : State × List Tok :=
  if c = c%'-' then (next, [.char c]) else stepText false b%"script" c

/-- 13.2.5.20-22 Script data escaped, escaped dash and escaped dash dash states. -/
def stepEscaped (dashes : Nat) (c : UInt8) : State × List Tok :=
  if c = c%'-' then (.escaped (min (dashes + 1) 2), [.char c])
  else if c = c%'<' then (.escapedLess, [])
  else if c == c%'>' && dashes == 2 then (.text false b%"script", [.char c])
  else (.escaped 0, (noNul c).map .char)

/-- 13.2.5.26 Script data double escape start state. -/
def stepDoubleEscapeStart (buf : Bytes) (c : UInt8) : State × List Tok :=
  if isSpace c || c == c%'/' || c == c%'>' then
    (if buf = b%"script" then .doubleEscaped 0 else .escaped 0, [.char c])
  else if isAlpha c then (.doubleEscapeStart (buf ++ [lowerByte c]), [.char c])
  else stepEscaped 0 c

/-- 13.2.5.23 Script data escaped less-than sign state. -/
def stepEscapedLess (c : UInt8) : State × List Tok :=
  if c = c%'/' then (.escapedEndOpen, [])
  else if isAlpha c then ((stepDoubleEscapeStart [] c).1, .char c%'<' :: (stepDoubleEscapeStart [] c).2)
  else ((stepEscaped 0 c).1, .char c%'<' :: (stepEscaped 0 c).2)

/-- 13.2.5.25 Script data escaped end tag name state. -/
def stepEscapedEndName (buf : Bytes) (c : UInt8) : State × List Tok :=
  if isSpace c && lower buf == b%"script" then (.beforeAttrName { isEnd := true, name := b%"script" }, [])
  else if c == c%'/' && lower buf == b%"script" then (.selfClosing { isEnd := true, name := b%"script" }, [])
  else if c == c%'>' && lower buf == b%"script" then emitTag { isEnd := true, name := b%"script" } false
  else if isAlpha c then (.escapedEndName (buf ++ [c]), [])
  else ((stepEscaped 0 c).1, (b%"</" ++ buf).map .char ++ (stepEscaped 0 c).2)

/-- 13.2.5.24 Script data escaped end tag open state. -/
def stepEscapedEndOpen (c : UInt8) : State × List Tok :=
  if isAlpha c then (.escapedEndName [c], [])
  else ((stepEscaped 0 c).1, (b%"</").map .char ++ (stepEscaped 0 c).2)

/-- 13.2.5.27-29 Script data double escaped, double escaped dash and double escaped dash dash states. -/
def stepDoubleEscaped (dashes : Nat) (c : UInt8) : State × List Tok :=
  if c = c%'-' then (.doubleEscaped (min (dashes + 1) 2), [.char c])
  else if c = c%'<' then (.doubleEscapedLess, [.char c])
  else if c == c%'>' && dashes == 2 then (.text false b%"script", [.char c])
  else (.doubleEscaped 0, (noNul c).map .char)

/-- 13.2.5.31 Script data double escape end state. -/
def stepDoubleEscapeEnd (buf : Bytes) (c : UInt8) : State × List Tok :=
  if isSpace c || c == c%'/' || c == c%'>' then
    (if buf = b%"script" then .escaped 0 else .doubleEscaped 0, [.char c])
  else if isAlpha c then (.doubleEscapeEnd (buf ++ [lowerByte c]), [.char c])
  else stepDoubleEscaped 0 c

/-- One character in a state (without character references). -/
def step : State → UInt8 → State × List Tok
  | .data, c => stepData c
  | .text refs elem, c => stepText refs elem c
  | .textLess refs elem, c => stepTextLess refs elem c
  | .textEndOpen refs elem, c =>
    if isAlpha c then (.textEndName refs elem [c], [])
    else ((stepText refs elem c).1, (b%"</").map .char ++ (stepText refs elem c).2)
  | .textEndName refs elem buf, c => stepTextEndName refs elem buf c
  | .escapeStart, c => stepEscapeStart .escapeStartDash c
  | .escapeStartDash, c => stepEscapeStart (.escaped 2) c
  | .escaped dashes, c => stepEscaped dashes c
  | .escapedLess, c => stepEscapedLess c
  | .escapedEndOpen, c => stepEscapedEndOpen c
  | .escapedEndName buf, c => stepEscapedEndName buf c
  | .doubleEscapeStart buf, c => stepDoubleEscapeStart buf c
  | .doubleEscaped dashes, c => stepDoubleEscaped dashes c
  -- 13.2.5.30 Script data double escaped less-than sign state
  | .doubleEscapedLess, c => if c = c%'/' then (.doubleEscapeEnd [], [.char c]) else stepDoubleEscaped 0 c
  | .doubleEscapeEnd buf, c => stepDoubleEscapeEnd buf c
  | .plaintext, c => (.plaintext, (noNul c).map .char)
  | .tagOpen, c => stepTagOpen c
  | .endTagOpen, c => stepEndTagOpen c
  | .tagName t, c => stepTagName t c
  | .beforeAttrName t, c => stepBeforeAttrName t c
  | .attrName t n, c => stepAttrName t n c
  | .afterAttrName t n, c => stepAfterAttrName t n c (stepAttrName (t.add n []) [] c)
  | .beforeAttrValue t n, c => stepBeforeAttrValue t n c
  | .doubleQuoted t n v, c =>
    if c = c%'"' then (.afterAttrValue (t.add n v), []) else (.doubleQuoted t n (v ++ noNul c), [])
  | .singleQuoted t n v, c =>
    if c = c%'\'' then (.afterAttrValue (t.add n v), []) else (.singleQuoted t n (v ++ noNul c), [])
  | .unquoted t n v, c => stepUnquoted t n v c
  | .afterAttrValue t, c => stepAfterAttrValue t c
  | .selfClosing t, c => stepSelfClosing t c
  | .bogusComment d, c => stepBogus d c
  | .markupDecl, c =>
    if c = c%'-' then (.markupDeclDash, [])
    else if c = c%'D' || c == c%'d' then (.declaration [c], [])
    else stepBogus [] c
  | .markupDeclDash, c => if c = c%'-' then (.commentStart, []) else stepBogus b%"-" c
  | .declaration d, c =>
    -- DOCTYPE, or else a bogus comment
    if c = c%'>' then (.data, [if lower (d.take 7) = b%"doctype" then .doctype d else .comment d])
    else (.declaration (d ++ noNul c), [])
  | .commentStart, c =>
    if c = c%'-' then (.commentStartDash, [])
    else if c = c%'>' then (.data, [.comment []])
    else stepComment [] c
  | .commentStartDash, c =>
    if c = c%'-' then (.commentEnd [], [])
    else if c = c%'>' then (.data, [.comment []])
    else stepComment b%"-" c
  | .comment d, c => stepComment d c
  | .commentLess d, c =>
    if c = c%'!' then (.commentLessBang (d ++ [c]), [])
    else if c = c%'<' then (.commentLess (d ++ [c]), [])
    else stepComment d c
  | .commentLessBang d, c => if c = c%'-' then (.commentLessBangDash d, []) else stepComment d c
  | .commentLessBangDash d, c => if c = c%'-' then (.commentLessBangDashDash d, []) else stepCommentEndDash d c
  | .commentLessBangDashDash d, c => stepCommentEnd d c
  | .commentEndDash d, c => stepCommentEndDash d c
  | .commentEnd d, c => stepCommentEnd d c
  | .commentEndBang d, c => stepCommentEndBang d c

/-- The end of the input: an unfinished comment is still a comment, an unfinished tag is dropped. -/
def finish : State → List Tok
  | .tagOpen => (b%"<").map .char
  | .endTagOpen => (b%"</").map .char
  | .textLess _ _ | .escapedLess => (b%"<").map .char
  | .textEndOpen _ _ | .escapedEndOpen => (b%"</").map .char
  | .textEndName _ _ buf | .escapedEndName buf => (b%"</" ++ buf).map .char
  | .bogusComment d | .comment d | .commentLess d | .commentLessBang d | .commentLessBangDash d
  | .commentLessBangDashDash d | .commentEndDash d | .commentEnd d | .commentEndBang d => [.comment d]
  | .declaration d => [if lower (d.take 7) = b%"doctype" then .doctype d else .comment d]
  | .markupDecl | .commentStart | .commentStartDash => [.comment []]
  | .markupDeclDash => [.comment b%"-"]
  | _ => []

/-- Where references are recognised (`some true`: in an attribute value), and what becomes of their text `u`.  (The last
five states reconsume an `&` in one of the others.) -/
def refState : State → Option (Bool × (Bytes → State × List Tok))
  | .data => some (false, fun u => (.data, u.map .char))
  | .text true elem => some (false, fun u => (.text true elem, u.map .char))
  | .doubleQuoted t n v => some (true, fun u => (.doubleQuoted t n (v ++ u), []))
  | .singleQuoted t n v => some (true, fun u => (.singleQuoted t n (v ++ u), []))
  | .unquoted t n v => some (true, fun u => (.unquoted t n (v ++ u), []))
  | .beforeAttrValue t n => some (true, fun u => (.unquoted t n u, []))
  | .tagOpen => some (false, fun u => (.data, (b%"<" ++ u).map .char))
  | .textLess true elem => some (false, fun u => (.text true elem, (b%"<" ++ u).map .char))
  | .textEndOpen true elem => some (false, fun u => (.text true elem, (b%"</" ++ u).map .char))
  | .textEndName true elem buf => some (false, fun u => (.text true elem, (b%"</" ++ buf ++ u).map .char))
  | _ => none

/-- A character reference that starts here: its length after the `&`, the next state and the tokens. -/
def reference (R : CharRefs) (st : State) (c : UInt8) (rest : Bytes) : Option (Nat × State × List Tok) :=
  if c = c%'&' then
    match refState st with
    | some (inAttr, put) => (R.find inAttr rest).map fun (k, u) => (k, put u)
    | none => none
  else none

/-- The tokens of an input, from a state.  The first `skip` bytes belong to a character reference already read. -/
def run (R : CharRefs) : State → (skip : Nat) → Bytes → List Tok
  | st, _, [] => finish st
  | st, k + 1, _ :: rest => run R st k rest
  | st, 0, c :: rest =>
    match reference R st c rest with
    | some (k, st', toks) => toks ++ run R st' k rest
    | none => (step st c).2 ++ run R (step st c).1 0 rest

/-- What an HTML document consists of: tags, comments, and texts as long as possible. -/
inductive Item where
  | text (s : Bytes)
  | start (name : Bytes) (attrs : List (Bytes × Bytes)) (selfClosing : Bool)
  | close (name : Bytes)
  | comment (data : Bytes)
  | doctype (data : Bytes)
deriving DecidableEq, Repr

/-- A text before other items. -/
def addText (s : Bytes) (items : List Item) : List Item :=
  match s, items with
  | [], _ => items
  | _, .text t :: rest => .text (s ++ t) :: rest
  | _, _ => .text s :: items

/-- Joining the characters. -/
def items : List Tok → List Item
  | [] => []
  | .char c :: ts => addText [c] (items ts)
  | .start n as sc :: ts => .start n as sc :: items ts
  | .close n :: ts => .close n :: items ts
  | .comment d :: ts => .comment d :: items ts
  | .doctype d :: ts => .doctype d :: items ts

/-- Reading HTML. -/
def readHtml (R : CharRefs) (input : Bytes) : List Item := items (run R .data 0 input)

end Aitch.Spec.Markup

import Verif.Spec.Lines
/-
The DOM: how a browser builds the tree of a page from the tags and texts it reads (HTML standard, section 13.2.6, "Tree
construction").  Nothing here refers to the model of the code.

Covered are pages that start with a DOCTYPE of the current standard, without frames, and in the body all elements but
those of `outsideNames` (`select`, `template`, `svg`, `math` and a few more).  Where the standard goes on in a way that
is not covered (an element of these, a second `html` or `body` tag, text between the rows of a table, formatting elements
like `b` that are closed in the wrong order) the result is `none`.
-/
namespace Aitch.Spec.Markup

/-- A node of the DOM. -/
inductive Dom where
  | element (name : Bytes) (attrs : List (Bytes × Bytes)) (children : List Dom)
  | text (s : Bytes)
  | comment (s : Bytes)
  | doctype (s : Bytes)

/-! ### Elements by what the standard does with them in the body -/

/-- Not covered. -/
def outsideNames : List Bytes :=
  [b%"html", b%"body", b%"frameset", b%"template", b%"plaintext", b%"applet", b%"marquee", b%"object",
   b%"image", b%"noscript", b%"select", b%"optgroup", b%"option", b%"math", b%"svg"]

/-- Elements of the head that have no content. -/
def headVoidNames : List Bytes := [b%"base", b%"basefont", b%"bgsound", b%"link", b%"meta"]

/-- Elements of the head that have text in them. -/
def headTextNames : List Bytes := [b%"noframes", b%"script", b%"style", b%"title"]

/-- "A start tag whose tag name is one of": blocks, which end a paragraph. -/
def blockNames : List Bytes :=
  [b%"address", b%"article", b%"aside", b%"blockquote", b%"center", b%"details", b%"dialog", b%"dir", b%"div", b%"dl",
   b%"fieldset", b%"figcaption", b%"figure", b%"footer", b%"header", b%"hgroup", b%"main", b%"menu", b%"nav", b%"ol",
   b%"p", b%"search", b%"section", b%"summary", b%"ul", b%"pre", b%"listing"]

/-- Headings. -/
def headingNames : List Bytes := [b%"h1", b%"h2", b%"h3", b%"h4", b%"h5", b%"h6"]

/-- Formatting elements. -/
def formattingNames : List Bytes :=
  [b%"a", b%"b", b%"big", b%"code", b%"em", b%"font", b%"i", b%"nobr", b%"s", b%"small", b%"strike", b%"strong", b%"tt",
   b%"u"]

/-- Elements of the body that have no content. -/
def bodyVoidNames : List Bytes :=
  [b%"area", b%"br", b%"embed", b%"img", b%"keygen", b%"wbr", b%"input", b%"param", b%"source", b%"track"]

/-- Elements of the body that have text in them. -/
def bodyTextNames : List Bytes := [b%"textarea", b%"iframe", b%"noembed"]

/-- Start tags that are ignored in the body. -/
def ignoredNames : List Bytes :=
  [b%"caption", b%"col", b%"colgroup", b%"frame", b%"head", b%"tbody", b%"td", b%"tfoot", b%"th", b%"thead", b%"tr"]

/-- "Generate implied end tags" closes these. -/
def impliedNames : List Bytes :=
  [b%"dd", b%"dt", b%"li", b%"optgroup", b%"option", b%"p", b%"rb", b%"rp", b%"rt", b%"rtc"]

/-- The elements of the category "special" (13.2.4.2). -/
def specialNames : List Bytes :=
  [b%"address", b%"applet", b%"area", b%"article", b%"aside", b%"base", b%"basefont", b%"bgsound", b%"blockquote",
   b%"body", b%"br", b%"button", b%"caption", b%"center", b%"col", b%"colgroup", b%"dd", b%"details", b%"dir", b%"div",
   b%"dl", b%"dt", b%"embed", b%"fieldset", b%"figcaption", b%"figure", b%"footer", b%"form", b%"frame", b%"frameset",
   b%"h1", b%"h2", b%"h3", b%"h4", b%"h5", b%"h6", b%"head", b%"header", b%"hgroup", b%"hr", b%"html", b%"iframe",
   b%"img", b%"input", b%"keygen", b%"li", b%"link", b%"listing", b%"main", b%"marquee", b%"menu", b%"meta", b%"nav",
   b%"noembed", b%"noframes", b%"noscript", b%"object", b%"ol", b%"p", b%"param", b%"plaintext", b%"pre", b%"script",
   b%"search", b%"section", b%"select", b%"source", b%"style", b%"summary", b%"table", b%"tbody", b%"td", b%"template",
   b%"textarea", b%"tfoot", b%"th", b%"thead", b%"title", b%"tr", b%"track", b%"ul", b%"wbr", b%"xmp"]

/-- What the standard does with a tag in the body depends on this. -/
inductive Kind where
  | outside | headVoid | headText | block | heading | form | li | dd | button | a | nobr | formatting | void | hr
  | text | xmp | ruby | rubyText | table | ignored | ordinary
deriving DecidableEq, Repr

/-- The kind of an element. -/
def kind (n : Bytes) : Kind :=
  if n ∈ outsideNames then .outside
  else if n ∈ headVoidNames then .headVoid
  else if n ∈ headTextNames then .headText
  else if n ∈ blockNames then .block
  else if n ∈ headingNames then .heading
  else if n = b%"form" then .form
  else if n = b%"li" then .li
  else if n = b%"dd" ∨ n = b%"dt" then .dd
  else if n = b%"button" then .button
  else if n = b%"a" then .a
  else if n = b%"nobr" then .nobr
  else if n ∈ formattingNames then .formatting
  else if n ∈ bodyVoidNames then .void
  else if n = b%"hr" then .hr
  else if n ∈ bodyTextNames then .text
  else if n = b%"xmp" then .xmp
  else if n = b%"rb" ∨ n = b%"rtc" then .ruby
  else if n = b%"rp" ∨ n = b%"rt" then .rubyText
  else if n = b%"table" then .table
  else if n ∈ ignoredNames then .ignored
  else .ordinary

/-! ### Questions about the names of the open elements (the current node first) -/

/-- "Has an element in scope": one of `names`, with none of `stop` before it. -/
def inScope (names stop : List Bytes) : List Bytes → Bool
  | [] => false
  | n :: path => if n ∈ names then true else if n ∈ stop then false else inScope names stop path

/-- The end of the scope (of the elements that are covered). -/
def scopeEnd : List Bytes := [b%"html", b%"table", b%"td", b%"th", b%"caption"]

/-- "Has a p element in button scope". -/
def pOpen (path : List Bytes) : Bool := inScope [b%"p"] (b%"button" :: scopeEnd) path

/-- The loop of "a start tag whose tag name is li" (or dd, dt): is one of `names` to be closed, and which? -/
def itemOpen (names : List Bytes) : List Bytes → Option Bytes
  | [] => none
  | n :: path =>
    if n ∈ names then some n
    else if n ∈ specialNames ∧ n ∉ [b%"address", b%"div", b%"p"] then none
    else itemOpen names path

/-- The open elements after the last marker of the list of active formatting elements. -/
def sinceMarker (path : List Bytes) : List Bytes := path.takeWhile (· ∉ [b%"td", b%"th", b%"caption"])

/-- Where in a table the current node is.  The insertion modes for tables are this: they always agree with what "reset
the insertion mode appropriately" makes of the open elements. -/
inductive Region where
  | body | cell | caption | row | rows | table | columns
deriving DecidableEq, Repr

/-- The sections of a table. -/
def sectionNames : List Bytes := [b%"tbody", b%"tfoot", b%"thead"]

@[inherit_doc Region] def region : List Bytes → Region
  | [] => .body
  | n :: path =>
    if n = b%"td" ∨ n = b%"th" then .cell
    else if n = b%"caption" then .caption
    else if n = b%"tr" then .row
    else if n ∈ sectionNames then .rows
    else if n = b%"table" then .table
    else if n = b%"colgroup" then .columns
    else region path

/-! ### The state -/

/-- An open element, with its children so far, the last one first. -/
structure Open where
  name : Bytes
  attrs : List (Bytes × Bytes)
  kids : List Dom

/-- The insertion mode (for tables, see `Region`); `text` returns to another one. -/
inductive Mode where
  | initial | beforeHtml | beforeHead | inHead | afterHead | inBody | afterBody | afterAfterBody
  | text (back : Mode)
deriving DecidableEq, Repr

/-- The state of the tree construction: the mode, the stack of open elements (the current node first), what is in the
document before and after the `html` element.

The list of active formatting elements holds the open elements with names of `formattingNames`, and the form element
pointer points to the open `form`, as long as the construction is covered. -/
structure Builder where
  mode : Mode
  stack : List Open
  before : List Dom
  after : List Dom

/-- The start. -/
def Builder.start : Builder := ⟨.initial, [], [], []⟩

/-- The names of the open elements. -/
def Builder.path (b : Builder) : List Bytes := b.stack.map (·.name)

/-- Inserting text among children: it joins a text just before it. -/
def putText (s : Bytes) : List Dom → List Dom
  | .text t :: kids => .text (t ++ s) :: kids
  | kids => .text s :: kids

/-- A new child of the current node. -/
def putKid (d : Dom) : List Open → List Open
  | o :: stack => { o with kids := d :: o.kids } :: stack
  | [] => []

/-- "Insert a character", for each of `s`. -/
def Builder.insertText (b : Builder) (s : Bytes) : Builder :=
  match s, b.stack with
  | [], _ => b
  | _, o :: stack => { b with stack := { o with kids := putText s o.kids } :: stack }
  | _, [] => b

/-- "Insert an HTML element". -/
def Builder.push (b : Builder) (n : Bytes) (attrs : List (Bytes × Bytes)) : Builder :=
  { b with stack := ⟨n, attrs, []⟩ :: b.stack }

/-- Insert an element and pop it at once. -/
def Builder.insertVoid (b : Builder) (n : Bytes) (attrs : List (Bytes × Bytes)) : Builder :=
  { b with stack := putKid (.element n attrs []) b.stack }

/-- Insert an element with text in it, up to its end tag. -/
def Builder.insertRaw (b : Builder) (n : Bytes) (attrs : List (Bytes × Bytes)) : Builder :=
  { b.push n attrs with mode := .text b.mode }

/-- "Insert a comment". -/
def Builder.comment (b : Builder) (d : Bytes) : Builder := { b with stack := putKid (.comment d) b.stack }

/-- Pop the current node: it becomes a child of the next one. -/
def popped : List Open → List Open
  | o :: stack => putKid (.element o.name o.attrs o.kids.reverse) stack
  | [] => []

@[inherit_doc popped] def Builder.pop (b : Builder) : Builder := { b with stack := popped b.stack }

/-- "Generate implied end tags", except for elements called `except`.  (`n` bounds the number of elements.) -/
def implied (except : List Bytes) : (n : Nat) → List Open → List Open
  | n + 1, o :: stack =>
    if o.name ∈ impliedNames ∧ o.name ∉ except then implied except n (popped (o :: stack)) else o :: stack
  | _, stack => stack

/-- "Generate implied end tags". -/
def Builder.implied (b : Builder) (except : List Bytes) : Builder :=
  { b with stack := Markup.implied except b.stack.length b.stack }

/-- "Pop elements from the stack of open elements until one of `names` has been popped"; not covered if a formatting
element or a form is popped on the way.  (`n` bounds the number of elements.) -/
def popUntil (names : List Bytes) : (n : Nat) → List Open → Option (List Open)
  | n + 1, o :: stack =>
    if o.name ∈ names then some (popped (o :: stack))
    else if o.name ∈ b%"form" :: formattingNames then none
    else popUntil names n (popped (o :: stack))
  | _, _ => none

/-- "Pop elements until". -/
def Builder.popUntil (b : Builder) (names : List Bytes) : Option Builder :=
  (Markup.popUntil names b.stack.length b.stack).map fun s => { b with stack := s }

/-- "Close a p element". -/
def Builder.closeP (b : Builder) : Option Builder := (b.implied [b%"p"]).popUntil [b%"p"]

/-- "If the stack of open elements has a p element in button scope, then close a p element". -/
def Builder.endP (b : Builder) : Option Builder := if pOpen b.path then b.closeP else some b

/-! ### The body -/

/-- The start tags of `li`, and of `dd` and `dt`: `names`. -/
def Builder.item (b : Builder) (names : List Bytes) (n : Bytes) (attrs : List (Bytes × Bytes)) : Option Builder :=
  (match itemOpen names b.path with
    | some m => (b.implied [m]).popUntil [m]
    | none => some b).bind fun b : Builder => b.endP.map fun b : Builder => b.push n attrs

/-- 13.2.6.4.7, a start tag in the body. -/
def Builder.bodyStart (b : Builder) (n : Bytes) (attrs : List (Bytes × Bytes)) : Option Builder :=
  match kind n with
  | .outside => none
  | .headVoid => some (b.insertVoid n attrs)
  | .headText => some (b.insertRaw n attrs)
  | .block => b.endP.map fun b : Builder => b.push n attrs
  | .heading => b.endP.map fun b : Builder =>
    match b.stack with
    | o :: _ => if o.name ∈ headingNames then b.pop.push n attrs else b.push n attrs
    | [] => b
  | .form => if b%"form" ∈ b.path then some b else b.endP.map fun b : Builder => b.push n attrs
  | .li => b.item [b%"li"] n attrs
  | .dd => b.item [b%"dd", b%"dt"] n attrs
  | .button =>
    (if inScope [b%"button"] scopeEnd b.path then (b.implied []).popUntil [b%"button"] else some b).map
      fun b : Builder => b.push n attrs
  -- an `a` in an `a` needs the "adoption agency algorithm"
  | .a => if b%"a" ∈ sinceMarker b.path then none else some (b.push n attrs)
  | .nobr => if inScope [b%"nobr"] scopeEnd b.path then none else some (b.push n attrs)
  -- more than three alike: "Noah's Ark clause"
  | .formatting => if ((sinceMarker b.path).filter (· = n)).length < 3 then some (b.push n attrs) else none
  | .void => some (b.insertVoid n attrs)
  | .hr => b.endP.map fun b : Builder => b.insertVoid n attrs
  | .text => some (b.insertRaw n attrs)
  | .xmp => b.endP.map fun b : Builder => b.insertRaw n attrs
  | .ruby => some ((if inScope [b%"ruby"] scopeEnd b.path then b.implied [] else b).push n attrs)
  | .rubyText => some ((if inScope [b%"ruby"] scopeEnd b.path then b.implied [b%"rtc"] else b).push n attrs)
  | .table => b.endP.map fun b : Builder => b.push n attrs
  | .ignored => some b
  | .ordinary => some (b.push n attrs)

/-- "Any other end tag", looking at the names of the open elements. -/
def findOrdinary (n : Bytes) : List Bytes → Bool
  | [] => false
  | m :: path => if m = n then true else if m ∈ specialNames then false else findOrdinary n path

@[inherit_doc findOrdinary] def Builder.endOther (b : Builder) (n : Bytes) : Option Builder :=
  if findOrdinary n b.path then (b.implied [n]).popUntil [n] else some b

/-- The end tags of formatting elements ("adoption agency algorithm"): covered if no special element is inside. -/
def Builder.endFormatting (b : Builder) (n : Bytes) : Option Builder :=
  if n ∉ sinceMarker b.path then b.endOther n
  else if inScope [n] scopeEnd b.path then
    if (b.path.takeWhile (· ≠ n)).any (· ∈ specialNames) then none else b.popUntil [n]
  else some b

/-- 13.2.6.4.7, an end tag in the body. -/
def Builder.bodyEnd (b : Builder) (n : Bytes) : Option Builder :=
  if n = b%"body" then
    if inScope [b%"body"] scopeEnd b.path then some { b with mode := .afterBody } else some b
  else if n = b%"html" then
    if inScope [b%"body"] scopeEnd b.path then some { b with mode := .afterAfterBody } else some b
  else if n = b%"p" then if pOpen b.path then b.closeP else (b.push b%"p" []).closeP
  else if n = b%"br" then some (b.insertVoid b%"br" [])
  else match kind n with
  | .block | .button =>
    if inScope [n] scopeEnd b.path then (b.implied []).popUntil [n] else some b
  | .outside => none
  | .form =>
    if inScope [n] scopeEnd b.path then
      -- the form is taken out of the stack, wherever it is
      match (b.implied []).stack with
      | o :: _ => if o.name = n then some (b.implied []).pop else none
      | [] => none
    else some b
  | .li =>
    if inScope [n] (b%"ol" :: b%"ul" :: scopeEnd) b.path then (b.implied [n]).popUntil [n] else some b
  | .dd => if inScope [n] scopeEnd b.path then (b.implied [n]).popUntil [n] else some b
  | .heading => if inScope headingNames scopeEnd b.path then (b.implied []).popUntil headingNames else some b
  | .a | .nobr | .formatting => b.endFormatting n
  | _ => b.endOther n

/-- A text without NUL. -/
def noNuls (s : Bytes) : Bytes := s.filter (· ≠ 0)

/-- 13.2.6.4.7, the "in body" insertion mode. -/
def Builder.body (b : Builder) : Item → Option Builder
  | .text s => some (b.insertText (noNuls s))
  | .start n attrs _ => b.bodyStart n attrs
  | .close n => b.bodyEnd n
  | .comment d => some (b.comment d)
  | .doctype _ => some b

/-! ### Tables -/

/-- Start tags that end a cell or a caption. -/
def tableNames : List Bytes :=
  [b%"caption", b%"col", b%"colgroup", b%"tbody", b%"td", b%"tfoot", b%"th", b%"thead", b%"tr"]

/-- 13.2.6.4.9, "in table", when the current node is a part of a table. -/
def Builder.inTable (b : Builder) : Item → Option Builder
  | .text s => if s.all isSpace then some (b.insertText s) else none
  | .comment d => some (b.comment d)
  | .doctype _ => some b
  | .start n attrs _ => if n = b%"script" ∨ n = b%"style" then some (b.insertRaw n attrs) else none
  | .close _ => none

/-- 13.2.6.4.14, "in row". -/
def Builder.row (b : Builder) : Item → Option Builder
  | .start n attrs sc => if n = b%"td" ∨ n = b%"th" then some (b.push n attrs) else b.inTable (.start n attrs sc)
  | .close n => if n = b%"tr" then some b.pop else none
  | i => b.inTable i

/-- 13.2.6.4.13, "in table body"; a cell gets a row. -/
def Builder.rows (b : Builder) : Item → Option Builder
  | .start n attrs sc =>
    if n = b%"tr" then some (b.push n attrs)
    else if n = b%"td" ∨ n = b%"th" then (b.push b%"tr" []).row (.start n attrs sc)
    else b.inTable (.start n attrs sc)
  | .close n => if n ∈ sectionNames ∧ b.path.head? = some n then some b.pop else none
  | i => b.inTable i

/-- 13.2.6.4.12, "in column group". -/
def Builder.columns (b : Builder) : Item → Option Builder
  | .start n attrs _ => if n = b%"col" then some (b.insertVoid n attrs) else none
  | .close n => if n = b%"colgroup" then some b.pop else none
  | i => b.inTable i

/-- 13.2.6.4.9, "in table"; a row or cell gets a `tbody`, a column a `colgroup`. -/
def Builder.table (b : Builder) : Item → Option Builder
  | .start n attrs sc =>
    if n ∈ b%"caption" :: b%"colgroup" :: sectionNames then some (b.push n attrs)
    else if n = b%"col" then (b.push b%"colgroup" []).columns (.start n attrs sc)
    else if n ∈ [b%"tr", b%"td", b%"th"] then (b.push b%"tbody" []).rows (.start n attrs sc)
    else b.inTable (.start n attrs sc)
  | .close n => if n = b%"table" then some b.pop else none
  | i => b.inTable i

/-- 13.2.6.4.15 and 11, "in cell" and "in caption": as in the body, but for the tags of tables. -/
def Builder.cell (b : Builder) : Item → Option Builder
  | .start n attrs sc => if n ∈ tableNames then none else b.body (.start n attrs sc)
  | .close n =>
    if n = b%"td" ∨ n = b%"th" ∨ n = b%"caption" then
      if inScope [n] [b%"td", b%"th", b%"caption"] b.path then (b.implied []).popUntil [n] else none
    else if n ∈ b%"table" :: b%"body" :: b%"html" :: tableNames then none
    else b.body (.close n)
  | i => b.body i

/-- The body with its tables. -/
def Builder.content (b : Builder) (i : Item) : Option Builder :=
  match region b.path with
  | .body => b.body i
  | .cell | .caption => b.cell i
  | .row => b.row i
  | .rows => b.rows i
  | .table => b.table i
  | .columns => b.columns i

/-! ### The other modes, each with what "anything else" does -/

/-- The spaces at the start of a text. -/
def spaces (s : Bytes) : Bytes := s.takeWhile isSpace
@[inherit_doc spaces] def rest (s : Bytes) : Bytes := s.dropWhile isSpace

/-- 13.2.6.4.6, anything else: a `body`. -/
def Builder.toBody (b : Builder) : Builder := { b.push b%"body" [] with mode := .inBody }

/-- End tags that are not ignored before the body. -/
def bodyEnds : List Bytes := [b%"body", b%"html", b%"br"]

/-- 13.2.6.4.6, the "after head" insertion mode. -/
def Builder.afterHead (b : Builder) : Item → Option Builder
  | .text s =>
    let b := b.insertText (spaces s)
    if rest s = [] then some b else b.toBody.body (.text (rest s))
  | .comment d => some (b.comment d)
  | .doctype _ => some b
  | .start n attrs sc =>
    if n = b%"body" then some { b.push n attrs with mode := .inBody }
    else if n ∈ b%"html" :: b%"frameset" :: b%"template" :: headVoidNames ++ headTextNames then none
    else if n = b%"head" then some b
    else b.toBody.body (.start n attrs sc)
  | .close n =>
    if n = b%"template" then none
    else if n ∈ bodyEnds then b.toBody.body (.close n) else some b

/-- 13.2.6.4.4, anything else: the head ends. -/
def Builder.endHead (b : Builder) : Builder := { b.pop with mode := .afterHead }

/-- 13.2.6.4.4, the "in head" insertion mode. -/
def Builder.head (b : Builder) : Item → Option Builder
  | .text s =>
    let b := b.insertText (spaces s)
    if rest s = [] then some b else b.endHead.afterHead (.text (rest s))
  | .comment d => some (b.comment d)
  | .doctype _ => some b
  | .start n attrs sc =>
    if n ∈ [b%"html", b%"template", b%"noscript"] then none
    else if n ∈ headVoidNames then some (b.insertVoid n attrs)
    else if n ∈ headTextNames then some (b.insertRaw n attrs)
    else if n = b%"head" then some b
    else b.endHead.afterHead (.start n attrs sc)
  | .close n =>
    if n = b%"head" then some b.endHead
    else if n = b%"template" then none
    else if n ∈ bodyEnds then b.endHead.afterHead (.close n) else some b

/-- 13.2.6.4.3, anything else: a `head`. -/
def Builder.toHead (b : Builder) : Builder := { b.push b%"head" [] with mode := .inHead }

/-- 13.2.6.4.3, the "before head" insertion mode. -/
def Builder.beforeHead (b : Builder) : Item → Option Builder
  | .text s => if rest s = [] then some b else b.toHead.head (.text (rest s))
  | .comment d => some (b.comment d)
  | .doctype _ => some b
  | .start n attrs sc =>
    if n = b%"html" then none
    else if n = b%"head" then some { b.push n attrs with mode := .inHead }
    else b.toHead.head (.start n attrs sc)
  | .close n => if n ∈ b%"head" :: bodyEnds then b.toHead.head (.close n) else some b

/-- 13.2.6.4.2, anything else: an `html` element. -/
def Builder.toHtml (b : Builder) : Builder := { b.push b%"html" [] with mode := .beforeHead }

/-- 13.2.6.4.2, the "before html" insertion mode. -/
def Builder.beforeHtml (b : Builder) : Item → Option Builder
  | .text s => if rest s = [] then some b else b.toHtml.beforeHead (.text (rest s))
  | .comment d => some { b with before := b.before ++ [.comment d] }
  | .doctype _ => some b
  | .start n attrs sc =>
    if n = b%"html" then some { b.push n attrs with mode := .beforeHead } else b.toHtml.beforeHead (.start n attrs sc)
  | .close n => if n ∈ b%"head" :: bodyEnds then b.toHtml.beforeHead (.close n) else some b

/-- 13.2.6.4.1, the "initial" insertion mode; covered for a DOCTYPE that means the current standard. -/
def Builder.first (b : Builder) : Item → Option Builder
  | .text s => if rest s = [] then some b else none
  | .comment d => some { b with before := b.before ++ [.comment d] }
  | .doctype d =>
    if lower d = b%"doctype html" then some { b with before := b.before ++ [.doctype d], mode := .beforeHtml } else none
  | _ => none

/-- 13.2.6.4.19 and 22, the "after body" and "after after body" insertion modes. -/
def Builder.done (b : Builder) : Item → Option Builder
  | .text s => if rest s = [] then b.content (.text s) else { b with mode := .inBody }.content (.text s)
  | .comment d =>
    -- after the body it comes at the end of the `html` element, which is not covered
    if b.mode = .afterBody then none else some { b with after := b.after ++ [.comment d] }
  | .doctype _ => some b
  | .start n attrs sc => if n = b%"html" then none else { b with mode := .inBody }.content (.start n attrs sc)
  | .close n =>
    if n = b%"html" ∧ b.mode = .afterBody then some { b with mode := .afterAfterBody }
    else { b with mode := .inBody }.content (.close n)

/-- One item. -/
def Builder.step (b : Builder) (i : Item) : Option Builder :=
  match b.mode with
  | .initial => b.first i
  | .beforeHtml => b.beforeHtml i
  | .beforeHead => b.beforeHead i
  | .inHead => b.head i
  | .afterHead => b.afterHead i
  | .inBody => b.content i
  | .afterBody | .afterAfterBody => b.done i
  -- 13.2.6.4.8
  | .text back =>
    match i with
    | .text s => some (b.insertText s)
    | .close _ => some { b.pop with mode := back }
    | _ => none

/-- All items. -/
def Builder.feed (b : Builder) : List Item → Option Builder
  | [] => some b
  | i :: is => (b.step i).bind fun b => b.feed is

/-- The end of the page: what is missing is supplied. -/
def Builder.complete (b : Builder) : Builder :=
  match b.mode with
  | .initial | .beforeHtml => b.toHtml.toHead.endHead.toBody
  | .beforeHead => b.toHead.endHead.toBody
  | .inHead => b.endHead.toBody
  | .text .inHead => b.pop.endHead.toBody
  | .afterHead => b.toBody
  | _ => b

/-- All open elements are closed. -/
def closeAll : (n : Nat) → List Open → List Dom
  | n + 1, o :: p :: stack => closeAll n (popped (o :: p :: stack))
  | _, [o] => [.element o.name o.attrs o.kids.reverse]
  | _, _ => []

/-- The children of the document. -/
def Builder.document (b : Builder) : List Dom :=
  b.complete.before ++ closeAll b.complete.stack.length b.complete.stack ++ b.complete.after

/-- The DOM of a page. -/
def domOf (page : List Item) : Option (List Dom) := (Builder.start.feed page).map (·.document)

/-! ### What the DOM of a tree should be -/

/-- The attributes of an element. -/
def domAttrs (attrs : List (Bytes × Option Bytes)) : List (Bytes × Bytes) :=
  attrs.map fun a => (lower a.1, seen (a.2.getD []))

/-- Texts next to each other are one. -/
def joined : List Dom → List Dom
  | .text s :: rest =>
    match joined rest with
    | .text t :: more => .text (s ++ t) :: more
    | more => if s = [] then more else .text s :: more
  | d :: rest => d :: joined rest
  | [] => []

mutual
/-- The node of a tree. -/
def node : Tree → Dom
  | .element name attrs children => .element (lower name) (domAttrs attrs) (joined (nodes children))
  | .void name attrs => .element (lower name) (domAttrs attrs) []
  | .text s => .text (seen s)
  | .comment s => .comment (seen s)
  | .doctype s => .doctype (b%"DOCTYPE " ++ seen s)
/-- The nodes of trees. -/
def nodes : List Tree → List Dom
  | [] => []
  | t :: ts => node t :: nodes ts
end

/-- The children of an element with these trees in it. -/
def children (ts : List Tree) : List Dom := joined (nodes ts)

/-! ### Which trees a browser leaves as they are -/

/-- Whether an element may start where the open elements are called `path`: the start tag closes none of them. -/
def mayStart (path : List Bytes) (n : Bytes) : Bool :=
  match kind n with
  | .headText | .text | .ordinary => true
  | .block | .table | .xmp => !pOpen path
  | .heading => !pOpen path && !(path.head?.any (· ∈ headingNames))
  | .form => !pOpen path && b%"form" ∉ path
  | .li => !pOpen path && (itemOpen [b%"li"] path).isNone
  | .dd => !pOpen path && (itemOpen [b%"dd", b%"dt"] path).isNone
  | .button => !inScope [b%"button"] scopeEnd path
  | .a => b%"a" ∉ sinceMarker path
  | .nobr => !inScope [b%"nobr"] scopeEnd path
  | .formatting => ((sinceMarker path).filter (· = n)).length < 3
  | .ruby => !(inScope [b%"ruby"] scopeEnd path && path.head?.any (· ∈ impliedNames))
  | .rubyText => !(inScope [b%"ruby"] scopeEnd path && path.head?.any fun m => m ∈ impliedNames && m != b%"rtc")
  | .outside | .headVoid | .void | .hr | .ignored => false

/-- The same for an element without content. -/
def mayStand (path : List Bytes) (n : Bytes) : Bool :=
  match kind n with
  | .headVoid | .void => true
  | .hr => !pOpen path
  | _ => false

mutual
/-- A tree in the body, inside of elements called `path` (the parent first), that fits there: no element ends another,
and tables consist of captions, columns, sections, rows and cells. -/
def fits (path : List Bytes) : Tree → Bool
  | .element name _ children =>
    (match region path with
      | .body | .cell | .caption => mayStart path (lower name)
      | .table => lower name ∈ b%"caption" :: b%"colgroup" :: sectionNames
      | .rows => lower name = b%"tr"
      | .row => lower name = b%"td" ∨ lower name = b%"th"
      | .columns => false) && fitsAll (lower name :: path) children
  | .void name _ =>
    match region path with
    | .body | .cell | .caption => mayStand path (lower name)
    | .columns => lower name = b%"col"
    | _ => false
  | .text s =>
    match region path with
    | .body | .cell | .caption => true
    | _ => (seen s).all isSpace
  | .comment _ => true
  | .doctype _ => false
/-- `fits` for all trees. -/
def fitsAll (path : List Bytes) : List Tree → Bool
  | [] => true
  | t :: ts => fits path t && fitsAll path ts
end

/-- A tree in the head that fits there. -/
def fitsHead : Tree → Bool
  | .element name _ _ => lower name ∈ headTextNames
  | .void name _ => lower name ∈ headVoidNames
  | .text s => (seen s).all isSpace
  | .comment _ => true
  | .doctype _ => false

end Aitch.Spec.Markup

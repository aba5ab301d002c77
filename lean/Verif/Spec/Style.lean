import Verif.Model.Basic
/-
How a `style` attribute is read: the declarations of the CSS Syntax standard (sections 4 and 5), on bytes.  Nothing
here refers to the model of the code.

Values are not parsed any further: the value of a declaration is its text, without comments and outer spaces.  Left out:
the preprocessing of the input, escapes in names (a name with an escape is not recognised as a name of a property or as
`url`), `!important`.
-/
namespace Aitch.Spec.Css

/-- Where the reader is. -/
inductive Mode where
  | plain
  /-- after a `/`, which may start a comment -/
  | slash
  /-- after a backslash -/
  | escape
  | string (quote : UInt8)
  | stringEscape (quote : UInt8)
  | comment
  /-- after a `*` in a comment -/
  | star
  /-- after `url(` -/
  | urlStart
  | url
  | urlEscape
deriving DecidableEq, Repr

/-- The state: the mode, the brackets that have to come, innermost first, and the name just read. -/
structure State where
  mode : Mode
  closers : List UInt8
  name : Bytes
deriving DecidableEq, Repr

/-- At the start of a declaration. -/
def start : State := ⟨.plain, [], []⟩

/-- Letters, digits, `-`, `_` and all non-ASCII characters. -/
def isNameChar (c : UInt8) : Bool :=
  (c%'a' ≤ c && c ≤ c%'z') || (c%'A' ≤ c && c ≤ c%'Z') || (c%'0' ≤ c && c ≤ c%'9') || c == c%'-' || c == c%'_' || 128 ≤ c

/-- Tab, line ends, space. -/
def isSpace (c : UInt8) : Bool := c == 9 || c == 10 || c == 12 || c == 13 || c == 32

/-- Line ends. -/
def isNewline (c : UInt8) : Bool := c == 10 || c == 12 || c == 13

/-- ASCII lower case. -/
def lowerByte (c : UInt8) : UInt8 := if c%'A' ≤ c && c ≤ c%'Z' then c + 32 else c

/-- A character outside of strings, comments and URLs: what it adds to the declaration, and the next state, or none at
the end of the declaration. -/
def stepPlain (closers : List UInt8) (name : Bytes) (c : UInt8) : Bytes × Option State :=
  if c = c%';' ∧ closers = [] then ([], none)
  else if c = c%'"' ∨ c = c%'\'' then ([c], some ⟨.string c, closers, []⟩)
  else if c = c%'\\' then ([c], some ⟨.escape, closers, []⟩)
  else if c = c%'/' then ([], some ⟨.slash, closers, []⟩)
  else if c = c%'(' then
    if name = b%"url" then ([c], some ⟨.urlStart, closers, []⟩) else ([c], some ⟨.plain, c%')' :: closers, []⟩)
  else if c = c%'[' then ([c], some ⟨.plain, c%']' :: closers, []⟩)
  else if c = c%'{' then ([c], some ⟨.plain, c%'}' :: closers, []⟩)
  else if closers.head? = some c then ([c], some ⟨.plain, closers.tail, []⟩)
  else if isNameChar c then ([c], some ⟨.plain, closers, name ++ [lowerByte c]⟩)
  else ([c], some ⟨.plain, closers, []⟩)

/-- A character in an unquoted URL (well formed or not: both end at the closing bracket). -/
def stepUrl (closers : List UInt8) (c : UInt8) : Bytes × Option State :=
  if c = c%')' then ([c], some ⟨.plain, closers, []⟩)
  else if c = c%'\\' then ([c], some ⟨.urlEscape, closers, []⟩)
  else ([c], some ⟨.url, closers, []⟩)

/-- A character. -/
def step (s : State) (c : UInt8) : Bytes × Option State :=
  match s.mode with
  | .plain => stepPlain s.closers s.name c
  | .slash =>
    if c = c%'*' then ([], some ⟨.comment, s.closers, []⟩)
    else (c%'/' :: (stepPlain s.closers [] c).1, (stepPlain s.closers [] c).2)
  | .escape => ([c], some ⟨.plain, s.closers, []⟩)
  | .string q =>
    if c = q ∨ isNewline c then ([c], some ⟨.plain, s.closers, []⟩)
    else if c = c%'\\' then ([c], some ⟨.stringEscape q, s.closers, []⟩)
    else ([c], some ⟨.string q, s.closers, []⟩)
  | .stringEscape q => ([c], some ⟨.string q, s.closers, []⟩)
  | .comment => ([], some ⟨if c = c%'*' then .star else .comment, s.closers, []⟩)
  | .star =>
    ([], some ⟨if c = c%'/' then .plain else if c = c%'*' then .star else .comment, s.closers, []⟩)
  | .urlStart =>
    if isSpace c then ([c], some ⟨.urlStart, s.closers, []⟩)
    else if c = c%'"' ∨ c = c%'\'' then ([c], some ⟨.string c, c%')' :: s.closers, []⟩)
    else stepUrl s.closers c
  | .url => stepUrl s.closers c
  | .urlEscape => ([c], some ⟨.url, s.closers, []⟩)

/-- The texts between the semicolons that end declarations; `acc` has been read already. -/
def split (s : State) (acc : Bytes) : Bytes → List Bytes
  | [] => [acc ++ if s.mode = .slash then b%"/" else []]
  | c :: rest =>
    match step s c with
    | (out, some s') => split s' (acc ++ out) rest
    | (out, none) => (acc ++ out) :: split start [] rest

/-- Without spaces at the start, without spaces at both ends. -/
def trimStart (s : Bytes) : Bytes := s.dropWhile isSpace
@[inherit_doc trimStart] def trim (s : Bytes) : Bytes := (trimStart (trimStart s).reverse).reverse

/-- The name of a property does not start with a digit. -/
def isName (n : Bytes) : Bool := n.head?.any fun c => isNameChar c && !(c%'0' ≤ c && c ≤ c%'9')

/-- A declaration: a name, a colon, and a value.  Anything else is ignored. -/
def declaration (text : Bytes) : Option (Bytes × Bytes) :=
  let t := trimStart text
  let name := t.takeWhile isNameChar
  match trimStart (t.dropWhile isNameChar) with
  | c :: value => if c = c%':' ∧ isName name then some (name, trim value) else none
  | [] => none

/-- The declarations in a `style` attribute. -/
def declarations (style : Bytes) : List (Bytes × Bytes) := (split start [] style).filterMap declaration

/-- Reading a text from a state to its end, unless a declaration ends in it: what it adds to the declaration. -/
def read (s : State) : Bytes → Option (State × Bytes)
  | [] => some (s, [])
  | c :: rest =>
    match step s c with
    | (out, some s') => (read s' rest).map fun r => (r.1, out ++ r.2)
    | (_, none) => none

/-- A text that stays within a declaration: every string, comment, URL and bracket that starts in it ends in it, there is no
semicolon outside of them, and there are no comments. -/
def Contained (v : Bytes) : Prop := ∃ n, read start v = some (⟨.plain, [], n⟩, v)

instance (v : Bytes) : Decidable (Contained v) :=
  match h : read start v with
  | none => isFalse fun ⟨_, h'⟩ => by rw [h] at h'; cases h'
  | some (⟨m, cs, n⟩, v') =>
    if h' : m = .plain ∧ cs = [] ∧ v' = v then isTrue ⟨n, by rw [h, h'.1, h'.2.1, h'.2.2]⟩
    else isFalse fun ⟨n', e⟩ => h' (by
      rw [h, Option.some.injEq, Prod.mk.injEq, State.mk.injEq] at e
      exact ⟨e.1.1, e.1.2.1, e.2⟩)

example : declarations b%"color:red; /*x;*/ background : url( a;b ) ; x:'a;b' ;7:3; a:b(c;d);;e" =
    [(b%"color", b%"red"), (b%"background", b%"url( a;b )"), (b%"x", b%"'a;b'"), (b%"a", b%"b(c;d)")] := by decide +kernel

end Aitch.Spec.Css

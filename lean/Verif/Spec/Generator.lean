import Verif.Model.Generator
import Verif.Spec.Each
/-
Go source text, and what code GenerateCode should write for an HTML (or SVG) text.
-/
namespace Aitch.Spec

/-! ### Go source text -/

/-- The escapes of one character in Go string literals (octal, hexadecimal and Unicode escapes are left out: they
never occur). -/
def goEscape : UInt8 → Option UInt8
  | c%'a' => some 7
  | c%'b' => some 8
  | c%'t' => some 9
  | c%'n' => some 10
  | c%'v' => some 11
  | c%'f' => some 12
  | c%'r' => some 13
  | c%'"' => some 34
  | c%'\\' => some 92
  | _ => none

/-- Reading a Go string literal after its opening quote: the string it denotes, and the source text after its closing
quote.  `none` if it is not a literal: it must end, on the same line.  (Bytes that no Go source can have, i.e. NUL, byte
order marks and invalid UTF-8, are not looked for.) -/
def goString : Bytes → Option (Bytes × Bytes)
  | [] => none
  | c%'"' :: s => some ([], s)
  | c%'\\' :: c :: s =>
    match goEscape c with
    | some v => (goString s).map fun r => (v :: r.1, r.2)
    | none => none
  | c :: s => if c = c%'\\' ∨ c = 10 then none else (goString s).map fun r => (c :: r.1, r.2)

/-- Go tokens; qualified names are one token. -/
inductive GoTok where
  | name (s : Bytes)
  | str (s : Bytes)
  | lpar | rpar | comma | equals | semicolon

/-- Letters, digits, `_` and `.`. -/
def isNameByte (c : UInt8) : Bool :=
  (97 ≤ c && c ≤ 122) || (65 ≤ c && c ≤ 90) || (48 ≤ c && c ≤ 57) || c == c%'_' || c == c%'.'

/-- The tokens of a Go source text.  The flag tells that a line end here gives a semicolon: the token before it was a
name, a literal or `)`. -/
inductive Lexes : Bool → Bytes → List GoTok → Prop where
  | done {b} : Lexes b [] []
  | space {b c s ts} : c = 32 ∨ c = 9 → Lexes b s ts → Lexes b (c :: s) ts
  | newline {s ts} : Lexes false s ts → Lexes false (10 :: s) ts
  | semicolon {s ts} : Lexes false s ts → Lexes true (10 :: s) (.semicolon :: ts)
  | lpar {b s ts} : Lexes false s ts → Lexes b (c%'(' :: s) (.lpar :: ts)
  | rpar {b s ts} : Lexes true s ts → Lexes b (c%')' :: s) (.rpar :: ts)
  | comma {b s ts} : Lexes false s ts → Lexes b (c%',' :: s) (.comma :: ts)
  | equals {b s ts} : Lexes false s ts → Lexes b (c%'=' :: s) (.equals :: ts)
  | name {b n s ts} : n ≠ [] → (∀ c ∈ n, isNameByte c) → (∀ c, s.head? = some c → ¬ isNameByte c) → Lexes true s ts →
      Lexes b (n ++ s) (.name n :: ts)
  | str {b s v rest ts} : goString s = some (v, rest) → Lexes true rest ts → Lexes b (c%'"' :: s) (.str v :: ts)

/-- Go expressions: string literals and calls of named functions. -/
inductive Expr where
  | lit (s : Bytes)
  | call (f : Bytes) (args : List Expr)

mutual
/-- The tokens of an expression. -/
inductive IsExpr : List GoTok → Expr → Prop where
  | lit {s} : IsExpr [.str s] (.lit s)
  | call {f ts args} : IsArgs ts args → IsExpr (.name f :: .lpar :: (ts ++ [.rpar])) (.call f args)
/-- The tokens of an argument list: commas between the arguments, and possibly one after the last. -/
inductive IsArgs : List GoTok → List Expr → Prop where
  | nil : IsArgs [] []
  | last {ts e} : IsExpr ts e → IsArgs ts [e]
  | cons {ts e us es} : IsExpr ts e → IsArgs us es → IsArgs (ts ++ .comma :: us) (e :: es)
end

/-- `src` is the declaration `var template = ` followed by the expression `e`. -/
def Declares (src : Bytes) (e : Expr) : Prop :=
  ∃ ts us, Lexes false src us ∧ IsExpr ts e ∧
    us = [.name b%"var", .name b%"template", .equals] ++ ts ++ [.semicolon]

/-! ### Parentheses -/

/-- Where in a Go source text: outside strings, inside a string, after a `\` inside a string. -/
inductive Mode where
  | code | str | esc

/-- The source text without the contents of its string literals. -/
def outside : Mode → Bytes → Bytes
  | _, [] => []
  | .code, c :: s => if c = c%'"' then outside .str s else c :: outside .code s
  | .str, c :: s => if c = c%'"' then outside .code s else if c = c%'\\' then outside .esc s else outside .str s
  | .esc, _ :: s => outside .str s

/-- The number of open parentheses after `s`, if there are `n` before it; `none` if one is closed that is not open. -/
def parens : Nat → Bytes → Option Nat
  | n, [] => some n
  | n, c :: s =>
    if c = c%'(' then parens (n + 1) s
    else if c = c%')' then match n with
      | 0 => none
      | n + 1 => parens n s
    else parens n s

/-- The parentheses of a source text are balanced. -/
def Balanced (src : Bytes) : Prop := parens 0 (outside .code src) = some 0

/-! ### Documents -/

/-- A well nested text. -/
inductive Doc where
  | text (data : Bytes)
  | comment (data : Bytes)
  | doctype (data : Bytes)
  /-- `<name attrs>children</name>` -/
  | elem (name : Bytes) (attrs : List (Bytes × Bytes)) (children : List Doc)
  /-- `<name attrs/>` -/
  | selfClosing (name : Bytes) (attrs : List (Bytes × Bytes))
  /-- `<name attrs>` without an end tag, as HTML has it for `<br>` -/
  | void (name : Bytes) (attrs : List (Bytes × Bytes))

mutual
/-- Its tokens. -/
def Doc.tokens : Doc → List Token
  | .text d => [.text d]
  | .comment d => [.comment d]
  | .doctype d => [.doctype d]
  | .elem name attrs cs => .startTag name attrs :: (tokensAll cs ++ [.endTag name])
  | .selfClosing name attrs => [.selfClosingTag name attrs]
  | .void name attrs => [.startTag name attrs]
/-- The tokens of a list of texts. -/
def tokensAll : List Doc → List Token
  | [] => []
  | d :: ds => d.tokens ++ tokensAll ds
end

/-- A name that can stand between quotes in Go as it is. -/
def Quotable (s : Bytes) : Prop := ∀ c ∈ s, c ≠ c%'"' ∧ c ≠ c%'\\' ∧ c ≠ 10

mutual
/-- Every start tag has its end tag. -/
def Doc.Closed : Doc → Prop
  | .elem _ _ cs => ClosedAll cs
  | .void _ _ => False
  | _ => True
/-- Every start tag has its end tag. -/
def ClosedAll : List Doc → Prop
  | [] => True
  | d :: ds => d.Closed ∧ ClosedAll ds
end

mutual
/-- The element and attribute names can stand between quotes. -/
def Doc.QuotableNames : Doc → Prop
  | .elem name attrs cs => Quotable name ∧ (∀ a ∈ attrs, Quotable a.1) ∧ QuotableNamesAll cs
  | .selfClosing name attrs => Quotable name ∧ ∀ a ∈ attrs, Quotable a.1
  | .void name attrs => Quotable name ∧ ∀ a ∈ attrs, Quotable a.1
  | _ => True
/-- The element and attribute names can stand between quotes. -/
def QuotableNamesAll : List Doc → Prop
  | [] => True
  | d :: ds => d.QuotableNames ∧ QuotableNamesAll ds
end

/-- A writer that accepts everything. -/
def Accepts (w : Writer) : Prop := ∀ log d, w log d = (d.length, none)

/-- `GenerateCode`, reading the tokens `ts`, writes `src` and returns nil. -/
def Generates (p : GenPkg) (ts : List Token) (src : Bytes) : Prop :=
  ∀ w, Accepts w → (GenerateCode w p ts none).err = none ∧ accepted (GenerateCode w p ts none).log = src

/-! ### The code of a document -/

/-- The code of an attribute: a function of the package if there is one for its name. -/
def attrExpr (p : GenPkg) (a : Bytes × Bytes) : Expr :=
  match p.attrs.lookup (toLower a.1) with
  | some f => .call (p.pre ++ f) (if p.bools.contains (toLower a.1) then [] else [.lit a.2])
  | none => .call b%"aitch.Attribute" [.lit a.1, .lit a.2]

/-- The code of an element: a function of the package if there is one for its name. -/
def elemExpr (p : GenPkg) (name : Bytes) (args : List Expr) : Expr :=
  match p.elems.lookup (toLower name) with
  | some f => .call (p.pre ++ f) args
  | none => .call b%"aitch.Element" (.lit name :: args)

/-- Text of nothing but spaces, line ends and tabs. -/
def blankText (d : Bytes) : Bool := d.all (· ∈ [c%' ', c%'\n', c%'\t'])

mutual
/-- The code of a text: nothing for blank text, one expression otherwise. -/
def Doc.code (p : GenPkg) : Doc → List Expr
  | .text d => if blankText d then [] else [.call (p.pre ++ b%"Text") [.lit d]]
  | .comment d => [.call (p.pre ++ b%"Comment") [.lit d]]
  | .doctype d => if p.doctype then [.call b%"html.PI" [.lit b%"DOCTYPE", .lit d]] else []
  | .elem name attrs cs => [elemExpr p name (attrs.map (attrExpr p) ++ codeAll p cs)]
  | .selfClosing name attrs => [elemExpr p name (attrs.map (attrExpr p))]
  | .void name attrs => [elemExpr p name (attrs.map (attrExpr p))]
/-- The code of a list of texts. -/
def codeAll (p : GenPkg) : List Doc → List Expr
  | [] => []
  | d :: ds => d.code p ++ codeAll p ds
end

end Aitch.Spec

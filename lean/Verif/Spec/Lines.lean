import Verif.Spec.Markup
/-
What a browser does with line ends, before and after the tokenizer: the input is normalised (HTML standard, 13.2.3.5,
and "normalize newlines" of the Infra standard), and a line feed right after the start tag of certain elements is
dropped (13.2.6.4.7, "A start tag whose tag name is one of: pre, listing" and "textarea").
-/
namespace Aitch.Spec.Markup

/-- "Replace every U+000D CR U+000A LF code point pair with a single U+000A LF code point, and then replace every
remaining U+000D CR code point with a U+000A LF code point." -/
def newlines : Bytes → Bytes
  | [] => []
  | [c] => [if c = 13 then 10 else c]
  | 13 :: 10 :: rest => 10 :: newlines rest
  | c :: d :: rest => (if c = 13 then 10 else c) :: newlines (d :: rest)

/-- An item with its strings normalised. -/
def Item.lines : Item → Item
  | .text s => .text (newlines s)
  | .start n as sc => .start n (as.map fun a => (a.1, newlines a.2)) sc
  | .close n => .close n
  | .comment d => .comment (newlines d)
  | .doctype d => .doctype (newlines d)

/-- The elements whose content never starts with a line feed. -/
def preNames : List Bytes := [b%"pre", b%"listing", b%"textarea"]

/-- Dropping the line feed after their start tags. -/
def dropFirst : List Item → List Item
  | .start n as sc :: .text (10 :: s) :: rest =>
    if n ∈ preNames then .start n as sc :: addText s (dropFirst rest)
    else .start n as sc :: .text (10 :: s) :: dropFirst rest
  | i :: rest => i :: dropFirst rest
  | [] => []

/-- A page as a browser sees it. -/
def readPage (R : CharRefs) (input : Bytes) : List Item := dropFirst (readHtml R (newlines input))

/-- The strings of an item. -/
def Item.strings : Item → List Bytes
  | .text s => [s]
  | .start _ as _ => as.map (·.2)
  | .close _ => []
  | .comment d => [d]
  | .doctype d => [d]

/-- Items that suffer from neither: no string has a carriage return, no `pre`, `listing` or `textarea` starts with a
line feed. -/
structure LinesKept (is : List Item) : Prop where
  noReturn : ∀ i ∈ is, ∀ s ∈ i.strings, 13 ∉ s
  noFirst : ∀ before n as sc s after, is = before ++ .start n as sc :: .text s :: after → n ∈ preNames → s.head? ≠ some 10

end Aitch.Spec.Markup

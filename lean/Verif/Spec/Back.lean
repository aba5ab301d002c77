import Verif.Spec.GenEval
import Verif.Spec.Lines
/-
From HTML to code, from the code to a page, and back to HTML: what of the input is to be found in the page.
-/
namespace Aitch.Spec.Back
open Aitch.Spec Aitch.Spec.Markup

/-- What a reader of HTML reads, as the token `GenerateCode` gets (the kinds of token of golang.org/x/net/html).  The
data of a doctype is what follows the word `doctype` and the white space after it. -/
def token : Item → Token
  | .text s => .text s
  | .start n as false => .startTag n as
  | .start n as true => .selfClosingTag n as
  | .close n => .endTag n
  | .comment d => .comment d
  | .doctype d => .doctype ((d.drop 7).dropWhile Markup.isSpace)

/-- The tokens of an HTML text, with its line ends normalised (as the tokenizer does it, too). -/
def tokenize (R : CharRefs) (html : Bytes) : List Token := (readHtml R (newlines html)).map token

/-- What is to be seen of a token: nothing of blank text.  In HTML `<a/>` is the same as `<a>`, in SVG (`xml`) it is the
same as `<a></a>`. -/
def shown (xml : Bool) : Token → List Token
  | .text d => if blankText d then [] else [.text d]
  | .selfClosingTag n as => .startTag n as :: if xml then [.endTag n] else []
  | t => [t]

/-- What is to be seen of tokens. -/
def visible (xml : Bool) (ts : List Token) : List Token := ts.flatMap (shown xml)

/-! ### Texts of which everything is to be found again -/

/-- No NUL bytes and no carriage returns (a text has them only if they are written as character references). -/
def Plainly (s : Bytes) : Prop := ∀ c ∈ s, c ≠ 0 ∧ c ≠ 13

/-- Valid names; values without NUL bytes and carriage returns; boolean attributes without values. -/
def KeptAttrs (p : GenPkg) (attrs : List (Bytes × Bytes)) : Prop :=
  ∀ a ∈ attrs, ValidName a.1 ∧ Plainly a.2 ∧ (a.1 ∈ p.bools → a.2 = [])

/-- Two texts never follow one another (they would be one text), and what follows a doctype is no text to be seen. -/
def DocsApart : List Doc → Prop
  | .text _ :: .text _ :: _ => False
  | .doctype _ :: .text d :: ds => blankText d = true ∧ DocsApart (.text d :: ds)
  | _ :: ds => DocsApart ds
  | [] => True

mutual
/-- Nothing that the library escapes where a reader does not decode it (`raw`: in the elements for raw text); void
elements are those of HTML, all others have end tags; only text in the elements that can only have text. -/
def Kept (p : GenPkg) (xml raw : Bool) : Doc → Prop
  | .text d => Plainly d ∧ (raw = true → Simple d)
  | .comment d => Plainly d ∧ Simple d
  | .doctype d => p.doctype = true ∧ Plainly d ∧ Simple d ∧ ∀ c, d.head? = some c → ¬ Markup.isSpace c
  | .elem name attrs cs => ValidName name ∧ name ≠ b%"plaintext" ∧ name ∉ htmlVoidNames ∧ KeptAttrs p attrs ∧
      (name ∈ textNames → ∀ c ∈ cs, ∃ d, c = .text d) ∧ DocsApart cs ∧
      KeptAll p xml (decide (name ∈ rawtextNames)) cs
  | .selfClosing name attrs => ValidName name ∧ name ≠ b%"plaintext" ∧ KeptAttrs p attrs ∧
      (xml = true ↔ name ∉ htmlVoidNames)
  | .void _ _ => False
/-- `Kept` for all texts of a list. -/
def KeptAll (p : GenPkg) (xml raw : Bool) : List Doc → Prop
  | [] => True
  | d :: ds => Kept p xml raw d ∧ KeptAll p xml raw ds
end

end Aitch.Spec.Back

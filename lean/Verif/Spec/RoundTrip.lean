import Verif.Spec.GenEval
import Verif.Spec.Source
/-
Pages that go through a reader of HTML, GenerateCode and rendering, and come out as they were.
-/
namespace Aitch.Spec.Markup

/-- What a reader finds in a page, as the tokens that GenerateCode works on.  (The data of a doctype token is what
follows the word `DOCTYPE` and a space.) -/
def tokenOf : Item → Token
  | .text s => .text s
  | .start name attrs selfClosing => if selfClosing then .selfClosingTag name attrs else .startTag name attrs
  | .close name => .endTag name
  | .comment d => .comment d
  | .doctype d => .doctype (d.drop 8)

/-- No carriage returns: readers take them for line ends. -/
def NoReturns (s : Bytes) : Prop := c%'\r' ∉ s

/-- Text right after text (or after the line end that follows a doctype) would be read as one text. -/
def Apart (t : Tree) (next : Option Tree) : Prop :=
  match t, next with
  | .text _, some (.text _) => False
  | .doctype _, some (.text _) => False
  | _, _ => True

mutual
/-- Trees without anything that is lost on the way: names in lower case that the package or aitch has functions for;
an attribute has no value just if the package takes it for a boolean one; no void elements (GenerateCode takes `<br>`
for a tag that is closed later), no blank texts, nothing to be escaped where a reader does not decode. -/
def Stays (p : GenPkg) (raw : Bool) : Tree → Prop
  | .element name attrs children =>
    (lower name = name ∧ UsableName p.elems name ∧ name ∉ htmlVoidNames) ∧
    UsableAttrs p (attrs.map fun a => (a.1, a.2.getD [])) ∧
    (∀ a ∈ attrs, lower a.1 = a.1 ∧ (a.2 = none ↔ a.1 ∈ p.bools) ∧ NoReturns (a.2.getD [])) ∧
    StayAll p (decide (name ∈ rawtextNames)) children
  | .void _ _ => False
  | .text s => blankText (seen s) = false ∧ NoReturns s ∧ (raw = true → Simple s)
  | .comment s => NoReturns s ∧ Simple s
  | .doctype s => p.doctype = true ∧ NoReturns s ∧ Simple s
/-- `Stays` for all trees, no text next to another. -/
def StayAll (p : GenPkg) (raw : Bool) : List Tree → Prop
  | [] => True
  | t :: ts => Stays p raw t ∧ Apart t ts.head? ∧ StayAll p raw ts
end

end Aitch.Spec.Markup

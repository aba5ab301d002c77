import Verif.Spec.Dom
import Verif.Spec.Lines
import Verif.Spec.Page
/-
The DOM that a tree should have, with all that a browser does to its strings: character references are not decoded in
comments and in elements such as `script`, line ends are normalised, and a line feed at the start of a `pre` is dropped.
-/
namespace Aitch.Spec.Markup

/-- The texts with their line ends normalised. -/
def lined (kids : List Dom) : List Dom :=
  kids.map fun
    | .text s => .text (newlines s)
    | d => d

/-- The children of an element called `n`: `pre`, `listing` and `textarea` lose a line feed at the start. -/
def firstLine (n : Bytes) (kids : List Dom) : List Dom :=
  match kids with
  | .text (10 :: s) :: more => if n ∈ preNames then (if s = [] then more else .text s :: more) else kids
  | _ => kids

/-- The attributes with the line ends of their values normalised. -/
def linedAttrs (attrs : List (Bytes × Option Bytes)) : List (Bytes × Bytes) :=
  (domAttrs attrs).map fun a => (a.1, newlines a.2)

mutual
/-- The node of a tree; `raw`: in an element in which character references are not decoded. -/
def received (raw : Bool) : Tree → Dom
  | .element name attrs children =>
    .element (lower name) (linedAttrs attrs) (firstLine (lower name)
      (lined (joined (receivedAll (decide (lower name ∈ rawtextNames)) children))))
  | .void name attrs => .element (lower name) (linedAttrs attrs) []
  | .text s => .text (if raw then escaped s else seen s)
  | .comment s => .comment (newlines (escaped s))
  | .doctype s => .doctype (newlines (b%"DOCTYPE " ++ escaped s))
/-- The nodes of trees, texts not yet joined. -/
def receivedAll (raw : Bool) : List Tree → List Dom
  | [] => []
  | t :: ts => received raw t :: receivedAll raw ts
end

/-- The children of `head` or `body` with these trees in it. -/
def contents (ts : List Tree) : List Dom := lined (joined (receivedAll false ts))

/-- The DOM that a page should have. -/
def Page.received (c : Ctx) (p : Page) : List Dom :=
  [.doctype b%"DOCTYPE html", .element b%"html" (linedAttrs (p.htmlAttrs c))
    [.element b%"head" (linedAttrs (p.headAttrs.map (attrOf c))) (contents (treesOf c p.head)),
     .element b%"body" (linedAttrs (p.bodyAttrs.map (attrOf c))) (contents (treesOf c p.body))]]

end Aitch.Spec.Markup

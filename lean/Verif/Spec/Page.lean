import Verif.Spec.Dom
import Verif.Spec.Source
import Verif.Model.Html
/-
Programs that build a page with `html.Document` out of strings and keys of the data, and the DOM that such a page should
have.
-/
namespace Aitch.Spec.Markup

/-- A page: its language, if any, and the attributes and contents of its `head` and `body`. -/
structure Page where
  lang : Option Part
  headAttrs : List (Bytes × Option (List Part))
  head : List Src
  bodyAttrs : List (Bytes × Option (List Part))
  body : List Src

/-- The arguments for an element. -/
def argsFor (h : Heap) (attrs : List (Bytes × Option (List Part))) (contents : List Src) : List Any :=
  attrs.map (fun a => .node (buildAttr h a)) ++ (buildAll h contents).map .node

/-- The page, built with `Document`. -/
def Page.build (h : Heap) (p : Page) : Node :=
  (Document ((p.lang.map Part.arg).getD .nil) (argsFor h p.headAttrs p.head) (argsFor h p.bodyAttrs p.body) h).1

/-- The attributes of the `html` element. -/
def Page.htmlAttrs (c : Ctx) (p : Page) : List (Bytes × Option Bytes) :=
  p.lang.toList.map fun l => (b%"lang", some (l.string c))

/-- Has the page a head of its own? -/
def Page.headless (p : Page) : Bool := p.headAttrs.isEmpty && p.head.isEmpty

/-- The trees of a page; `Document` writes no head if there is nothing in it. -/
def Page.trees (c : Ctx) (p : Page) : List Tree :=
  [.doctype b%"html", .element b%"html" (p.htmlAttrs c)
    ((if p.headless then [] else [.element b%"head" (p.headAttrs.map (attrOf c)) (treesOf c p.head)]) ++
     [.element b%"body" (p.bodyAttrs.map (attrOf c)) (treesOf c p.body)])]

/-- The DOM that the page should have: there always is a head. -/
def Page.dom (c : Ctx) (p : Page) : List Dom :=
  [.doctype b%"DOCTYPE html", .element b%"html" (domAttrs (p.htmlAttrs c))
    [.element b%"head" (domAttrs (p.headAttrs.map (attrOf c))) (children (treesOf c p.head)),
     .element b%"body" (domAttrs (p.bodyAttrs.map (attrOf c))) (children (treesOf c p.body))]]

/-- All keys have strings. -/
structure Page.Strings (c : Ctx) (p : Page) : Prop where
  lang : ∀ l, p.lang = some l → l.HasString c
  headAttrs : AttrStrings c p.headAttrs
  head : StringsAll c p.head
  bodyAttrs : AttrStrings c p.bodyAttrs
  body : StringsAll c p.body

/-- Every element of the page may be where it is. -/
def Page.fits (c : Ctx) (p : Page) : Bool :=
  (treesOf c p.head).all fitsHead && fitsAll [b%"body", b%"html"] (treesOf c p.body)

end Aitch.Spec.Markup

import Verif.Model.Construct
/-
Model of html/document.go.
-/
namespace Aitch

/-- html/attributes.go:365-367 — `Lang`. -/
def Lang (dl : Nat → List Value) (value : List Any) : Node := NewAttribute dl b%"lang" value

/-- html/elements.go:314-316 — `Head`. -/
def Head (contents : List Any) (h : Heap) : Node × Heap := NewElement b%"head" contents h

/-- html/elements.go:84-86 — `Body`. -/
def Body (contents : List Any) (h : Heap) : Node × Heap := NewElement b%"body" contents h

/-- html/elements.go:344-346 — `Html`. -/
def Html (contents : List Any) (h : Heap) : Node × Heap := NewElement b%"html" contents h

/-- html/document.go:33-36 — `langAtt`, as the argument passed to `Html` (a nil interface when `lang` is nil). -/
def langArg (dl : Nat → List Value) : Any → Any
  | .nil => .nil
  | lang => .node (Lang dl [lang])

/-- html/document.go:37-40 — `headNode`, as the argument passed to `Html`. -/
def headArg (head : List Any) (h : Heap) : Any × Heap :=
  match head with
  | [] => (.nil, h)
  | head => let (n, h) := Head head h; (.node n, h)

/-- html/document.go:32-46 — `Document`. -/
def Document (lang : Any) (head body : List Any) (h : Heap) : Node × Heap :=
  let langAtt := langArg h.dl lang
  let (headNode, h) := headArg head h
  let (bodyNode, h) := Body body h
  let (html, h') := Html [langAtt, headNode, .node bodyNode] h
  (.document (some (DocType h.dl)) [html], h')

end Aitch

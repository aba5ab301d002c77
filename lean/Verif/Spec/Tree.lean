import Verif.Spec.Start
import Verif.Spec.Nesting
/-
Pieces of a page that can be written in two ways: declared with NewElement and NewVoidElement, or by the calls of an
Imperative function.
-/
namespace Aitch.Spec

/-- A piece of a page. -/
inductive Tree where
  /-- a string, to be escaped -/
  | text (s : Bytes)
  /-- bytes, written as they are -/
  | raw (s : Bytes)
  /-- any node -/
  | node (n : Node)
  /-- an element without end tag -/
  | void (name : Bytes) (attrs : List Attr)
  /-- an element with pieces inside -/
  | element (name : Bytes) (attrs : List Attr) (kids : List Tree)

mutual
/-- A piece as an argument of `NewElement` (`h` is the memory, holding the values of delimited attributes): strings,
byte slices, nodes, and elements built by `NewVoidElement(name, attrs...)` and `NewElement(name, attrs..., kids...)`. -/
def Tree.declare (h : Heap) : Tree → Any
  | .text s => .str s
  | .raw s => .bytes s
  | .node n => .node n
  | .void name attrs => .node (NewVoidElement name (attrs.map fun a => .node (.attr a)) h).1
  | .element name attrs kids =>
    .node (NewElement name ((attrs.map fun a => .node (.attr a)) ++ declareAll h kids) h).1
/-- All the pieces of a list. -/
def declareAll (h : Heap) : List Tree → List Any
  | [] => []
  | t :: ts => t.declare h :: declareAll h ts
end

mutual
/-- A piece as calls on an ImperativeContext: `WriteString`, `WriteRaw`, `WriteNodes`, `Start` of a void element, and
`Start`, the calls of the pieces inside, `End`. -/
def Tree.calls : Tree → List ImpOp
  | .text s => [.writeString s]
  | .raw s => [.writeRaw s]
  | .node n => [.writeNodes [some n]]
  | .void name attrs => [.start name true (attrs.map fun a => some (.attr a))]
  | .element name attrs kids =>
    .start name false (attrs.map fun a => some (.attr a)) :: callsAll kids ++ [.end]
/-- The calls of all the pieces of a list, in order. -/
def callsAll : List Tree → List ImpOp
  | [] => []
  | t :: ts => t.calls ++ callsAll ts
end

/-- Attributes for which declaring and `Start` agree: every name once, and in a delimited attribute only the last
value may be empty (see C26 for what happens otherwise). -/
structure FitAttrs (P : Fns) (c : Ctx) (attrs : List Attr) : Prop where
  built : ∀ a ∈ attrs, Built (.attr a)
  names : (attrs.map Attr.name).Nodup
  unshared : Unshared attrs
  filled : ∀ a ∈ attrs, isDelim a = true → ∀ v ∈ (a.values c.dl).dropLast, valueBytes P c v ≠ []

mutual
/-- A piece all of whose attributes fit, and whose nodes come from the API and neither are attributes nor hold
attributes for the element around them. -/
def Tree.Fit (P : Fns) (c : Ctx) : Tree → Prop
  | .text _ => True
  | .raw _ => True
  | .node n => Built n ∧ n.isAttr = false ∧ declared [] n = []
  | .void _ attrs => FitAttrs P c attrs
  | .element _ attrs kids => FitAttrs P c attrs ∧ FitAll P c kids
/-- All the pieces of a list fit. -/
def FitAll (P : Fns) (c : Ctx) : List Tree → Prop
  | [] => True
  | t :: ts => t.Fit P c ∧ FitAll P c ts
end

end Aitch.Spec

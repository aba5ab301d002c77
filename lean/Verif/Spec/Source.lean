import Verif.Spec.Markup
import Verif.Model.Construct
/-
Programs that build a tree of elements, attributes, texts and comments out of strings and keys of the data.
-/
namespace Aitch.Spec.Markup

/-- A part of a text or of an attribute value: a Go string, or a `DynamicValueKey`. -/
inductive Part where
  | lit (s : Bytes)
  | key (k : Bytes)

/-- The part as an argument. -/
def Part.arg : Part → Any
  | .lit s => .str s
  | .key k => .dynKey k

/-- The value found under a key: `.` is the cargo. -/
def keyValue (c : Ctx) (k : Bytes) : Option Any := if k = b%"." then some c.frame.cargo else c.lookup k

/-- The string that a part stands for in a context. -/
def Part.string (c : Ctx) : Part → Bytes
  | .lit s => s
  | .key k => match keyValue c k with
    | some (.str s) => s
    | _ => []

/-- A key has a string in the context, or nothing. -/
def Part.HasString (c : Ctx) : Part → Prop
  | .lit _ => True
  | .key k => match keyValue c k with
    | some (.str _) => True
    | some .nil => True
    | none => True
    | _ => False

/-- The string that a list of parts stands for. -/
def stringOf (c : Ctx) (ps : List Part) : Bytes := ps.flatMap (Part.string c)

/-- A source tree. -/
inductive Src where
  | element (name : Bytes) (attrs : List (Bytes × Option (List Part))) (children : List Src)
  | void (name : Bytes) (attrs : List (Bytes × Option (List Part)))
  | text (ps : List Part)
  | comment (ps : List Part)

/-- An attribute, built with `NewAttribute` or `NewBooleanAttribute`. -/
def buildAttr (h : Heap) : Bytes × Option (List Part) → Node
  | (n, some ps) => NewAttribute h.dl n (ps.map Part.arg)
  | (n, none) => NewBooleanAttribute n

mutual
/-- The node, built with `NewElement`, `NewVoidElement`, `Text` and `Comment` (`Element` and the functions of package
html are the same, see C08 and C51).  No call changes the memory `h`. -/
def build (h : Heap) : Src → Node
  | .element name attrs children =>
    (NewElement name (attrs.map (fun a => .node (buildAttr h a)) ++ (buildAll h children).map .node) h).1
  | .void name attrs => (NewVoidElement name (attrs.map fun a => .node (buildAttr h a)) h).1
  | .text ps => Text h.dl (ps.map Part.arg)
  | .comment ps => Comment h.dl (ps.map Part.arg)
/-- The nodes of a list of sources. -/
def buildAll (h : Heap) : List Src → List Node
  | [] => []
  | t :: ts => build h t :: buildAll h ts
end

/-- An attribute with its string. -/
def attrOf (c : Ctx) : Bytes × Option (List Part) → Bytes × Option Bytes
  | (n, ps) => (n, ps.map (stringOf c))

mutual
/-- The tree of strings that a source stands for in a context. -/
def treeOf (c : Ctx) : Src → Tree
  | .element name attrs children => .element name (attrs.map (attrOf c)) (treesOf c children)
  | .void name attrs => .void name (attrs.map (attrOf c))
  | .text ps => .text (stringOf c ps)
  | .comment ps => .comment (stringOf c ps)
/-- The same for a list. -/
def treesOf (c : Ctx) : List Src → List Tree
  | [] => []
  | t :: ts => treeOf c t :: treesOf c ts
end

/-- All keys among the attributes' parts have strings. -/
def AttrStrings (c : Ctx) (attrs : List (Bytes × Option (List Part))) : Prop :=
  ∀ a ∈ attrs, ∀ p ∈ a.2.getD [], p.HasString c

mutual
/-- All keys have strings. -/
def Strings (c : Ctx) : Src → Prop
  | .element _ attrs children => AttrStrings c attrs ∧ StringsAll c children
  | .void _ attrs => AttrStrings c attrs
  | .text ps => ∀ p ∈ ps, p.HasString c
  | .comment ps => ∀ p ∈ ps, p.HasString c
/-- The same for a list. -/
def StringsAll (c : Ctx) : List Src → Prop
  | [] => True
  | t :: ts => Strings c t ∧ StringsAll c ts
end

end Aitch.Spec.Markup

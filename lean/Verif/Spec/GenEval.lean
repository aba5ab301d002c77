import Verif.Model.Base
import Verif.Spec.Generator
import Verif.Spec.Format
import Verif.Spec.Names
/-
Running the generated code, and the page it should render.
-/
namespace Aitch.Spec

/-- The functions that generated code calls. -/
inductive LibFn where
  | element (f : ElemFn)
  | attribute (f : AttrFn)
  | htmlText | htmlComment | htmlPI | svgText | svgComment
  | aitchElement | aitchAttribute | aitchCollection
deriving DecidableEq

/-- The element or attribute function of this name in a package. -/
def inPackage (es : List ElemFn) (as : List AttrFn) (f : Bytes) : Option LibFn :=
  match es.find? fun r => r.name == f with
  | some r => some (.element r)
  | none =>
    match as.find? fun r => r.name == f with
    | some r => some (.attribute r)
    | none => none

/-- The function of a qualified name. -/
def resolve (f : Bytes) : Option LibFn :=
  if f = b%"aitch.Element" then some .aitchElement
  else if f = b%"aitch.Attribute" then some .aitchAttribute
  else if f = b%"aitch.Collection" then some .aitchCollection
  else if f = b%"html.Text" then some .htmlText
  else if f = b%"html.Comment" then some .htmlComment
  else if f = b%"html.PI" then some .htmlPI
  else if f = b%"svg.Text" then some .svgText
  else if f = b%"svg.Comment" then some .svgComment
  else if b%"html.".isPrefixOf f then inPackage htmlElements htmlAttributes (f.drop 5)
  else if b%"svg.".isPrefixOf f then inPackage svgElements svgAttributes (f.drop 4)
  else none

/-- The result of a call that returns a node: a nil node is nil. -/
def nodeResult : Result (Option Node × Heap) → Option (Any × Heap)
  | .val (some n, h) => some (.node n, h)
  | .val (none, h) => some (.nil, h)
  | .panic => none

/-- Arguments of type `Node`. -/
def asNodes : List Any → Option (List (Option Node))
  | [] => some []
  | .node n :: as => (asNodes as).map (some n :: ·)
  | .nil :: as => (asNodes as).map (none :: ·)
  | _ => none

/-- Calling it; `none` if the call does not compile or panics.  `strict` is `PanicOnInvalidName`. -/
def LibFn.call (strict : Bool) : LibFn → List Any → Heap → Option (Any × Heap)
  | .element f, args, h => some (.node (f.call args h).1, (f.call args h).2)
  | .attribute f, args, h =>
    if f.kind = .bool ∧ args ≠ [] then none else some (.node (f.call args h).1, (f.call args h).2)
  | .htmlText, args, h => some (.node (Aitch.htmlText h.dl args), h)
  | .htmlComment, args, h => some (.node (Aitch.htmlComment h.dl args), h)
  | .htmlPI, .str name :: args, h => some (.node (Aitch.htmlPI h.dl name args), h)
  | .svgText, args, h => some (.node (Aitch.svgText h.dl args), h)
  | .svgComment, args, h => some (.node (Aitch.svgComment h.dl args), h)
  | .aitchElement, .str name :: args, h => nodeResult (Element strict name args h)
  | .aitchAttribute, .str name :: args, h =>
    match Attribute strict h.dl name args with
    | .val (some n) => some (.node n, h)
    | .val none => some (.nil, h)
    | .panic => none
  | .aitchCollection, args, h => (asNodes args).map fun ns => (.node (Collection ns), h)
  | _, _, _ => none

mutual
/-- The value of an expression, and the memory afterwards. -/
def eval (strict : Bool) : Expr → Heap → Option (Any × Heap)
  | .lit s, h => some (.str s, h)
  | .call f args, h =>
    match evalAll strict args h with
    | none => none
    | some r =>
      match resolve f with
      | none => none
      | some g => g.call strict r.1 r.2
/-- The values of arguments, from left to right. -/
def evalAll (strict : Bool) : List Expr → Heap → Option (List Any × Heap)
  | [], h => some ([], h)
  | e :: es, h =>
    match eval strict e h with
    | none => none
    | some r =>
      match evalAll strict es r.2 with
      | none => none
      | some q => some (r.1 :: q.1, q.2)
end

/-! ### The page -/

/-- How an attribute of the input comes out: without its value if it is taken for a boolean attribute. -/
def attrHtml (p : GenPkg) (a : Bytes × Bytes) : Bytes :=
  if a.1 ∈ p.bools then b%" " ++ a.1 else b%" " ++ a.1 ++ b%"=\"" ++ escaped a.2 ++ b%"\""

/-- How a tag and its contents come out: void elements have neither content nor end tag. -/
def elemHtml (p : GenPkg) (name : Bytes) (attrs : List (Bytes × Bytes)) (content : Bytes) : Bytes :=
  b%"<" ++ name ++ attrs.flatMap (attrHtml p) ++ b%">" ++
    (if name ∈ htmlVoidNames then [] else content ++ (b%"</" ++ name ++ b%">"))

mutual
/-- How a text comes out: blank texts are dropped; a doctype is followed by a line end (and dropped by svg). -/
def Doc.html (p : GenPkg) : Doc → Bytes
  | .text d => if blankText d then [] else escaped d
  | .comment d => b%"<!--" ++ escaped d ++ b%"-->"
  | .doctype d => if p.doctype then b%"<!DOCTYPE " ++ escaped d ++ b%">\n" else []
  | .elem name attrs cs => elemHtml p name attrs (htmlAll p cs)
  | .selfClosing name attrs => elemHtml p name attrs []
  | .void name attrs => elemHtml p name attrs []
/-- How a list of texts comes out. -/
def htmlAll (p : GenPkg) : List Doc → Bytes
  | [] => []
  | d :: ds => d.html p ++ htmlAll p ds
end

/-- A name in lower case (as the tokenizer makes it) that the library can use: it is in the package's table or valid. -/
def UsableName (table : List (Bytes × Bytes)) (n : Bytes) : Prop :=
  toLower n = n ∧ (table.lookup n = none → ValidName n)

/-- Usable attributes: no name twice, and none is `aria-` or `data-`. -/
def UsableAttrs (p : GenPkg) (attrs : List (Bytes × Bytes)) : Prop :=
  (attrs.map (·.1)).Nodup ∧ ∀ a ∈ attrs, UsableName p.attrs a.1 ∧ a.1 ≠ b%"aria-" ∧ a.1 ≠ b%"data-"

mutual
/-- All names are usable. -/
def Doc.Usable (p : GenPkg) : Doc → Prop
  | .elem name attrs cs => UsableName p.elems name ∧ UsableAttrs p attrs ∧ UsableAll p cs
  | .selfClosing name attrs => UsableName p.elems name ∧ UsableAttrs p attrs
  | .void name attrs => UsableName p.elems name ∧ UsableAttrs p attrs
  | _ => True
/-- All names are usable. -/
def UsableAll (p : GenPkg) : List Doc → Prop
  | [] => True
  | d :: ds => d.Usable p ∧ UsableAll p ds
end

/-- Running the source text gives the page `n`, with `h` and `h'` the memory before and after. -/
def RunsTo (strict : Bool) (src : Bytes) (h : Heap) (n : Node) (h' : Heap) : Prop :=
  ∃ e, Declares src e ∧ eval strict e h = some (.node n, h')

end Aitch.Spec

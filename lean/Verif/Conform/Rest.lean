import Verif.Conform.Root
import Verif.Conform.Library
import Verif.Model.Template
import Verif.Model.Generator
import Verif.Model.Get
/-
The unit tests of html/document.go, html/base.go, htmx/attributes.go (those that are not in Library.lean),
html/attributes.go and svg/attributes.go (likewise), template.go, context/context.go and the two generators.
-/
namespace Aitch.Conform
open Aitch.Spec

/-! ### html/document_test.go -/

/-- `Document("en", []any{Meta(Charset("utf-8"))}, []any{P()})`. -/
def document : Arg := fun h =>
  let (head, h) := args [elemFn htmlElements b%"Meta" [attrFn htmlAttributes b%"Charset" [str b%"utf-8"]]] h
  let (body, h) := args [elemFn htmlElements b%"P" []] h
  let (d, h) := Document (.str b%"en") head body h
  (.node d, h)

example : looks document .document b%"#document" = true := by decide +kernel
example : out document = some
    b%"<!DOCTYPE html>\n<html lang=\"en\"><head><meta charset=\"utf-8\"></head><body><p></p></body></html>" := by
  decide +kernel
example : fails document = true := by decide +kernel

/-! ### html/base_test.go -/

/-- Dynamic functions that return `bar` and `baz`. -/
def barEnv : Env := { env with dyn := fun f s => (if f = 0 then b%"bar" else b%"baz", s) }

example : shows barEnv (some [(b%"foo", .str b%"foo value")])
    (text [dynKey b%"foo", str b%" ", lit (.dynFunc true (some 0)), str b%" ", lit (.dynFunc false (some 1))]) =
    some b%"foo value bar baz" := by decide +kernel

/-! ### html/attributes_test.go, svg/attributes_test.go — the others -/

example : passes .attrib (fun f => attrFn htmlAttributes f [str b%"foo", str b%"bar"])
    (b%"Class", b%"class", b%" class=\"foo bar\"") = true := by decide +kernel
example : passes .attrib (fun f => attrFn htmlAttributes f [str b%"foo", str b%"bar"])
    (b%"Style", b%"style", b%" style=\"foo; bar\"") = true := by decide +kernel
example : passes .attrib (fun f => attrFn svgAttributes f [str b%"foo", str b%"bar"])
    (b%"Style", b%"style", b%" style=\"foo; bar\"") = true := by decide +kernel
example : passes .attrib (fun f => attrFn htmlAttributes f [lit (.bool true)])
    (b%"ContentEditable", b%"contenteditable", b%" contenteditable=\"true\"") = true := by decide +kernel

/-- `Aria`, `Data`, `On`: the prefix is in array 1, without spare capacity. -/
def prefixed (pre name : Bytes) (as : List Arg) : Arg :=
  let m : Arrays UInt8 := ⟨fun _ => pre, 2⟩
  let (s, m) := prefixedName (fun _ n => n) ⟨1, 0, pre.length, pre.length⟩ name m
  attr (m.read s) as

example : looks (prefixed b%"aria-" b%"foo" foo) .attrib b%"aria-foo" = true ∧
    out (prefixed b%"aria-" b%"foo" foo) = some b%" aria-foo=\"foo\"" := by decide +kernel
example : looks (prefixed b%"data-" b%"foo" foo) .attrib b%"data-foo" = true ∧
    out (prefixed b%"data-" b%"foo" foo) = some b%" data-foo=\"foo\"" := by decide +kernel

/-! ### htmx/attributes_test.go -/

/-- A function of the table. -/
def hx (f : Bytes) (as : List Arg) : Arg := attrFn htmxAttributes f as

example : out (hx b%"Trigger" [str b%"click"]) = some b%" hx-trigger=\"click\"" := by decide +kernel
example : out (element b%"div" [hx b%"Trigger" [str b%"click"], hx b%"Trigger" [str b%"submit"]]) =
    some b%"<div hx-trigger=\"click submit\"></div>" := by decide +kernel
example : out (element b%"div" [hx b%"Params" [str b%"foo"], hx b%"Params" [str b%"bar"]]) =
    some b%"<div hx-params=\"foo bar\"></div>" := by decide +kernel
example : looks (prefixed b%"hx-on:" b%"foo" [str b%"bar"]) .attrib b%"hx-on:foo" = true ∧
    out (prefixed b%"hx-on:" b%"foo" [str b%"bar"]) = some b%" hx-on:foo=\"bar\"" := by decide +kernel
example : out (element b%"div" [hx b%"Inherit" [lit (.bytes b%"hx-sync")], hx b%"Inherit" [lit (.bytes b%"hx-trigger")]]) =
    some b%"<div hx-inherit=\"hx-sync hx-trigger\"></div>" := by decide +kernel
example : out (element b%"div" [hx b%"Disinherit" [lit (.bytes b%"hx-sync")], hx b%"Disinherit" [lit (.bytes b%"hx-trigger")]]) =
    some b%"<div hx-disinherit=\"hx-sync hx-trigger\"></div>" := by decide +kernel

/-- `Var(name, value)`. -/
def var (name : Bytes) (v : Any) : Arg := fun h => (.value (Var h.dl name v), h)

example : outData [(b%"x", .str b%"foo")] (element b%"div" [
      hx b%"Vars" [var b%"x" (.dynKey b%"x"), var b%"x2" (.str b%"foo2")],
      hx b%"Vars" [var b%"y" (.thunk (.str b%"bar"))], hx b%"Vars" [var b%"z" (.str b%"baz")],
      hx b%"Vars" [str b%"manual"]]) =
    some b%"<div hx-vars=\"x: foo, x2: foo2, y: bar, z: baz, manual\"></div>" := by decide +kernel

/-- `Headers`; maps are ranged over as listed or the other way round. -/
def headers (back : Bool) (as : List Any) : Arg := fun h =>
  match Headers (fun _ m => if back then m.reverse else m) h.dl as with
  | .val n => (.node n, h)
  | .panic => (.other 0, h)

/-- A `HeadersMap`. -/
def hm (es : List (Bytes × Any)) : Any := .strMap headersMapType true es

/-- The data of these tests. -/
def barData : List (Bytes × Any) := [(b%"foo", .str b%"\"bar\"")]

example : passes .attrib (fun _ => headers false [.str b%"foo"]) (b%"Headers", b%"hx-headers", b%" hx-headers=\"foo\"") = true := by
  decide +kernel
example : ∀ back, outData barData (headers back [hm [(b%"foo", .dynKey b%"foo")]]) =
    some b%" hx-headers=\"{'foo': &quot;bar&quot;}\"" := by decide +kernel
example : ∀ back, outData barData (headers back [hm [(b%"foo", .dynKey b%"foo")], hm [(b%"bar\"", .str b%"\"bar\"")]]) =
    some b%" hx-headers=\"{'bar&quot;': &quot;bar&quot;, 'foo': &quot;bar&quot;}\"" := by decide +kernel
example : panics (Headers (fun _ m => m) (fun _ => []) [.str b%"mixed", hm [(b%"foo", .str b%"bar")]]) = true := by
  decide +kernel
example : panics (Headers (fun _ m => m) (fun _ => []) [hm [(b%"foo", .str b%"bar")], .str b%"mixed"]) = true := by
  decide +kernel

/-- `HeadersJS`. -/
def headersJS (back : Bool) (ms : List GoMap) : Arg := fun h =>
  (.node (HeadersJS (fun _ m => if back then m.reverse else m) h.dl ms), h)

example : ∀ back, outData barData (headersJS back [[(b%"foo", .dynKey b%"foo")], [(b%"bar\"", .str b%"\"bar\"")]]) =
    some b%" hx-headers=\"js:{'bar&quot;': &quot;bar&quot;, 'foo': &quot;bar&quot;}\"" := by decide +kernel
example : ∀ back, outData barData (headersJS back [[(b%"foo", .str b%"\"bar\"")]]) =
    some b%" hx-headers=\"js:{'foo': &quot;bar&quot;}\"" := by decide +kernel

/-! ### template_test.go -/

/-- The text of the tests, as html/template parses it. -/
def templateBasic : List Piece := [.text b%"<!DOCTYPE html>\n<html ", .action b%"lang" .tag, .text b%">\n<head>\n    ",
  .action b%"title" .text, .text b%"\n</head>\n<body>\n", .action b%"body" .text, .text b%"\n</body>\n</html>"]

/-- The node map of the tests. -/
def nodeMap : NodeMap :=
  let lang := attr b%"lang" [dynKey b%"lang"]
  let title := elem b%"title" [text [str b%"Test"]]
  let body := whenKey b%"yes" [P [Id [int 1], text [str b%"Here!"]]]
  [(b%"lang", nodeOf lang), (b%"title", nodeOf title), (b%"body", nodeOf body)]

/-- `NewTemplate` and `Execute` with this data. -/
def executed (data : List (Bytes × Any)) : Option (Option Err × Bytes) :=
  match NewTemplate templateBasic nodeMap with
  | .val (some t) => (Execute env 100 t (some 0) .nil (start (some data) .nil Heap.empty)).map fun r => (r.1, r.2.out)
  | _ => none

example : executed [(b%"lang", .str b%"en"), (b%"yes", .bool true)] = some (none,
    b%"<!DOCTYPE html>\n<html  lang=\"en\">\n<head>\n    <title>Test</title>\n</head>\n<body>\n<p id=\"1\">Here!</p>\n</body>\n</html>") := by
  decide +kernel
example : executed [(b%"lang", .str b%"en"), (b%"yes", .bool false)] = some (none,
    b%"<!DOCTYPE html>\n<html  lang=\"en\">\n<head>\n    <title>Test</title>\n</head>\n<body>\n\n</body>\n</html>") := by
  decide +kernel
example : panics (MustNewTemplate templateBasic nodeMap) = false ∧ panics (MustNewTemplate templateBasic []) = true := by
  decide +kernel

/-! ### context/context_test.go -/

/-- A context with data (map 1) and cargo. -/
def getCtx (data : Option (List (Bytes × Any))) (cargo : Any) : Ctx where
  frame := { err := none, data := data.map fun _ => 1, cargo := cargo }
  parents := []
  maps := fun m => if m = 1 then data.getD [] else [(b%"key", .int .int 1)]
  dl := fun _ => []
  dlNext := 0
  world := 0

/-- `Get[string]`, `Get[int]`. -/
def isString : Any → Bool
  | .str _ => true
  | _ => false
@[inherit_doc isString] def isInt : Any → Bool
  | .int .int _ => true
  | _ => false

example : Get isString none b%"key" = .val none := by rfl
example : Get isString (some (getCtx none .nil)) b%"key" = .val none := by rfl
example : Get isString (some (getCtx (some [(b%"key", .int .int 1)]) .nil)) b%"key" = .val none ∧
    Get isInt (some (getCtx (some [(b%"key", .int .int 1)]) .nil)) b%"key" = .val (some (.int .int 1)) := ⟨rfl, rfl⟩
example : Get isString (some (getCtx none (.map 2))) b%"key" = .val none ∧
    Get isInt (some (getCtx none (.map 2))) b%"key" = .val (some (.int .int 1)) := ⟨rfl, rfl⟩
example : Get isString (some (getCtx none (.ptr (some (.struct 0 [(b%"Key", some (true, .int .int 1))]))))) b%"Key" = .val none ∧
    Get isInt (some (getCtx none (.ptr (some (.struct 0 [(b%"Key", some (true, .int .int 1))]))))) b%"Key" =
      .val (some (.int .int 1)) := ⟨rfl, rfl⟩
example : MustGet isInt (some (getCtx (some [(b%"key", .int .int 1)]) .nil)) b%"key" = .val (.int .int 1) ∧
    MustGet isString (some (getCtx (some [(b%"key", .int .int 1)]) .nil)) b%"key" = .panic := ⟨rfl, rfl⟩

/-! ### html/generator_test.go, svg/generator_test.go -/

/-- What `GenerateCode` writes into a buffer. -/
def generated (p : GenPkg) (ts : List Token) : Option Bytes :=
  let s := GenerateCode (fun _ d => (d.length, none)) p ts none
  match s.err with
  | none => some (accepted s.log)
  | some _ => none

/-- The tokens of the text in html/generator_test.go. -/
def htmlTokens : List Token := [.doctype b%"html", .comment b%" this is \n\t\ta \"comment\" ",
  .startTag b%"html" [(b%"lang", b%"en\"<"), (b%"foo", b%"bar"), (b%"disabled", b%"")], .startTag b%"body" [],
  .selfClosingTag b%"unknown" [], .selfClosingTag b%"unknown" [(b%"unknown", b%"foo")], .selfClosingTag b%"br" [],
  .startTag b%"h1" [(b%"class", b%"foo")], .text b%"Hello, World!", .endTag b%"h1", .endTag b%"body", .endTag b%"html"]

example : generated htmlPkg htmlTokens = some b%"var template = aitch.Collection(
\thtml.PI(\"DOCTYPE\", \"html\"),
\thtml.Comment(\" this is \\n\\t\\ta \\\"comment\\\" \"),
\thtml.Html(html.Lang(\"en\\\"<\"), aitch.Attribute(\"foo\" ,\"bar\"), html.Disabled(),
\t\thtml.Body(
\t\t\taitch.Element(\"unknown\", ),
\t\t\taitch.Element(\"unknown\", aitch.Attribute(\"unknown\" ,\"foo\")),
\t\t\thtml.Br(),
\t\t\thtml.H1(html.Class(\"foo\"),
\t\t\t\thtml.Text(\"Hello, World!\"),
\t\t\t),
\t\t),
\t),
)

" := by decide +kernel

/-- The tokens of the text in svg/generator_test.go (the tokenizer makes attribute names lower case). -/
def svgTokens : List Token := [
  .startTag b%"svg" [(b%"width", b%"200"), (b%"height", b%"200"), (b%"viewbox", b%"0 0 200 200"),
    (b%"xmlns", b%"http://www.w3.org/2000/svg")], .text b%"\n\t", .comment b%" comment ", .text b%"\n\t",
  .startTag b%"unknown" [(b%"unknown", b%"")], .text b%"text", .endTag b%"unknown", .selfClosingTag b%"unknown" [],
  .text b%"\n\t", .selfClosingTag b%"circle" [(b%"cx", b%"100"), (b%"cy", b%"100"), (b%"r", b%"50"), (b%"stroke", b%"black"),
    (b%"stroke-width", b%"3"), (b%"fill", b%"red")], .text b%"\n\t",
  .selfClosingTag b%"path" [(b%"d", b%"M 50 150 Q 100 50, 150 150"), (b%"stroke", b%"blue"), (b%"stroke-width", b%"3"),
    (b%"fill", b%"none")], .text b%"\n", .endTag b%"svg"]

example : generated svgPkg svgTokens = some b%"var template = aitch.Collection(
\tsvg.Svg(svg.Width(\"200\"), svg.Height(\"200\"), aitch.Attribute(\"viewbox\" ,\"0 0 200 200\"), aitch.Attribute(\"xmlns\" ,\"http://www.w3.org/2000/svg\"),
\t\tsvg.Comment(\" comment \"),
\t\taitch.Element(\"unknown\", aitch.Attribute(\"unknown\" ,\"\"),
\t\t\tsvg.Text(\"text\"),
\t\t),
\t\taitch.Element(\"unknown\", ),
\t\tsvg.Circle(svg.Cx(\"100\"), svg.Cy(\"100\"), svg.R(\"50\"), svg.Stroke(\"black\"), svg.StrokeWidth(\"3\"), svg.Fill(\"red\")),
\t\tsvg.Path(svg.D(\"M 50 150 Q 100 50, 150 150\"), svg.Stroke(\"blue\"), svg.StrokeWidth(\"3\"), svg.Fill(\"none\")),
\t),
)

" := by decide +kernel

end Aitch.Conform

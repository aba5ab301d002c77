import Verif.Conform.Rest
import Verif.Model.Base
import Verif.Model.Constants
/-
The examples of README.md (and _examples/readme), with the output that README.md shows.
-/
namespace Aitch.Conform.Readme
open Aitch.Spec Aitch.Conform

/-- `html.F(...)`: an element, an attribute. -/
def el (f : Bytes) (as : List Arg) : Arg := elemFn htmlElements f as
@[inherit_doc el] def at' (f : Bytes) (as : List Arg) : Arg := attrFn htmlAttributes f as

/-- The maps of examples 6 to 8: map 0 is the data, maps 1 to 3 are the items. -/
def maps (data : List (Bytes × Any)) : MapId → List (Bytes × Any)
  | 0 => data
  | 1 => [(b%"label", .str b%"First"), (b%"value", .int .int 1), (b%"selected", .bool false)]
  | 2 => [(b%"label", .str b%"Second"), (b%"value", .int .int 2), (b%"selected", .bool true)]
  | _ => [(b%"label", .str b%"Third"), (b%"value", .int .int 3), (b%"selected", .bool false)]

/-- Go's `ctx.Data[key].(int)`, `.(bool)`. -/
def dataInt (s : St) (k : Bytes) : Int :=
  match s.frame.data with
  | some m => match (s.maps m).lookup k with
    | some (.int _ i) => i
    | _ => 0
  | none => 0

@[inherit_doc dataInt] def dataBool (s : St) (k : Bytes) : Bool :=
  match s.frame.data with
  | some m => match (s.maps m).lookup k with
    | some (.bool b) => b
    | _ => false
  | none => false

/-- The strings under a key of the data (`context.Get[[]string]`). -/
def dataStrings (s : St) (k : Bytes) : List Bytes :=
  match Get (fun v => match v with | .slice 1 _ => true | _ => false) (some s.toCtx) k with
  | .val (some (.slice _ xs)) => xs.filterMap fun x => match x with | .str b => some b | _ => none
  | _ => []

/-- The functions of the examples. -/
def fns : Env where
  write _ d := (d.length, none)
  -- example 3: `idIncrement`
  dyn _ s :=
    let id := dataInt s b%"id" + 1
    (intDec id, { s with maps := fun m => if some m = s.frame.data then [(b%"id", .int .int id)] else s.maps m })
  -- example 4
  cond _ s := (dataBool s b%"isAdmin", s)
  collect _ s := ([], s)
  -- example 7
  items _ s := ([.map 1, .map 2, .map 3], s)
  -- example 8: the maps it makes are 1 to 3
  yields _ s := yieldsOf ((List.range (dataStrings s b%"options").length).map fun i => .map (i + 1))
  -- example 5
  imp _ s := impOf ((dataStrings s b%"items").flatMap fun item => [.start b%"option" false [], .writeRaw item, .end])
  order _ ks := ks
  order_perm _ _ := .refl _

/-- `context.New(os.Stdout, data, nil)` and `template.Render(ctx)`: the output, if no error is returned. -/
def prints (data : Option (List (Bytes × Any))) (a : Arg) : Option Bytes :=
  match a Heap.empty with
  | (.node n, h) =>
    let s := contextNew { start none .nil h with maps := maps (data.getD []) } (data.map fun _ => 0) .nil
    match render fns 100 n s with
    | some (none, s) => some s.out
    | _ => none
  | _ => none

/-- Example 1. -/
example : prints none (el b%"P" [str b%"This is a para", at' b%"Id" [int 1], at' b%"Class" [str b%"foo"], el b%"Br" [],
      str b%" >>> and this is more", at' b%"Id" [int 2], at' b%"Class" [str b%"bar"]]) =
    some b%"<p id=\"2\" class=\"foo bar\">This is a para<br> &gt;&gt;&gt; and this is more</p>" := by decide +kernel

/-- Example 2. -/
example : prints (some [(b%"name", .str b%"Aitch!"), (b%"greeting-class", .str b%"admin")])
    (el b%"P" [str b%"Hello, ", dynKey b%"name", at' b%"Class" [str b%"greeting"],
      at' b%"Class" [dynKey b%"greeting-class"]]) =
    some b%"<p class=\"greeting admin\">Hello, Aitch!</p>" := by decide +kernel

/-- Example 3. -/
example : prints (some [(b%"id", .int .int 0)])
    (collection [el b%"P" [str b%"First", at' b%"Id" [lit (.dynFunc false (some 0))]],
      el b%"P" [str b%"Second", at' b%"Id" [lit (.dynFunc false (some 0))]],
      el b%"P" [str b%"Third", at' b%"Id" [lit (.dynFunc false (some 0))]]]) =
    some b%"<p id=\"1\">First</p><p id=\"2\">Second</p><p id=\"3\">Third</p>" := by decide +kernel

/-- The data of example 4. -/
def data4 : List (Bytes × Any) := [(b%"username", .str b%"Aitch"), (b%"isAdmin", .bool true)]

/-- Example 4. -/
example : prints (some data4) (el b%"P" [str b%"Hello, ", dynKey b%"username", at' b%"Class" [str b%"base"],
      conditional (some 0) [at' b%"Class" [str b%"admin"]]]) =
    some b%"<p class=\"base admin\">Hello, Aitch</p>" := by decide +kernel

/-- Example 4, with `When`. -/
example : prints (some data4) (el b%"P" [str b%"Hello, ", dynKey b%"username", at' b%"Class" [str b%"base"],
      whenKey b%"isAdmin" [at' b%"Class" [str b%"admin"]]]) =
    some b%"<p class=\"base admin\">Hello, Aitch</p>" := by decide +kernel

/-- `[]string{"First", "Second", "Third"}`. -/
def three : Any := .slice 1 [.str b%"First", .str b%"Second", .str b%"Third"]

/-- Example 5. -/
example : prints (some [(b%"items", three)]) (el b%"Div" [el b%"Select" [imperative (some 0)]]) = some
    b%"<div><select><option>First</option><option>Second</option><option>Third</option></select></div>" := by
  decide +kernel

/-- The option of examples 6 and 7. -/
def option : Arg := el b%"Option" [at' b%"Value" [dynKey b%"value"], dynKey b%"label"]

/-- Example 6. -/
example : prints (some [(b%"items", .slice 2 [.map 1, .map 2, .map 3])])
    (el b%"Div" [el b%"Select" [iterateKey b%"items" [option]]]) = some b%"<div><select><option value=\"1\">First</option><option value=\"2\">Second</option><option value=\"3\">Third</option></select></div>" := by
  decide +kernel

/-- Example 7. -/
example : prints none (el b%"Div" [el b%"Select" [iterate (some 0) [option]]]) = some
    b%"<div><select><option value=\"1\">First</option><option value=\"2\">Second</option><option value=\"3\">Third</option></select></div>" := by
  decide +kernel

/-- Example 8. -/
example : prints (some [(b%"options", three)])
    (el b%"Div" [el b%"Select" [iterateYield (some 0) [el b%"Option" [at' b%"Value" [dynKey b%"value"], dynKey b%"label",
      whenKey b%"selected" [at' b%"Selected" []]]]]]) = some
    b%"<div><select><option value=\"1\">First</option><option value=\"2\" selected>Second</option><option value=\"3\">Third</option></select></div>" := by
  decide +kernel

/-- Example 9. -/
example : prints none (el b%"P" [str b%"Hello ", lit (.bytes b%"there "), lit (.bool true), str b%" ", int 1, str b%" ",
      lit (.float false b%"1.2"), str b%" ", lit (.int .uint16 3), lit (.thunk (.str b%" something")),
      at' b%"Class" [lit (.bool true)], at' b%"Class" [int 1], at' b%"Class" [lit (.float false b%"2.2")]]) =
    some b%"<p class=\"true 1 2.2\">Hello there true 1 1.2 3 something</p>" := by decide +kernel

/-- Example 10; `css.Important` is in the table of constants. -/
example : prints (some [(b%"width", .int .int 10), (b%"isAdmin", .bool true)])
    (el b%"P" [cssFn b%"Width" [unit b%"Px" (.dynKey b%"width"), lit (.str ((cssConstants.lookup b%"Important").getD []))],
      at' b%"Style" [str b%"scrollbar-gutter: stable"], whenKey b%"isAdmin" [cssFn b%"BackgroundColor" [str b%"red"]],
      str b%"My paragraph with inline-style"]) = some
    b%"<p style=\"width:10px !important; scrollbar-gutter: stable; background-color:red\">My paragraph with inline-style</p>" := by
  decide +kernel

/-- Example 11. -/
example : prints (some [(b%"enabled", .bool true)])
    (el b%"Button" [at' b%"Type" [str b%"button"],
      whenKey b%"enabled" [hx b%"Get" [str b%"/action"],
        hx b%"Trigger" [lit (.str ((htmxTriggerConstants.lookup b%"Click").getD []))],
        hx b%"Swap" [lit (.str ((htmxSwapConstants.lookup b%"OuterHTML").getD []))]],
      whenKey b%"!enabled" [at' b%"Disabled" []], str b%"Click Me!"]) = some
    b%"<button type=\"button\" hx-get=\"/action\" hx-trigger=\"click\" hx-swap=\"outerHTML\">Click Me!</button>" := by
  decide +kernel

/-- The text of the template in README.md. -/
def baseHtml : List Piece := [.text b%"<!DOCTYPE html>\n<html ", .action b%"lang" .tag, .text b%">\n<head>\n",
  .action b%"headers" .text, .text b%"\n</head>\n<body>\n", .action b%"body" .text, .text b%"\n</body>\n</html>"]

/-- Its nodes. -/
def templateNodes : NodeMap := [(b%"lang", nodeOf (at' b%"Lang" [dynKey b%"lang"])),
  (b%"headers", nodeOf (collection [el b%"Meta" [at' b%"Charset" [str b%"utf-8"]], el b%"TitleElement" [dynKey b%"title"]])),
  (b%"body", nodeOf (collection [el b%"P" [str b%"Hello, ", dynKey b%"username"]]))]

/-- The example of templates. -/
example : (match MustNewTemplate baseHtml templateNodes with
    | .val t => (Execute env 100 t (some 0) .nil (start (some [(b%"lang", .str b%"en"), (b%"title", .str b%"Test rendered"),
        (b%"username", .str b%"Aitch")]) .nil Heap.empty)).map fun r => (r.1, r.2.out)
    | .panic => none) = some (none, b%"<!DOCTYPE html>
<html  lang=\"en\">
<head>
<meta charset=\"utf-8\"><title>Test rendered</title>
</head>
<body>
<p>Hello, Aitch</p>
</body>
</html>") := by decide +kernel

end Aitch.Conform.Readme

import Verif.Conform.Basic
import Verif.Model.NodeName
import Verif.Model.Nbsp
/-
The unit tests of the package aitch (attribute_test.go, collection_test.go, comment_test.go, conditional_test.go,
element_test.go, fragment_test.go, imperative_test.go, iterate_test.go, pi_test.go, text_test.go, value_test.go),
in the order of these files.  Not here: the tests of struct fields that only repeat what a constructor was given.
-/
namespace Aitch.Conform
open Aitch.Spec

/-! collection_test.go:10-32 — the tests' own functions. -/
def A (as : List Arg) : Arg := elem b%"a" as
def B (as : List Arg) : Arg := elem b%"b" as
def P (as : List Arg) : Arg := elem b%"p" as
def Div (as : List Arg) : Arg := elem b%"div" as
def Class (as : List Arg) : Arg := delim b%"class" b%" " as
def Id (as : List Arg) : Arg := attr b%"id" as

/-- imperative_test.go:11-13. -/
def Async : Arg := lit (.node (NewBooleanAttribute b%"async"))

/-- User code that calls constructors: the nodes, and the state with the new memory. -/
def building (a : List Arg) (s : St) : List (Option Node) × St :=
  let (vs, h) := args a ⟨s.dl, s.dlNext⟩
  (asNodes vs, { s with dl := h.dl, dlNext := h.next })

/-- The body of a function for `Imperative`: each step builds some nodes and calls a method with them. -/
def impProg : List (List Arg × (List (Option Node) → ImpOp)) → ImpProg
  | [] => .ret none
  | (as, op) :: rest => .user id fun s => .user (fun _ => (building as s).2) fun _ =>
      .call (op (building as s).1) fun _ => impProg rest

/-- The functions of the tests.  Conditions: number 0 is true, the others false. -/
def env : Env where
  write _ d := (d.length, none)
  dyn _ s := (b%"foo", s)
  cond f s := (f == 0, s)
  collect _ s := building [Id [], Class [], P [Id [int 1]], Div []] s
  items _ s := ([.int .int 1, .int .int 2, .int .int 3], s)
  yields f _ := if f = 0 then yieldsOf [.str b%"foo", .str b%"bar", .str b%"baz"] else .done
  imp f _ := impProg (match f with
    | 0 => [([], fun _ => .writeRaw b%"foo")]
    | 1 => []
    | 2 => [([], fun as => .start b%"div" false as)]
    | 3 => [([], fun as => .start b%"br" true as)]
    | 4 => [([Id [str b%"1"], Class [str b%"foo"]], fun as => .start b%"div" false as)]
    | 5 => [([Id [str b%"1"], Class [str b%"foo"]], fun as => .start b%"br" true as)]
    | 6 => [([], fun as => .start b%"div" false as), ([], fun _ => .end)]
    | 7 => [([], fun as => .start b%"br" true as), ([], fun _ => .end)]
    | 8 => [([], fun as => .start b%"div" false as),
            ([Id [str b%"1"], Class [str b%"foo"]], fun as => .start b%"p" false as),
            ([], fun as => .start b%"br" true as), ([], fun _ => .end)]
    | 9 => [([], fun as => .start b%"div" false as),
            ([Id [str b%"1"], Class [str b%"foo"]], fun as => .start b%"p" false as),
            ([], fun as => .start b%"br" true as), ([], fun _ => .endAll)]
    | 10 => [([Async, Id [str b%"1"], Class [str b%"foo", str b%"bar"], Id [str b%"2"], Class [str b%"baz"], Async],
              fun as => .start b%"div" false as)]
    | 11 => [([Div [P [text [str b%"bar"], Class [str b%"foo"]]]], fun ns => .writeNodes ns)]
    | 12 => [([], fun _ => .writeString b%"<>\"'&")]
    -- the same again, with `EndAll` at the end: it shows what was still open
    | 102 => [([], fun as => .start b%"div" false as), ([], fun _ => .endAll)]
    | 103 => [([], fun as => .start b%"br" true as), ([], fun _ => .endAll)]
    | 106 => [([], fun as => .start b%"div" false as), ([], fun _ => .end), ([], fun _ => .endAll)]
    | 108 => [([], fun as => .start b%"div" false as),
              ([Id [str b%"1"], Class [str b%"foo"]], fun as => .start b%"p" false as),
              ([], fun as => .start b%"br" true as), ([], fun _ => .end), ([], fun _ => .endAll)]
    | _ => [])
  order _ ks := ks
  order_perm _ _ := .refl _

/-- The tests' `errorWriter`. -/
def badEnv : Env := { env with write := fun _ _ => (0, some 1) }

/-- `testRender(node, t)`. -/
def out (a : Arg) : Option Bytes := shows env none a

/-- `testRender(node, t, data)`. -/
def outData (data : List (Bytes × Any)) (a : Arg) : Option Bytes := shows env (some data) a

/-- `node.Render(&context.Context{Writer: &errorWriter{}})` returns an error. -/
def fails (a : Arg) : Bool :=
  match run badEnv none .nil a with
  | some (some _, _) => true
  | _ => false

/-- `Type()` and `Name()`. -/
def looks (a : Arg) (ty : NodeType) (name : Bytes) : Bool :=
  match nodeOf a with
  | some n => n.type == ty && n.name == name
  | none => false

/-- `Element`, `VoidElement`, `Attribute`, `DelimitedAttribute`, `BooleanAttribute` with a valid name. -/
def element (name : Bytes) (as : List Arg) : Arg := fun h =>
  let (vs, h) := args as h
  match Element false name vs h with
  | .val (some n, h) => (.node n, h)
  | _ => (.other 0, h)

@[inherit_doc element] def voidElement (name : Bytes) (as : List Arg) : Arg := fun h =>
  let (vs, h) := args as h
  match VoidElement false name vs h with
  | .val (some n, h) => (.node n, h)
  | _ => (.other 0, h)

@[inherit_doc element] def plainAttribute (name : Bytes) (as : List Arg) : Arg := fun h =>
  let (vs, h) := args as h
  match Attribute false h.dl name vs with
  | .val (some n) => (.node n, h)
  | _ => (.other 0, h)

@[inherit_doc element] def booleanAttribute (name : Bytes) : Arg := fun h =>
  match BooleanAttribute false name with
  | .val (some n) => (.node n, h)
  | _ => (.other 0, h)

@[inherit_doc element] def delimitedAttribute (name d : Bytes) (as : List Arg) : Arg := fun h =>
  let (vs, h) := args as h
  match DelimitedAttribute false name d vs h with
  | .val (some n, h) => (.node n, h)
  | _ => (.other 0, h)

/-- Whether a constructor panicked. -/
def panics {α : Type} : Result α → Bool
  | .panic => true
  | .val _ => false

/-! ### attribute_test.go -/

example : looks (plainAttribute b%"foo" [str b%"bar"]) .attrib b%"foo" = true := by decide +kernel
example : Attribute false (fun _ => []) b%" not a valid name" [] = .val none := by rfl
example : panics (Attribute true (fun _ => []) b%" not a valid name" []) = true := by decide +kernel
example : out (plainAttribute b%"foo" [str b%"bar"]) = some b%" foo=\"bar\"" := by decide +kernel
example : fails (plainAttribute b%"foo" [str b%"bar"]) = true := by decide +kernel
example : looks (booleanAttribute b%"foo") .attrib b%"foo" = true := by decide +kernel
example : BooleanAttribute false b%" not a valid name" = .val none := by rfl
example : panics (BooleanAttribute true b%" not a valid name") = true := by decide +kernel
example : out (booleanAttribute b%"foo") = some b%" foo" := by decide +kernel
example : fails (booleanAttribute b%"foo") = true := by decide +kernel
example : looks (delimitedAttribute b%"foo" b%" " [str b%"a", str b%"b"]) .attrib b%"foo" = true := by decide +kernel
example : (match DelimitedAttribute false b%" not a valid name" [] [] Heap.empty with
    | .val (none, _) => true | _ => false) = true := by decide +kernel
example : panics (DelimitedAttribute true b%" not a valid name" [] [] Heap.empty) = true := by decide +kernel
example : out (delimitedAttribute b%"foo" b%" " [str b%"a", str b%"b"]) = some b%" foo=\"a b\"" := by decide +kernel
example : fails (delimitedAttribute b%"foo" b%" " [str b%"a", str b%"b"]) = true := by decide +kernel

/-! ### collection_test.go -/

example : looks (collection [P [], P []]) .collection b%"#collection" = true := by decide +kernel
example : out (collection [P [text [str b%"A"]], P [text [str b%"B"]], Class [str b%"not seen"]]) =
    some b%"<p>A</p><p>B</p>" := by decide +kernel
example : fails (collection [P [text [str b%"A"]], P [text [str b%"B"]], Class [str b%"not seen"]]) = true := by
  decide +kernel
example : out (collection [Div [collection [collection [collection [P [text [str b%"A"]], Class [str b%"a"]],
      P [text [str b%"B"]], Class [str b%"b"]]]]]) =
    some b%"<div class=\"a b\"><p>A</p><p>B</p></div>" := by decide +kernel
example : looks (contentCollect none) .collection b%"#collection" = true := by decide +kernel
example : looks (contentCollect (some 0)) .dynamic b%"#collector" = true := by decide +kernel
example : out (contentCollect (some 0)) = some b%"<p id=\"1\"></p><div></div>" := by decide +kernel
example : fails (contentCollect (some 0)) = true := by decide +kernel

/-! ### comment_test.go -/

example : looks (comment [str b%"foo"]) .comment b%"#comment" = true := by decide +kernel
example : out (comment [str b%"foo"]) = some b%"<!--foo-->" := by decide +kernel
example : fails (comment [str b%"foo"]) = true := by decide +kernel

/-! ### conditional_test.go -/

/-- `Conditional` with the condition that is true, with one that is false. -/
def yes (as : List Arg) : Arg := conditional (some 0) as
@[inherit_doc yes] def no (as : List Arg) : Arg := conditional (some 1) as

example : looks (yes [P [], Class [str b%"foo"]]) .conditional b%"#conditional" = true := by decide +kernel
example : looks (conditional none []) .collection b%"#collection" = true := by decide +kernel
example : out (yes [P []]) = some b%"<p></p>" ∧ out (no [P []]) = some [] ∧ fails (yes [P []]) = true := by
  decide +kernel
example : out (yes [P [text [str b%"A"]], yes [P [text [str b%"B"]]]]) = some b%"<p>A</p><p>B</p>" := by decide +kernel
example : out (yes [P [text [str b%"A"]], no [P [text [str b%"B"]]]]) = some b%"<p>A</p>" := by decide +kernel
example : out (no [P [text [str b%"A"]], yes [P [text [str b%"B"]]]]) = some [] := by decide +kernel
example : looks (whenKey b%"foo" [P [], Class [str b%"foo"]]) .conditional b%"#conditional" = true := by decide +kernel
example : out (whenKey b%"foo" [P []]) = some [] := by decide +kernel
example : outData [(b%"foo", .nil)] (whenKey b%"foo" [P []]) = some b%"<p></p>" := by decide +kernel
example : outData [(b%"foo", .bool true)] (whenKey b%"foo" [P []]) = some b%"<p></p>" := by decide +kernel
example : outData [(b%"foo", .bool false)] (whenKey b%"foo" [P []]) = some [] := by decide +kernel
example : out (whenKey b%"!foo" [P []]) = some b%"<p></p>" := by decide +kernel
example : outData [(b%"foo", .nil)] (whenKey b%"!foo" [P []]) = some [] := by decide +kernel
example : outData [(b%"foo", .bool true)] (whenKey b%"!foo" [P []]) = some [] := by decide +kernel

/-- `TestConditional_Cases` (conditional_test.go:78-186). -/
def conditionalCases : List (Arg × Bytes) := [
  (yes [P []], b%"<p></p>"),
  (no [P []], b%""),
  (P [yes [A []]], b%"<p><a></a></p>"),
  (P [no [A []]], b%"<p></p>"),
  (P [yes [collection [A []]]], b%"<p><a></a></p>"),
  (P [no [collection [A []]]], b%"<p></p>"),
  (P [yes [Id [str b%"a"], collection [A []]]], b%"<p id=\"a\"><a></a></p>"),
  (P [no [Id [str b%"a"], collection [A []]]], b%"<p></p>"),
  (P [yes [Class [str b%"a"], collection [A []]]], b%"<p class=\"a\"><a></a></p>"),
  (P [no [Id [str b%"a"], collection [A []]]], b%"<p></p>"),
  (P [Id [str b%"foo"], yes [Id [str b%"bar"]]], b%"<p id=\"bar\"></p>"),
  (P [Id [str b%"foo"], no [Id [str b%"bar"]]], b%"<p id=\"foo\"></p>"),
  (P [Class [str b%"foo"], yes [A [], Class [str b%"bar"]]], b%"<p class=\"foo bar\"><a></a></p>"),
  (P [Class [str b%"foo"], no [A [], Class [str b%"bar"]]], b%"<p class=\"foo\"></p>"),
  (P [Id [str b%"foo"], yes [Id [str b%"bar"], A [], yes [Id [str b%"baz"]]]], b%"<p id=\"baz\"><a></a></p>"),
  (P [Id [str b%"foo"], yes [Id [str b%"bar"], A [], no [Id [str b%"baz"]]]], b%"<p id=\"bar\"><a></a></p>"),
  (P [Class [str b%"foo"], yes [Class [str b%"bar"], A [], yes [Id [str b%"a"]]]],
    b%"<p class=\"foo bar\" id=\"a\"><a></a></p>"),
  (P [Class [str b%"foo"], yes [Class [str b%"bar"], A [], no [Id [str b%"a"]]]],
    b%"<p class=\"foo bar\"><a></a></p>"),
  (P [Id [str b%"foo"], yes [collection [A [], Id [str b%"bar"]]]], b%"<p id=\"bar\"><a></a></p>"),
  (P [Id [str b%"foo"], no [collection [A [], Id [str b%"bar"]]]], b%"<p id=\"foo\"></p>"),
  (P [Class [str b%"foo"], yes [collection [A [], Class [str b%"bar"]]]], b%"<p class=\"foo bar\"><a></a></p>"),
  (P [Class [str b%"foo"], no [collection [A [], Class [str b%"bar"]]]], b%"<p class=\"foo\"></p>"),
  (P [Class [str b%"foo"], Id [str b%"a"],
      collection [yes [collection [A [], yes [collection [B [], Id [str b%"b"], Class [str b%"bar"]]]]]]],
    b%"<p class=\"foo bar\" id=\"b\"><a></a><b></b></p>"),
  (P [Class [str b%"foo"], yes [Id [str b%"a"], collection [A [], Id [str b%"b"]]]],
    b%"<p class=\"foo\" id=\"b\"><a></a></p>"),
  (P [yes [Class [str b%"foo"], yes [Class [str b%"bar"]]]], b%"<p class=\"foo bar\"></p>")]

example : conditionalCases.all (fun t => out t.1 == some t.2) = true := by decide +kernel

/-! ### element_test.go -/

example : looks (voidElement b%"foo" [Class [str b%"a"]]) .element b%"foo" = true := by decide +kernel
example : (match VoidElement false b%" not a valid name" [] Heap.empty with
    | .val (none, _) => true | _ => false) = true := by decide +kernel
example : panics (VoidElement true b%" not a valid name" [] Heap.empty) = true := by decide +kernel
example : out (voidElement b%"foo" [Class [str b%"a"]]) = some b%"<foo class=\"a\">" := by decide +kernel
example : fails (voidElement b%"foo" [Class [str b%"a"]]) = true := by decide +kernel
example : out (voidElement b%"foo" [Class [str b%"a"], Class [str b%"b"], Class [str b%"c"]]) =
    some b%"<foo class=\"a b c\">" := by decide +kernel
example : out (voidElement b%"foo" [Class [str b%"a"], plainAttribute b%"class" [str b%"overridden"]]) =
    some b%"<foo class=\"overridden\">" := by decide +kernel
example : looks (element b%"foo" [Class [str b%"a"], text [str b%"b"]]) .element b%"foo" = true := by decide +kernel
example : (match nodeOf (element b%"meta" []) with
    | some (.voidElement _) => true | _ => false) = true := by decide +kernel
example : looks (element b%"meta" []) .element b%"meta" = true := by decide +kernel
example : (match Element false b%" not a valid name" [] Heap.empty with
    | .val (none, _) => true | _ => false) = true := by decide +kernel
example : panics (Element true b%" not a valid name" [] Heap.empty) = true := by decide +kernel
example : out (element b%"foo" [text [str b%"b"], Class [str b%"a"]]) = some b%"<foo class=\"a\">b</foo>" := by
  decide +kernel
example : out (element b%"foo" [str b%"b", Class [str b%"a"]]) = some b%"<foo class=\"a\">b</foo>" := by decide +kernel
example : fails (element b%"foo" [str b%"b", Class [str b%"a"]]) = true := by decide +kernel
example : out (element b%"foo" [text [str b%"bar"], Class [str b%"a"], Class [str b%"b"], Class [str b%"c"]]) =
    some b%"<foo class=\"a b c\">bar</foo>" := by decide +kernel
example : out (element b%"foo" [text [str b%"bar"], Class [str b%"a"], plainAttribute b%"class" [str b%"overridden"]]) =
    some b%"<foo class=\"overridden\">bar</foo>" := by decide +kernel

/-- How many attributes, conditional attributes and contents come out of `attributesAndContents`. -/
def counts (as : List Arg) : Nat × Nat × Nat :=
  let (vs, _) := args as Heap.empty
  let (x, y, z) := attributesAndContents ((asNodes vs).filterMap id)
  (x.length, y.length, z.length)

example : counts [Class [], P [], text []] = (1, 0, 2) := by decide +kernel
example : counts [collection [Class [], P [], text []]] = (1, 0, 1) := by decide +kernel
example : counts [collection [collection [Class [], P [], text []]]] = (1, 0, 1) := by decide +kernel

/-- `TestElement_ConditionalAttrs` (element_test.go:113-127): the conditions of the conditional attributes. -/
example : (match nodeOf (P [Class [str b%"a"], yes [Class [str b%"b"], no [Class [str b%"c"]]]]) with
    | some (.element h _) => (h.attributes.length, h.conditionals.map fun c => c.conditions)
    | _ => (0, [])) = (1, [[.user 0], [.user 0, .user 1]]) := by rfl

/-! ### fragment_test.go -/

example : looks (fragment [str b%"foo", lit .nil, str b%"bar"]) .fragment b%"#fragment" = true := by decide +kernel
example : out (fragment [str b%"foo", lit .nil, str b%"bar"]) = some b%"foobar" := by decide +kernel
example : fails (fragment [str b%"foo", lit .nil, str b%"bar"]) = true := by decide +kernel

/-! ### imperative_test.go -/

/-- `TestImperativeContext` (imperative_test.go:15-127): number of the function and output. -/
def imperativeCases : List (FnId × Bytes) := [
  (1, b%""), (0, b%"foo"), (2, b%"<div>"), (3, b%"<br>"), (4, b%"<div id=\"1\" class=\"foo\">"),
  (5, b%"<br id=\"1\" class=\"foo\">"), (6, b%"<div></div>"), (7, b%"<br>"),
  (8, b%"<div><p id=\"1\" class=\"foo\"><br></p>"), (9, b%"<div><p id=\"1\" class=\"foo\"><br></p></div>"),
  (10, b%"<div async id=\"2\" class=\"foo bar baz\">"), (11, b%"<div><p class=\"foo\">bar</p></div>"),
  (12, b%"&lt;&gt;&quot;&apos;&amp;"),
  -- the lengths of the stacks of open elements
  (102, b%"<div></div>"), (103, b%"<br>"), (106, b%"<div></div>"), (108, b%"<div><p id=\"1\" class=\"foo\"><br></p></div>")]

example : imperativeCases.all (fun t => out (imperative (some t.1)) == some t.2) = true := by decide +kernel
example : looks (imperative none) .imperative b%"!imperative" = true := by decide +kernel

/-! ### iterate_test.go -/

example : looks (iterate (some 0) [P [], Id []]) .iterator b%"!iterator" = true := by decide +kernel
example : panics (Iterate none []) = true := by decide +kernel
example : looks (iterateKey b%"items" [P [], Id []]) .iterator b%"!iterator" = true := by decide +kernel
example : out (iterate (some 0) [P [], Id []]) = some b%"<p></p><p></p><p></p>" := by decide +kernel
example : fails (iterate (some 0) [P [], Id []]) = true := by decide +kernel

/-- Rendering with `ctx.Error` set. -/
def failsInError (a : Arg) : Bool :=
  match a Heap.empty with
  | (.node n, h) =>
    let s := start none .nil h
    match render env 100 n { s with frame := { s.frame with err := some 5 } } with
    | some (some _, _) => true
    | _ => false
  | _ => false

example : failsInError (iterate (some 0) [P [], Id []]) = true := by decide +kernel
example : outData [(b%"items", .anySlice [.int .int 1, .int .int 2, .int .int 3])] (iterateKey b%"items" [P [], Id []]) =
    some b%"<p></p><p></p><p></p>" := by decide +kernel
example : outData [(b%"items", .slice 0 [.int .int 1, .int .int 2, .int .int 3])] (iterateKey b%"items" [P [], Id []]) =
    some b%"<p></p><p></p><p></p>" := by decide +kernel
example : out (iterateKey b%"items" [P [], Id []]) = some [] := by decide +kernel

/-- A state with more than one map: number 0 is the data, `more` are the items. -/
def outMaps (data : List (Bytes × Any)) (more : MapId → List (Bytes × Any)) (a : Arg) : Option Bytes :=
  match a Heap.empty with
  | (.node n, h) =>
    match render env 100 n { start (some data) .nil h with maps := fun m => if m = 0 then data else more m } with
    | some (none, s) => some s.out
    | _ => none
  | _ => none

example : outMaps [(b%"items", .slice 0 [.map 1, .map 2, .map 3])]
      (fun | 1 => [(b%"text", .str b%"foo")] | 2 => [(b%"text", .str b%"bar")] | _ => [(b%"text", .str b%"baz")])
      (iterateKey b%"items" [P [dynKey b%"text"]]) =
    some b%"<p>foo</p><p>bar</p><p>baz</p>" := by decide +kernel
example : outMaps [(b%"items", .slice 0 [.map 1, .map 2, .map 3])]
      (fun | 1 => [(b%"text", .str b%"foo"), (b%"yes", .bool true)] | 2 => [(b%"text", .str b%"bar")]
           | _ => [(b%"text", .str b%"baz"), (b%"yes", .bool true)])
      (iterateKey b%"items" [whenKey b%"yes" [P [dynKey b%"text"]]]) =
    some b%"<p>foo</p><p>baz</p>" := by decide +kernel
example : looks (iterateYield (some 0) [P [Id [str b%"foo"], text [dynKey b%"."]]]) .iterator b%"!yield_iterator" = true := by
  decide +kernel
example : panics (IterateYield none []) = true := by decide +kernel
example : out (iterateYield (some 0) [P [text [dynKey b%"."]]]) = some b%"<p>foo</p><p>bar</p><p>baz</p>" := by
  decide +kernel
example : failsInError (iterateYield (some 0) [P [text [dynKey b%"."]]]) = true := by decide +kernel
example : fails (iterateYield (some 0) [P [text [dynKey b%"."]]]) = true := by decide +kernel

/-! ### pi_test.go -/

example : looks (pi b%"doctype" [str b%"foo"]) .pi b%"!doctype" = true := by decide +kernel
example : out (pi b%"doctype" [str b%"foo"]) = some b%"<!doctype foo>\n" := by decide +kernel
example : fails (pi b%"doctype" [str b%"foo"]) = true := by decide +kernel
example : looks (lit (.node (DocType fun _ => []))) .pi b%"!DOCTYPE" = true := by decide +kernel
example : DocType (fun _ => []) = .pi b%"DOCTYPE" [.mk b%"html" none []] := by rfl

/-! ### text_test.go -/

example : looks (text [str b%"foo", lit .nil, str b%"bar"]) .text b%"#text" = true := by decide +kernel
example : out (text [str b%"foo", lit .nil, str b%"bar"]) = some b%"foobar" := by decide +kernel
example : fails (text [str b%"foo", lit .nil, str b%"bar"]) = true := by decide +kernel
example : ((Nbsps 0).getD []).length = 0 ∧ Nbsps 2 = some b%"&nbsp;&nbsp;" := by decide +kernel

/-! ### value_test.go -/

example : newValues (fun _ => []) [] = [] ∧ newValues (fun _ => []) [.nil] = [] ∧
    newValues (fun _ => []) [.nil, .str b%"foo", .nil] = [.mk b%"foo" none []] := by exact ⟨rfl, rfl, rfl⟩
example : NewValue (fun _ => []) (.str b%"foo") = .mk b%"foo" none [] := by rfl
example : NewValue (fun _ => []) (.node (.collection [.text [.mk b%"foo" none []], .text [.mk b%"bar" none []]])) =
    .mk [] none [.mk b%"foo" none [], .mk b%"bar" none []] := by rfl
example : NewConcatValue (fun _ => []) [.str b%"foo", .str b%"bar"] =
    .mk [] none [.mk b%"foo" none [], .mk b%"bar" none []] := by rfl
example : (newValue (fun _ => []) .nil).length = 0 ∧ (newValue (fun _ => []) (.dynKey b%"foo")).length = 1 ∧
    (newValue (fun _ => []) (.node (NewAttribute (fun _ => []) b%"att" [.str b%"foo", .str b%"bar"]))).length = 2 ∧
    (newValue (fun _ => []) (.node (.collection []))).length = 0 ∧
    (newValue (fun _ => []) (.node (.collection [NewAttribute (fun _ => []) b%"att" [.str b%"foo", .str b%"bar"],
      NewAttribute (fun _ => []) b%"att" [.str b%"baz"]]))).length = 3 ∧
    (newValue (fun _ => []) (.node (NewElement b%"p" [] Heap.empty).1)).length = 0 := by decide +kernel
example : outData [(b%"foo", .str b%"bar")] (text [dynKey b%"foo"]) = some b%"bar" := by decide +kernel
example : outData [] (text [dynKey b%"foo"]) = some [] := by decide +kernel
example : run env none (.str b%"foo") (text [dynKey b%"."]) = some (none, b%"foo") := by decide +kernel

/-- `TestValueToBytes` (value_test.go:157-244). -/
def valueToBytesCases : List (Any × Bytes) := [
  (.nil, b%""), (.bool true, b%"true"), (.bool false, b%"false"), (.bytes b%"foo", b%"foo"), (.str b%"foo", b%"foo"),
  (.int .int 1, b%"1"), (.int .int8 1, b%"1"), (.int .int16 1, b%"1"), (.int .int32 1, b%"1"), (.int .int64 1, b%"1"),
  (.int .uint 1, b%"1"), (.int .uint8 1, b%"1"), (.int .uint16 1, b%"1"), (.int .uint32 1, b%"1"),
  (.int .uint64 1, b%"1"), (.stringer 0 b%"foo" (.struct 0 []), b%"foo"), (.thunk (.str b%"foo"), b%"foo")]

example : valueToBytesCases.all (fun t => valueToBytes t.1 == t.2) = true := by decide +kernel

example : htmlEscapeString b%"foo" = b%"foo" ∧
    htmlEscapeString (b%"foo'&\"<>" ++ [0]) = b%"foo&apos;&amp;&quot;&lt;&gt;" := by decide +kernel

end Aitch.Conform

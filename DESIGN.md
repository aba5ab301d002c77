# Formal model of go-andiamo/aitch in Lean 4

## Trusted base

* Lean 4.33.0's kernel (and the elaborator only in so far as it prints the statements you read).
* Axioms: every property theorem depends on at most `propext`, `Classical.choice` and `Quot.sound`, Lean's own. The
  list at the end of this file says which theorem depends on which. No axioms of our own, no `sorry`, no
  `native_decide`, no `bv_decide`.
* The faithfulness of the model to /repo: read by hand, every definition of `Verif/Model` cites file and lines.
* The specifications in `Verif/Spec`: what the theorems mean depends on them.

## Layout

* `Verif/Model/*`  – the code, function by function (cites /repo).
* `Verif/Spec/*`   – small independent specifications used in theorem statements.
* `Verif/Proofs/*` – helper lemmas.
* `Verif/Props/*`  – the property theorems, named after the property (`C10_once` belongs to C10), the examples showing
  that their hypotheses are met, and the refutations of properties that the code does not have.

A property that the code violates has a `CXX_claim : Prop` (the full statement), a theorem `CXX_false : ¬ CXX_claim`
with a concrete counterexample, and `_partial` theorems saying what does hold.

## What is modelled

| Code | Model |
| --- | --- |
| value.go (escaping, formatting, `Value`, `NewValue`, `NewConcatValue`) | Escape, Value, Render |
| attribute.go, element.go, text.go, comment.go, fragment.go, pi.go | Construct (constructors), Render |
| collection.go, conditional.go, iterate.go, imperative.go | Construct, Render |
| aitch.go (name check, node types), context/context.go (`Write`, `Get`, `MustGet`) | Construct, Types, Render, Get |
| text.go `Nbsps` | Nbsp |
| template.go | Template |
| html/document.go | Html |
| html, svg: elements.go, attributes.go; css (all functions); htmx/attributes.go | Library and the tables `*Tables` |
| htmx `Headers`, `HeadersMap`, `HeadersJS`, `Var` | Htmx |
| css/constants.go, htmx/constants.go | Constants |
| html/base.go, svg/base.go, `context.New` | Base |
| html/generator.go, svg/generator.go (`GenerateCode`) | Generator |
| `append` on css unit arguments and on the Aria/Data/On prefixes | Slice |
| goroutines rendering at the same time | Machine |
| constructors given slices that the program changes later | Retain |
| constructors calling `func() any` and `String` | Live |
| attribute types of the user's own | Own |
| every index and slice expression, with Go's bounds check | Checked |
| user functions that write to the context and render nodes with it | Stream |

Not modelled: strconv's float formatting (a float carries its text), html/template's parser (a template is its
sequence of text and `{{name .}}` parts, each with its place), golang.org/x/net/html's tokenizer (a generator input is
its token sequence), reflection beyond the cases that `Get` and `IterateKey` use (a pointer to an interface variable,
in which `Get` finds nothing, is a value `other`), attribute types of the user's own outside C89 (Model/Own),
typed-nil nodes, allocation, performance. `ImperativeContext.Context()` (imperative.go:58-60) needs no definition:
user code in an `ImpProg` reads and changes the state of the context directly, calls `Render` of nodes and writes to
the writer.

A node type of the user's own, other than attributes, is modelled as an `Imperative` node: the code calls its
`Render`, and looks at its `Type()` only to see whether it is an attribute (element.go:237, collection.go:13, 49,
conditional.go:75, iterate.go:26, 62, 131, imperative.go:72, 85, template.go:67; value.go:107 needs the type
`*collection` besides). Its `Render` method is a program like that of an `Imperative` function. So every theorem about
all user functions holds of such types.

The unit tests of the repository are the only executable description of the code here, since it cannot be built.
`Verif/Conform/*` runs the model on them: all tests of elements, attributes, css and htmx functions (generated from
the test files) and all those of the other packages (transcribed) have, in the model, the output, name, type, error or
panic that the test requires. So have the examples of README.md (and _examples/readme) the output that README.md
shows. They are tests of the model, not proofs of properties, and no property cites them. `Conform/Reader` does the
same for the HTML reader of `Spec/Tokenizer` and the XML reader of `Spec/Xml`, with inputs in the manner of the usual
test cases for tokenizers.

## How it is modelled

* Bytes: `List UInt8`; Go strings and `[]byte` are byte lists. A `[]byte` given by the user is modelled by its
  contents at construction. The code keeps the caller's slice: Model/Retain has the constructors with slices, and C83
  says how what they build relates to the rest of the model (also C41, C44).
* Go values of type `any`: the inductive `Any`, one constructor per case of the type switches in value.go plus maps,
  slices, structs and pointers. `map[string]any` is a reference into a heap of maps. `func() any` is the value it
  returns (Model/Live has constructors that call it, C84). Integers are unbounded, so theorems about them cover every
  Go integer type (and `Nbsps` has no overflow).
* Nodes: the inductive `Node` (one constructor per Go node type), attributes the inductive `Attr`. A delimited
  attribute holds a *reference* to its value list, because `addAttributes` mutates it in place.
* Rendering is a program: the free monad `Prog` over `Action`s (write, read the context, set the error, call a user
  function, push and pop a child context, range over a map). `exec env prog s` runs it. One `Action` is one step of
  the machine in C50.
* User functions are identifiers interpreted by an environment `Env` over which all theorems quantify; they may read
  everything and change the current context, the maps, the delimited-attribute heap and an opaque `world`. They are
  assumed to return, and to assign neither `ctx.Writer` nor `ctx.Parent` nor fields of `ctx.Parent` (`confine`).
  Functions passed to `Imperative` (and `Render` methods of the user's own node types) and to `IterateYield` are
  interaction trees: finite on every path, each call may depend on the whole current state. Both may use the writer
  directly, the former also call `Render`; dynamic values, conditions, content collectors and item functions are
  assumed to do neither, and `IterateYield` functions not to call `Render`, except in C100–C110 (Model/Stream). A
  yield function does not call its yield argument re-entrantly.
* `io.Writer`: an arbitrary function from the history of calls and the data to `(n, err)`; the state keeps the log of
  all write calls. What the writer accepted is the concatenation of the first `n` bytes of each call.
* Go map iteration order: an arbitrary permutation chosen anew at each `range` (field `order` of `Env`); for htmx the
  order is a parameter of the function.
* `render` has fuel (`none` = out of fuel), because `ContentCollect` and `Imperative` can produce nodes at render time
  and so need not terminate. `Runs env n s e s'` means: for some (equivalently every larger) fuel. C52 says when
  rendering ends.
* Slices whose aliasing matters (conditions in `attributesAndContents`, arguments of css units, the prefix slices of
  Aria/Data/On) are modelled with backing array, length, capacity and Go's `append`. The growth policy of the
  condition slices is doubling (exact for the gc runtime up to capacity 512); elsewhere growth is arbitrary.
  Package-level `[]byte` variables made by a conversion are assumed to have capacity = length where a theorem says so
  (C44_names), and C44_spare says what happens otherwise.
* Panics at construction (nil node passed to Conditional/Iterate, invalid names with `PanicOnInvalidName`, mixed
  `Headers`) and in `context.Get` are explicit results.
* `sort.Strings` is an insertion sort (C43 only uses that the result is sorted and a permutation).
* `strings.ToLower` in the generators is ASCII lower case plus the two non-ASCII letters with an ASCII lower case
  (U+0130 and the Kelvin sign).
* The tables of element and attribute functions were extracted from the sources by a script; statements about them are
  checked over the whole table by the kernel and lifted to all arguments.

## Specifications

* `Spec/Obs`: the observables. `Runs`, `Writes env n s w` (returns nil, writes `w`, changes no memory), `Renders P c n
  w` (`w` is a possible output in context `c` when the user functions compute `P`), `RendersExactly`.
* `Spec/Out`: an inductive description of the output, by kind of node. Proved equivalent to `Renders` for every node
  built through the API (`Built.renders_iff`): soundness (Proofs/Refine) and completeness (Proofs/Complete). So `Out`
  is a derived notion; theorems are stated with `Renders` and `Writes`.
* `Spec/Built`: nodes obtained through the API. `Spec/Build`: attributes that contents bring to an element, told from
  the arguments. `Spec/Tag`: which attributes a start tag shows. `Spec/Start`: the same for `Start`.
* `Spec/Writers`, `Careful`/`Surfaces` notions: writers that stay failed, positions that keep errors. `Spec/Nesting`:
  proper nesting. `Spec/Iter`, `Spec/Memory`, `Spec/Determined`, `Spec/Finite`, `Spec/Ends`: iteration data, memory
  use, determinism, callbacks, termination.
* `Spec/Text`, `Spec/Format`, `Spec/Names`: escaped text, text of Go values, valid names.
* `Spec/Slice`: memory with slices. `Spec/Htmx`: reading the header objects, as JavaScript. `Spec/Get`: lookup paths.
  `Spec/Template`: template output. `Spec/Generator`, `Spec/GenEval`: a lexer and parser for the Go subset that the
  generators write, and the meaning of the calls. (Illegal bytes in Go source are not excluded by the lexer.)
* `Spec/Concurrent`: schedules. Memory is sequentially consistent, one `Action` is one step, a call of a user function
  is one step. `Start` gets every attribute name once (C73 is about the slices that it appends to otherwise).
* `Spec/Tokenizer`: the HTML tokenizer of the standard, on bytes (left out: CDATA, parts of a DOCTYPE; the table of
  character references is a parameter that must have the five the code uses). `Spec/Markup`, `Spec/Source`: trees, how
  they are written, what a reader should get. `Spec/Clean`: templates with known names and harmless data. `Spec/Xml`:
  an XML reader on bytes (not accepted by it: XML declarations, DOCTYPEs, processing instructions, CDATA, numeric
  references; every non-ASCII character counts as a name character; namespaces are not looked at). `Spec/Depends`:
  what a template refers to. `Spec/Swap`: templates with parts exchanged. `Spec/Calls`: what each call on an
  ImperativeContext writes. `Spec/Shape`: data with texts left out. `Spec/Repeated`: repeated calls of attribute
  functions. `Spec/Style`: a reader for style attributes after the CSS Syntax standard. `Spec/Order`: what a template
  writes when functions have side effects. `Spec/Json`: the grammar of JSON (RFC 8259) on bytes. `Spec/Own`: templates
  with wrapped attributes. `Spec/Retain`: programs that build nodes and reuse their byte slices.
* `Spec/Lines`: line ends as a browser takes them. `Spec/Case`: names that differ in case only. `Spec/Links`: the
  beginning of the URL standard's parser. `Spec/Dom`: the tree construction of the HTML standard (the parts that a
  page of known elements needs), and when a tree fits. `Spec/Page`, `Spec/Received`: pages as `html.Document` writes
  them, and their DOM with line ends as received. `Spec/Stands`: templates of which every element is where it may be.
  `Spec/RoundTrip`, `Spec/Back`: HTML to code to page. `Spec/Classes`: the words of an attribute as a browser splits
  it, calls of `html.Class`. `Spec/Checked`: how far a program comes, and what it means that nothing panics
  (`Model/Checked` has the code with Go's bounds checks). `Spec/Stream`: the document read as a relation between
  tapes, for functions that write and render themselves.

## Properties: approach

* **C01-C03**: `htmlEscapeString` modelled as written (fast path, loop with `last` index, buffer). Proved by a loop
  invariant equating it with the bytewise map; safety and decode round trip by induction.
* **C04**: `valueToBytes` modelled case by case; decimal formatting of Int with a parse-back theorem.
* **C05**: False for `fmt.Stringer`: counterexample theorem; `_partial` for all other values.
* **C06, C07**: From refinement and completeness.
* **C08, C09**: The regex as a byte matcher, characterisation for all names.
* **C10-C12, C19, C20**: About `addAttributes`/`renderAttributes`: invariant "attIndices is the graph of first
  positions, names distinct"; order is permuted when conditionals are in effect. C20: witness of two orders giving
  different bytes; `_partial` theorems: exact without conditional attributes, permutation within tags otherwise.
* **C13**: Induction over the value list with the `something` flag.
* **C14, C15**: About `attributesAndContents` and refinement.
* **C16, C18**: Decision logic stated outright.
* **C17**: `attributesAndContents` with the aliased condition slices: counterexample at depth 4; `_partial` when no
  two conditionals share a slot, in particular for nesting depth at most 3.
* **C21**: Induction over the sequence of writes.
* **C22**: Counterexamples; `_partial`: writer stays failed, no Imperative, callbacks leave ctx.Error alone.
* **C23**: Simulation between the failing and the healthy run, for arbitrary nodes and callbacks.
* **C24**: Counterexample; `_partial` for the positions that keep the error.
* **C25**: Invariant over call sequences: tags emitted so far = opened minus closed = stack.
* **C26**: `Start`'s tag characterised; counterexamples; `_partial` equality with elements.
* **C27-C30**: Refinement, iteration clauses; C29 counterexample and `_partial`.
* **C31, C32**: `Get` as a function to ok/panic results.
* **C33, C36**: Refinement.
* **C34**: Frame theorem: rendering without callbacks preserves everything but log, error and map-order clock.
* **C35**: Counterexample; `_partial` when no absorbing attribute is shared.
* **C37**: The HTML tokenizer as specification; round trip by induction over the tree. Counterexample: `script`.
* **C38-C40**: Corollaries of C01, refinement and merging.
* **C41, C44**: Slice memory with capacity.
* **C42, C43, C54**: Serialisation with permuted key order; sorting lemma; reader of the object.
* **C45, C46, C55-C57**: Generator model over token lists; Go literal reader, lexer, parser and evaluator as
  specification.
* **C47, C51, C53**: Tables extracted from the sources; whole-table kernel evaluation lifted to all names and
  arguments.
* **C48**: Template as a list of parts.
* **C49**: Loop with index copy.
* **C50**: Small-step machine, any schedule.
* **C52**: Well-founded argument on nodes and supplied nodes.
* **C58**: Induction on `Out`: tidy templates write trees; with the tokenizer round trip of C37, a reader sees those
  trees.
* **C59**: Induction on nodes: `Out` in two contexts that agree under the references is the same.
* **C60**: Relation `Swap` on built templates; splitting contents gives the same attributes and exchanged contents;
  induction on the relation. Counterexample with four nested conditionals.
* **C61, C62**: Splitting `OutOps` into one piece for each call; `Collection` and the collector have the same `Out`.
* **C63**: By cases on constructors: dropping nils leaves the built node the same, or with the same output; panics
  from the model.
* **C64**: Two `Out` derivations for the same template give trees with equal tags; then C37's reader on both.
* **C65**: Induction over the calls for the stored values, then C12 and C13 for the merged attribute.
* **C66**: A CSS reader as a state machine; a contained value leaves it where it was, by induction; then C37 and C40.
* **C67**: Tables of constants, decided whole by the kernel; C66 for their use as values.
* **C68**: A second specification with memory (Plays), refined by the render programs, by induction on the fuel; equal
  to Out for pure functions.
* **C69**: Both sides computed by the specification `Out` (refined by the renders); C60 for replacing inside
  templates.
* **C70**: An invariant of all effects of a render: every text in memory and every write is in the class; UTF-8 by
  Lean's `String.utf8EncodeChar`.
* **C71**: The `Name()` methods modelled in Model/NodeName; output by the specification `Out`.
* **C72**: Trees with two readings, as arguments of NewElement and as calls (Spec/Tree); mutual induction over trees;
  the converse by induction over the calls with the open elements as a zipper.
* **C73**: `newValues` and the collecting part of Start on a memory of arrays with slices (Model/StartSlice);
  invariant over the loop relating slices to lists, with disjointness of arrays; counterexample for spare capacity.
* **C74**: The tables of attribute functions against the list of boolean attributes of the HTML standard (Spec/Names);
  the rendered text by C53_renders.
* **C75**: Composition of C37 (reading back), C56 and C57 (generated code and its meaning); the reader's items as
  tokens (Spec/RoundTrip), induction over trees.
* **C76**: `html/template`: its escapers on the empty string as a table by place; C48's refinement.
* **C77**: Invariant of all programs: errors in the context, its parents and results were returned by some write in
  the log; with a repeating writer the log contains one error only, and the invariant of C22 shows that it is not
  lost.
* **C78**: The machine of C50 with the programs of Execute; the uniformity lemma for the parts of a template.
* **C79**: `Does`/`SameEffect` (Spec/Does); laws from the exact document-order specification of C68; congruence by the
  `Like` relation of C60.
* **C80**: `execPanics` (Model/Panic) runs the same programs and stops at the first panic. Prefix by comparing it with
  `exec`; memory by the `Uni`/`Respects` logic of C50; the context by a logic `KeepsContext` along `KeepsParents` and
  `KeepsItems`.
* **C81**: Two small logics over render programs in one fixed context with an error: `Idle` (writes nothing, keeps the
  context) and `Moves` (writes something).
* **C82**: Text/template's goodName as part of the model of NewTemplate, which gives a Result; case analysis.
* **C83**: Model/Retain: nodes and constructors once more, holding slices instead of contents; a program is a list of
  writes and calls. Reading the nodes in the final memory commutes with every constructor (simulation).
* **C84**: Model/Live: the constructors once more, in a monad with the program's state and the calls made. Refinement:
  running a constructor is asking the arguments in order and then the constructor of the base model.
* **C85**: Spec/Lines: newline normalisation and the dropped line feed around the tokenizer of C37. Normalising
  commutes with writing, by induction over trees with a flag for a pending CR; then read_write of C37.
* **C86**: Spec/Component: SameRuns, Delegates, WritesItself. Exchange: covering relation between families of programs
  indexed by fuel, a congruence for bind and for all loops; then induction over the places (Swap of C60).
* **C87**: The tag is written with every spelling once (merge of element.go, C11); the tokenizer of C37 keeps the
  first of equal lower-case names; lookup in the two combined, by induction over the list of spellings.
* **C88**: C08 (which constructor Element uses), C07 (contents of void elements do not matter) and C37 (reading back).
* **C89**: Model/Own repeats the functions that look at attributes with a further kind of attribute, given by a name
  and a program. The two templates are built side by side; a relation between the nodes, preserved by the
  constructors, makes the two rendering programs equal. For any `Render` methods (Props/OwnElement) the attributes
  collected from the contents are those declared last, and the rest is the loop over the other contents; more fuel
  changes nothing. With conditionals (Props/OwnWhen) the map of evaluated attributes is the list of those in effect
  grouped by name, and what is looked up in it is the last of its name. C89_dropped compares the program with the one
  in which those attributes do nothing.
* **C90**: Spec/Xml: an XML reader (tokens, references, line ends, white space in values, proper nesting, one root)
  after the XML 1.0 recommendation. Reading what is written, by induction over trees with the reader's mode, and the
  converse: what a tree must be if its text is accepted; templates by the tree argument of C58 with a parameter for
  the syntax.
* **C91**: The component is an ImpProg whose first step has the effects of the inner run; `Out` does not depend on
  parents (mutual induction over derivations), refinement for the inner run, C59 for kept bytes.
* **C92**: A JSON grammar as inductive relations (Spec/Json); normalising line ends and escaping related to it by
  induction over derivations (Proofs/Json); then C85, C37 and the reading of header maps of C54.
* **C93**: Spec/Links has the beginning of the URL standard's parser (trimming, scheme state, slashes) and the
  decidable conditions settlesScheme/settlesSite on texts. Templates are those of C58 with a condition K on declared
  attributes (TidyWith in Spec/Clean). Proofs/Clean carries the condition through every node kind to the trees that
  are written; Proofs/Links shows that the conditions on texts are exact and combines this with the reader of C58 and
  the line ends of C85.
* **C94**: The tables of functions and of the generator are complete lists in the model; a fact about every row is
  decided in the kernel and lifted to every spelling of the names by the definition of the lookup.
* **C95**: Spec/Dom: the tree construction of the HTML standard as a function from the items of the reader
  (Spec/Tokenizer, C55, C85) to a DOM, and the fit condition on trees. Spec/Page: pages built with Document and their
  DOM. Proofs/Dom: feeding the items of a fitting tree to the builder adds exactly its node (induction on the tree for
  any stack of open elements); Proofs/Page: the page as a whole.
* **C96**: Spec/Stands: places (in the head, or inside elements of given names), templates that stand in a place, and
  pages of them. Proofs/Stands: what such a template writes in any context are proper trees that fit in the place
  (mutual induction on the derivation of the output, with the open elements of Imperative functions); then
  Proofs/Received gives the DOM.
* **C97**: The input is read by the HTML reader (Spec/Tokenizer, with normalised line ends), its items are taken as
  tokens, the code is read as Go (C56), evaluated (C57) and rendered, and the page is read again; `visible` drops
  blank texts and takes `<a/>` as HTML or SVG does. Proved by writing the page as trees (`treesAll`), reading them by
  `read_write`, and induction over the document with the texts kept apart.
* **C98**: `wordsOf` reads the first start tag with the HTML reader and splits the value as the Infra standard says.
  From C19_tag the tag is that of TagSpec; values are escaped texts, a join of escaped texts is an escaped join, the
  tag is read by run_startTag, and words of a join by spaces are the words of the parts. For calls: addresses are
  fresh, so conditional attributes keep their values while the static ones are merged.
* **C99**: Model/Checked has the functions with indices once more, as in the source, with a bounds check at every
  index and slice expression. The invariants that keep indices in range: attIndices points into attributes (WFHead,
  kept by addAttributes); no list of evaluated attributes is empty; names, values and indices of Start fit together;
  last ≤ i in escaping. Then the checked programs are equal to the unchecked ones step by step, by induction over
  depth and over the programs of user functions.
* **C100**: Model/Stream makes the calls of user functions run programs that write and render, in the same Render
  methods. Spec/Stream reads the document as a relation between tapes (memory and output so far). Soundness by Hoare
  triples over tapes, by induction over the depth of nested calls and, inside, over the rendering; completeness by
  induction over the derivation, with an oracle for the orders of maps. That the extension is conservative is an
  induction over programs.
* **C101**: The rendering of Model/Stream. The prefix is the general fact about programs of C23. The reporting is the
  invariant 'a failed write shows in ctx.Error' of C22, over the programs in which calls of user functions run their
  bodies; that contexts are entered and left in a balanced way is shown once for all answers of the environment, and
  so carries over. That errors come from the writer is the invariant of C77 over the same programs.
* **C102**: The rendering of Model/Stream. The specification gives inductive rules for what a function's body does
  (Does, Yields) and for the loops over the nodes (Each, Noting, All, Over). Proved by a small calculus that relates a
  program, for large enough bounds, with such a relation, and is closed under sequencing and child contexts.
* **C103**: The rendering of Model/Stream in the machine of C50; one step is one effect, so calls of user functions
  are interleaved at their writes and memory accesses. Proved by showing that every effect of the unfolded program
  respects the relation between shared memories (by induction on the program in which calls are replaced by bodies),
  and the invariant of C50.
* **C104**: The rendering of Model/Stream. The specification defines which node is directly below which (contents, and
  nodes given by the functions called) and asks for accessibility. Proved by well-founded induction on that relation:
  programs end with large enough bounds, an invariant says which functions delimited attributes hold.
* **C105**: The rendering of Model/Stream, run by execPanics, the interpreter in which any foreign call may panic.
  Proved by induction on the rendering as a program; the memory by the relational calculus of C103, the contexts by
  the balance of entering and leaving contexts.
* **C106**: The rendering of Model/Stream. C106_keeps and C106_panics: a structural predicate on programs says that
  contexts are entered and left in a balanced way and that Data and Cargo are assigned only in contexts entered since;
  it is shown for every Render method, kept by running function bodies at the calls, and implies the claim for every
  execution. The iterations: triples as in C28.
* **C107**: Model/StreamTemplate: the execution of C48 with the rendering of Model/Stream. C107_run: induction over
  the parts. C107_output: the tape of C100 extended by templates. The others: C104, C106, C103 and C105 composed over
  the parts.
* **C108**: Spec/StreamExchange: programs that are alike but for exchanged nodes. C108_exchange: induction on the
  depth of nested calls of functions, within that on the depth of nodes: whatever a part of the old program does, the
  part of the new program does with enough fuel; where the nodes are exchanged, first the same node is followed into
  the new program and then the hypothesis is used there.
* **C109**: Spec/StreamUtf8: functions all whose texts are in a class. C109_class: the Hoare triples of C70, for
  rendering code in which the calls of functions run their bodies; induction on the depth of nested calls, and within
  that on the body of a function.
* **C110**: Spec/StreamClean: which bytes may stand where (Spot, Fits), templates and functions that keep to it (Neat,
  NeatTelling with the stack of tags that the function has begun). C110: by C100_order a render is a derivation of
  Streams; mutual induction on derivations shows that what is added fits its place; then the reader of C37.
  C110_constructors (Spec/StreamMade: one rule per constructor): by cases, with an invariant of the arrays in which
  conditions are stored. C110_template (Spec/StreamCleanTemplate: reading the text of a template with a stack of open
  elements): by C107_output and induction on the parts.

The refinement theorem: with a healthy writer and callbacks that do not change the state, `render` writes exactly the
bytes described by `Out`, returns no error and leaves the state unchanged but for the log. Completeness: every output
described by `Out` is written for some map order.

## Wrong programs

`seeded/LOG.jsonl` has one line per edit of the model that was tried in a scratch copy: the definition, the edit, the
claim it breaks, the theorems that then failed, and the theorems that were tightened because of it.

## Axioms

No axioms: C21_after, C40_units, C49_other, C51_name, C51_distinct, C53_html, C53_svg, C53_htmx, C53_distinct,
C67_properties, C67_distinct, C74_others, C82_false.

`propext`: C04_int_injective, C09_chars, C16_nil, C17_declares_collection, C32_false, C32_keys_false, C47_ascii,
C47_aria, C48_must, C51_void_partial, C51_svg_name, C53_delimited, C54_quote_false, C54_reference_false, C54_false,
C55_false, C55_sticky_partial, C55_reader, C56_unique, C57_doctype, C63_panics, C63_collection_partial, C67_important,
C67_words, C71_others, C71_kinds, C71_inner, C74_false, C74_boolean_partial, C82_must, C94_element_partial,
C94_element_unknown, C94_attribute_partial, C94_attribute_unknown, C94_false.

`propext, Quot.sound`: C03_fast_path, C05_false, C07_contents_ignored, C08_void, C08_other, C09_element, C09_void,
C09_attribute, C09_booleanAttribute, C09_delimitedAttribute, C13_parts, C17_declares, C17_declares_when, C20_false,
C21_sequence, C22_false, C22_stays_false, C24_false, C24_siblings_partial, C26_false_empty, C31_found, C31_missing,
C31_must, C32_partial, C32_safe_partial, C35_attribute, C41_false, C41_full_partial, C41_variadic_partial, C42_plain,
C43_object, C45_literal, C46_false, C48_run, C48_context, C48_stops, C48_stops_text, C49_positive, C49_length,
C50_needed, C51_false, C51_track_false, C51_same_partial, C51_svg, C52_unique, C52_needed, C53_same,
C54_exact_partial, C54_partial, C63_false, C63_values_partial, C63_void_partial, C67_keywords, C67_attributes,
C67_all_events, C67_written, C70_class, C70_ascii, C71_attribute, C71_exported, C73_false, C77_false,
C77_returned_partial, C80_returns, C80_ends, C80_prefix, C80_memory, C80_again, C80_execute_error,
C80_execute_returns, C80_execute_prefix, C81_false, C81_mute_partial, C82_partial, C83_false, C83_exact_partial,
C83_unchanged_partial, C83_names, C83_names_copied, C83_imperative, C83_imperative_false, C83_imperative_partial,
C84_once, C84_only, C84_order, C84_ends, C84_valid, C84_invalid, C86_component, C86_writer, C86_attributes, C89_false,
C89_start, C89_outside, C89_three, C89_apart_needed, C90_svg, C91_once, C91_nothing, C91_after_error, C91_fallback,
C92_strings, C97_false, C98_in_force, C99_values, C99_generator, C100_determined, C100_same, C100_adds, C100_inside,
C100_inside_runs, C101_false, C101_returned, C102_value, C102_condition, C102_collect, C102_imperative, C103_needed,
C104_ends, C104_needed, C105_returns, C105_ends, C105_once, C105_prefix, C106_needed, C107_run, C107_stops,
C107_stops_text, C107_determined, C107_same, C107_ends, C107_panic_error, C107_panic_returns, C107_panic_prefix,
C108_component, C108_needed, C109_class, C109_ascii, C110_needed, C110_template_needed, C110_mixed_conditions.

`propext, Classical.choice, Quot.sound`: C01_text, C01_comment, C01_pi, C01_attribute, C01_writeString, C02_decode,
C02_decode_attribute, C02_injective, C03_pieces, C03_split, C04_text, C04_attribute, C04_unique, C05_static_partial,
C05_key_partial, C06_element, C07_shape, C07_declarations_only, C10_once, C11_last_wins, C12_merge, C13_delimiter,
C14_interleaving, C14_swap, C15_open, C15_collection, C16_conditional, C16_collection, C17_partial,
C17_three_levels_partial, C17_false, C18_when, C18_when_not, C18_attribute, C19_tag, C19_extend, C19_override,
C19_first_delimited, C19_first_plain, C20_reordered_partial, C20_unconditional_partial, C22_partial, C22_last_partial,
C23_prefix, C24_partial, C25_closed, C25_endAll, C25_end, C25_runs, C26_start, C26_void_partial, C26_element_partial,
C26_exact, C26_false, C27_iterate, C27_empty, C28_iterate, C28_iterateKey, C28_iterateYield, C29_exact_partial,
C29_same_partial, C29_false, C30_slice, C30_none, C33_text, C33_attribute, C33_delimited, C34_unchanged, C34_again,
C34_times, C34_computing, C35_false, C35_partial, C35_fresh_partial, C35_attributes, C36_text, C36_fragment,
C36_comment, C36_pi, C36_packages, C36_attribute, C36_newConcatValue, C36_newValue, C36_unique,
C37_reads_back_partial, C37_exact_partial, C37_false, C38_comment, C38_reads, C39_document, C40_property, C40_unit,
C40_joined, C40_properties, C41_partial, C42_headers, C42_headersJS, C42_order, C42_panic, C43_headers, C43_headersJS,
C44_names, C44_spare, C45_text, C45_comment, C45_doctype, C45_attribute, C46_generates, C46_exact_partial,
C46_document, C46_end_names, C46_balanced_partial, C46_indentation_partial, C47_false, C47_element_partial,
C47_attribute_partial, C47_capitals_element, C47_capitals_attribute, C48_output, C48_ends, C48_new, C48_new_fails,
C49_renders, C49_fresh, C50_alone, C50_memory, C50_finishes, C50_ends, C50_callbackFree, C52_fixed, C52_supplied,
C53_renders, C54_object_partial, C55_exact_partial, C56_exact_partial, C56_nested_partial, C56_false,
C56_declares_partial, C56_generates, C56_injective, C57_renders_partial, C57_false, C58_well_formed, C58_no_injection,
C59_relevant, C59_put, C59_static, C59_writes, C60_effects_partial, C60_effects_apart_partial, C60_partial,
C60_apart_partial, C60_false, C61_calls, C61_nil, C61_exactly, C62_collect, C62_nil, C62_collection,
C63_element_partial, C63_collect_partial, C63_imperative_partial, C63_document_partial, C64_structure, C64_count,
C65_joined, C65_strings, C65_vars, C66_declarations_partial, C66_simple_partial, C66_false, C67_css, C67_events,
C68_order, C68_exact, C68_fixed, C68_computing, C68_calls, C68_numbered, C68_readme, C68_separated, C69_collection,
C69_conditional_split, C69_when_split, C69_conditional_swap, C69_conditional_twice, C69_when_either, C69_iterate,
C69_iterateKey, C69_iterateYield, C69_text, C70_escape, C70_writes, C70_page, C70_constructors, C71_newElement,
C71_element, C71_tag, C71_attr, C72_same, C72_memory, C72_every, C73_constructor, C73_collect, C73_kept,
C73_overlap_partial, C74_spellcheck, C75_false, C75_page_partial, C75_code, C75_node_partial, C76_exact_partial,
C76_false, C77_exact_partial, C77_first_partial, C78_alone, C78_memory, C78_finishes, C79_collection, C79_conditional,
C79_when, C79_iterate, C79_iterateKey, C79_iterateYield, C79_text, C79_once, C80_context, C81_shows_partial,
C81_exact_partial, C81_silent_partial, C81_kept_partial, C82_exact, C84_value, C84_text, C85_reads_partial,
C85_exact_partial, C85_false, C85_template, C85_no_injection, C86_exchange, C86_exchange_apart, C86_anywhere,
C87_first_spelling_partial, C87_partial, C87_false, C88_partial, C88_other_case_partial, C88_false, C89_partial,
C89_any, C89_dropped, C89_any_element, C89_any_void, C89_once, C89_any_when, C89_any_when_void, C90_exact,
C90_reads_partial, C90_meant_partial, C90_false, C90_template, C90_no_injection, C90_characters, C90_page, C91_output,
C91_value, C91_cached, C91_parent, C92_attributes, C92_headers_partial, C92_headers_false, C92_scripts_partial,
C92_scripts_false, C93_schemes_partial, C93_local_partial, C93_fixed_partial, C93_scheme_exact, C93_local_exact,
C93_false, C94_others, C95_dom_partial, C95_received_partial, C95_false, C96_not_rearranged, C96_names,
C97_shows_partial, C97_code, C97_slash, C98_words, C98_words_element, C98_classes, C98_classes_void, C98_names,
C99_build, C99_items, C99_render, C99_runs, C99_imperative, C100_order, C100_exact, C100_place, C101_prefix,
C101_reported_partial, C101_noted_partial, C101_first_partial, C102_iterate_error, C102_iterate, C102_yield_error,
C102_yield, C103_alone, C103_memory, C103_finishes, C104_goroutines, C105_memory, C105_again, C105_context,
C106_keeps, C106_panics, C106_iterate, C106_iterateKey, C106_iterateYield, C107_output, C107_items, C107_alone,
C107_memory, C107_finishes, C108_exchange, C108_exchange_apart, C108_agree, C108_both, C108_anywhere, C108_template,
C108_stands, C109_writes, C109_page, C109_template, C109_needed, C110_well_formed, C110_reads, C110_no_injection,
C110_template, C110_template_reads, C110_constructors.

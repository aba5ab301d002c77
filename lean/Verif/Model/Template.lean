import Verif.Model.Machine
import Verif.Model.Construct
/-
Model of template.go.  Package html/template itself is not modelled: a parsed template is the list of its text pieces
and `{{name .}}` actions (in the text, after html/template has dropped HTML comments), each action with the place in
which it stands.  An action whose function returns the empty string and nil makes one `Write` of what html/template's
escapers for that place make of it (`fmt.Fprint(wr, ...)`; html/template of Go 1.23, escape.go and html.go).  Other actions (`if`,
`range`, pipelines, builtin functions, ...) and the errors that html/template itself reports about the text are not
modelled.  An error that stops the execution is returned wrapped by text/template; the model returns the error itself.
-/
namespace Aitch

/-- template.go:40 (the text given to `Parse`) — Where an action stands, as html/template tells from the text before
it: in text (also in `title` and `textarea`), between the attributes of a tag, in a quoted or unquoted attribute
value, in a script, in a script in a quoted attribute value (`onclick`), in a string of a script, in a style. -/
inductive Place where
  | text | tag | quoted | unquoted | script | handler | jsString | style
deriving DecidableEq, Repr

/-- template.go:40 (the text given to `Parse`) — A piece of a template text: text, or `{{name .}}` at some place. -/
inductive Piece where
  | text (t : Bytes)
  | action (name : Bytes) (place : Place)

/-- template.go:68,73 — the types of the strings that the functions return. -/
inductive Content where
  | html | htmlAttr
deriving DecidableEq, Repr

/-- template.go:66-78 — `contextFunc`: which type the function for a node returns. -/
def contextFunc (n : Node) : Content := if n.isAttr then .htmlAttr else .html

/-- template.go:70,75 (the empty string returned) — What html/template's escapers make of the empty string: the name
filter (`tag`) lets only an `HTMLAttr` be empty, the escaper for unquoted values lets nothing be empty, and a value in
a script is a JavaScript literal. -/
def escapeEmpty : Content → Place → Bytes
  | .htmlAttr, .tag => []
  | .html, .tag => b%"ZgotmplZ"
  | _, .unquoted => b%"ZgotmplZ"
  | _, .script => b%"\"\""
  | _, .handler => b%"&#34;&#34;"
  | _, .text => []
  | _, .quoted => []
  | _, .jsString => []
  | _, .style => []

/-- template.go:31 — `NodeMap`, as a list of entries; `none` is a nil node. -/
abbrev NodeMap := List (Bytes × Option Node)

/-- template.go:56-64 — `contextFuncMap`: nil nodes are left out; each other node is given by itself (see
`execParts` for its function). -/
def contextFuncMap (m : NodeMap) : List (Bytes × Node) := m.filterMap fun e => e.2.map fun n => (e.1, n)

/-- template.go:10-12 — A parsed template: actions are resolved to their functions. -/
inductive Part where
  | text (t : Bytes)
  | call (n : Node) (place : Place)

/-- What template.go:40 leaves to html/template: parsing fails on an action whose name is not in the function map. -/
def parse (fs : List (Bytes × Node)) : List Piece → Option (List Part)
  | [] => some []
  | .text t :: ps => (parse fs ps).map (.text t :: ·)
  | .action name place :: ps =>
    match fs.lookup name with
    | some n => (parse fs ps).map (.call n place :: ·)
    | none => none

/-- template.go:40 — text/template's `goodName`, by which `Funcs` checks the names in a function map.  Bytes of
characters that are not ASCII count as letters here (Go asks whether the character is a letter or a digit). -/
def goodName : Bytes → Bool
  | [] => false
  | c :: cs => isLetter c && cs.all fun d => isLetter d || (48 ≤ d && d ≤ 57)
where isLetter (c : UInt8) : Bool := (97 ≤ c && c ≤ 122) || (65 ≤ c && c ≤ 90) || c == c%'_' || 128 ≤ c

/-- template.go:36-46 — `NewTemplate`; `none` when an error is returned.  `Funcs` (line 40) panics if one of the names
is not good. -/
def NewTemplate (text : List Piece) (m : NodeMap) : Result (Option (List Part)) :=
  if (contextFuncMap m).all fun e => goodName e.1 then .val (parse (contextFuncMap m) text) else .panic

/-- template.go:48-54 — `MustNewTemplate`. -/
def MustNewTemplate (text : List Piece) (m : NodeMap) : Result (List Part) :=
  match NewTemplate text m with
  | .val (some t) => .val t
  | .val none => .panic
  | .panic => .panic

/-- text/template's execution of the parts, with template.go:66-78, the functions made by `contextFunc`: they call
`node.Render(ctx)` and return the empty string and the error.  (html/template then escapes the string.) -/
def execParts (rec : Render) : List Part → Prog (Option Err)
  | [] => return none
  | .text t :: ps => do
    let r ← Do.write t
    match r.2 with
    | some e => return some e
    | none => execParts rec ps
  | .call n place :: ps => do
    let e ← rec n
    match e with
    | some e => return some e
    | none => do
      let r ← Do.write (escapeEmpty (contextFunc n) place)
      match r.2 with
      | some e => return some e
      | none => execParts rec ps

/-- template.go:21-28 — the context that `Execute` makes. -/
def templateStart (s : St) (data : Option MapId) (cargo : Any) : St :=
  { s with frame := ⟨none, data, cargo⟩, parents := [] }

/-- template.go:21-28 — `(*Template).Execute`: the returned error and the new state (with the context it made as the
current one). -/
def Execute (env : Env) (fuel : Nat) (t : List Part) (data : Option MapId) (cargo : Any) (s : St) :
    Option (Option Err × St) :=
  exec env (execParts (renderProg fuel) t) (templateStart s data cargo)

/-- template.go:19-28 — goroutine `i` calls `Execute` of template `ts i` with its own writer, data and cargo; `own i` is
what it has for itself before (its context is replaced by the one that `Execute` makes).  What html/template does once
per template (escaping it before the first execution, under a lock) is not modelled. -/
def executeAll {ι : Type} (ts : ι → List Part) (data : ι → Option MapId) (cargo : ι → Any) (envs : ι → Env)
    (fuel : ι → Nat) (own : ι → Local) (sh : Shared) : Machine ι :=
  { threads := fun i => ⟨envs i, execParts (renderProg (fuel i)) (ts i),
      (templateStart (joinSt (own i) sh) (data i) (cargo i)).own⟩,
    shared := sh }

end Aitch

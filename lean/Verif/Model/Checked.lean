import Verif.Model.Render
import Verif.Model.Construct
import Verif.Model.Nbsp
import Verif.Model.Htmx
/-
The code of the other files once more, with the bounds checks that Go makes: an index or slice expression out of range
panics.  (Model/Render and the others pass over such an expression silently, or are written without indices; here
they are as in the source.)

In functions without effects a panic is `Result.panic`; a program does then `boom`, a parameter, and never returns.
-/
namespace Aitch.Checked

variable {α β : Type}

/-! ### Index and slice expressions -/

/-- element.go:12,35,43,88,154, imperative.go:88,124,142,151, value.go:24, iterate.go:53, htmx/attributes.go:301 — The Go expression `l[i]`. -/
def index (l : List α) (i : Nat) : Result α :=
  match l[i]? with
  | some a => .val a
  | none => .panic

/-- element.go:27,49 — The Go expression `l[len(l)-1]`; for an empty slice the index is -1. -/
def last (l : List α) : Result α :=
  if l.length = 0 then .panic else index l (l.length - 1)

/-- element.go:95,161,223,225, imperative.go:95,97,99, iterate.go:53 — The Go statement `l[i] = a`. -/
def assign (l : List α) (i : Nat) (a : α) : Result (List α) :=
  if i < l.length then .val (l.set i a) else .panic

/-- value.go:202,206, imperative.go:144, text.go:56, conditional.go:91, html/generator.go:31,47 — The Go expression
`l[lo:hi]`.  (Go lets `hi` be up to the capacity of a slice; here it must be up to the length.) -/
def slice (l : List α) (lo hi : Nat) : Result (List α) :=
  if lo ≤ hi ∧ hi ≤ l.length then .val ((l.drop lo).take (hi - lo)) else .panic

/-- imperative.go:88-95 and the other lines named above — What follows an expression that may panic. -/
def _root_.Aitch.Result.bind (r : Result α) (f : α → Result β) : Result β :=
  match r with
  | .val a => f a
  | .panic => .panic

/-- element.go:12 and the other lines named above — The same in a program.  A panic is taken to do `boom`, whatever that
is, and then the program ends without returning. -/
def orPanic (boom : Prog Unit) (r : Result α) (f : α → Prog β) : Prog β :=
  match r with
  | .val a => f a
  | .panic => boom >>= fun _ => .stuck

/-! ### Functions without effects -/

/-- value.go:184-206 — the loop of `htmlEscapeString`. -/
def escLoop (sb : Bytes) : (rest : Bytes) → (i last : Nat) → (buf : Bytes) → Result Bytes
  | [], _, last, buf => (slice sb last sb.length).bind fun x => .val (buf ++ x)
  | c :: rest, i, last, buf =>
    match escEntity c with
    | none => escLoop sb rest (i + 1) last buf
    | some html => (slice sb last i).bind fun x => escLoop sb rest (i + 1) (i + 1) (buf ++ x ++ html)

/-- value.go:176-208 — `htmlEscapeString`. -/
def htmlEscapeString (s : Bytes) : Result Bytes :=
  if ¬ (s.any fun c => (b%"'\"&<>").contains c || c == 0) then .val s
  else escLoop s s 0 0 []

/-- text.go:55-58 — the loop of `Nbsps`; `k` rounds are left. -/
def nbspsLoop : (k : Nat) → (idx : Nat) → Bytes → Result Bytes
  | 0, _, result => .val result
  | k + 1, idx, result =>
    (slice result idx result.length).bind fun dst =>
      nbspsLoop k (idx + nbspBytes.length) (result.take idx ++ copyAt dst 0 nbspBytes)

/-- text.go:49-60 — `Nbsps`. -/
def Nbsps (n : Int) : Result (Option Bytes) :=
  if n ≤ 0 then .val none
  else (nbspsLoop n.toNat 0 (List.replicate (nbspBytes.length * n.toNat) 0)).bind fun r => .val (some r)

/-- conditional.go:89-111 — the condition that `When` makes of its key. -/
def whenCond (key : Bytes) : Result Cond :=
  if key.head? = some c%'!' then (slice key 1 key.length).bind fun k => .val (.hasNot k) else .val (.has key)

/-- value.go:22-28 — `NewValue`. -/
def NewValue (dl : Nat → List Value) (v : Any) : Result Value :=
  if (newValue dl v).length = 1 then index (newValue dl v) 0 else .val (.mk [] none (newValue dl v))

/-- iterate.go:52-54 — the loop of `IterateKey` over a slice `xs` read by reflection: `k` rounds are left, `i` is the
present one. -/
def fill (xs : List Any) : (k i : Nat) → List Any → Result (List Any)
  | 0, _, r => .val r
  | k + 1, i, r => (index xs i).bind fun x => (assign r i x).bind (fill xs k (i + 1))

/-- iterate.go:50-55 — the items of a slice read by reflection: `r := make([]any, l)`, then the loop. -/
def reflected (xs : List Any) : Result (List Any) := fill xs xs.length 0 (List.replicate xs.length .nil)

/-- element.go:218-229 — `contentsToNodes`: `result := make([]Node, len(contents))`, then the loop from round `i` on;
`none` is a nil node. -/
def fillNodes (dl : Nat → List Value) : (contents : List Any) → (i : Nat) → List (Option Node) → Result (List (Option Node))
  | [], _, result => .val result
  | .node n :: rest, i, result => (assign result i (some n)).bind (fillNodes dl rest (i + 1))
  | c :: rest, i, result => (assign result i (some (Text dl [c]))).bind (fillNodes dl rest (i + 1))

/-- element.go:218-229 — `contentsToNodes`. -/
def contentsToNodes (dl : Nat → List Value) (contents : List Any) : Result (List (Option Node)) :=
  fillNodes dl contents 0 (List.replicate contents.length none)

/-- htmx/attributes.go:299-309 — `mergedHeadersMap` in `HeadersJS`. -/
def mergedJS (ord : Nat → GoMap → GoMap) (value : List GoMap) : Result GoMap :=
  if value.length = 1 then index value 0 else .val (mergeMaps ord 0 value [])

/-- html/generator.go:30 — `strings.LastIndex(name, "/")`: the loop from byte `i` on, `found` being the last one so far. -/
def lastSlash : Bytes → (i : Nat) → (found : Option Nat) → Option Nat
  | [], _, found => found
  | c :: rest, i, found => lastSlash rest (i + 1) (if c = c%'/' then some i else found)

/-- html/generator.go:24-36 — `funcName` of a function whose full name is `name`. -/
def funcName (name : Bytes) : Result Bytes :=
  match lastSlash name 0 none with
  | some ls => if ls > 0 then slice name (ls + 1) name.length else .val b%"Unknown"
  | none => .val b%"Unknown"

/-- html/generator.go:45-49 — `decIndent`. -/
def decIndent (indent : Bytes) : Result Bytes :=
  if indent.length > 0 then slice indent 0 (indent.length - 1) else .val indent

/-- element.go:84-102, 150-168 — `addAttributes`. -/
def addAttributes : List Attr → ElemHead → (Nat → List Value) → Result (ElemHead × (Nat → List Value))
  | [], e, dl => .val (e, dl)
  | att :: rest, e, dl =>
    match e.attIndices.lookup att.name with
    | some idx =>
      (index e.attributes idx).bind fun existing =>
        match existing, att with
        | .delim _ _ r, .delim _ _ r' => addAttributes rest e (upd dl r (dl r ++ dl r'))
        | _, _ => (assign e.attributes idx att).bind fun as => addAttributes rest { e with attributes := as } dl
    | none =>
      addAttributes rest
        { e with attIndices := e.attIndices ++ [(att.name, e.attributes.length)],
                 attributes := e.attributes ++ [att] } dl

/-- element.go:191-201 — `NewElement`. -/
def NewElement (name : Bytes) (contents : List Any) (h : Heap) : Result (Node × Heap) :=
  let (attrs, condAttrs, children) := attributesAndContents (Aitch.contentsToNodes h.dl contents)
  (addAttributes attrs ⟨name, [], [], condAttrs⟩ h.dl).bind fun r => .val (.element r.1 children, ⟨r.2, h.next⟩)

/-- element.go:207-216 — `NewVoidElement`. -/
def NewVoidElement (name : Bytes) (contents : List Any) (h : Heap) : Result (Node × Heap) :=
  let (attrs, condAttrs, _) := attributesAndContents (Aitch.contentsToNodes h.dl contents)
  (addAttributes attrs ⟨name, [], [], condAttrs⟩ h.dl).bind fun r => .val (.voidElement r.1, ⟨r.2, h.next⟩)

/-! ### Attributes of a tag -/

variable (boom : Prog Unit)

/-- element.go:12-31 — one round of the loop over `attIndices`. -/
def renderStatic (h : ElemHead) (evaluated : List (Bytes × List Attr)) (name : Bytes) : Prog Unit :=
  match h.attIndices.lookup name with
  | none => return ()
  | some i =>
    orPanic boom (index h.attributes i) fun att =>
      match evaluated.lookup name with
      | some eAttr =>
        match att with
        | .delim name delimiter r => do
          let c ← Do.ctx
          renderDelim name delimiter (c.dl r ++ eAttr.flatMap (Attr.values c.dl))
        | _ => orPanic boom (last eAttr) renderAttr
      | none => renderAttr att

/-- element.go:11-32 — the loop over `attIndices`. -/
def renderStatics (h : ElemHead) (evaluated : List (Bytes × List Attr)) : (names : List Bytes) → Prog Unit
  | [] => return ()
  | name :: names => do
    renderStatic boom h evaluated name
    renderStatics h evaluated names

/-- element.go:41-45 — the loop `for i := 1; i < len(ca); i++`: `k` rounds are left. -/
def moreValues (dl : Nat → List Value) (ca : List Attr) : (k i : Nat) → Result (List Value)
  | 0, _ => .val []
  | k + 1, i => (index ca i).bind fun a => (moreValues dl ca k (i + 1)).bind fun vs => .val (a.values dl ++ vs)

/-- element.go:34-51 — one round of the loop over `evaluated`. -/
def renderExtra (h : ElemHead) (evaluated : List (Bytes × List Attr)) (name : Bytes) : Prog Unit :=
  match evaluated.lookup name with
  | none => return ()
  | some ca =>
    if (h.attIndices.lookup name).isNone ∧ ca.length > 0 then
      orPanic boom (index ca 0) fun first =>
        match first with
        | .delim name delimiter r => do
          let c ← Do.ctx
          orPanic boom (moreValues c.dl ca (ca.length - 1) 1) fun vs => renderDelim name delimiter (c.dl r ++ vs)
        | _ => orPanic boom (last ca) renderAttr
    else return ()

/-- element.go:33-52 — the loop over `evaluated`. -/
def renderExtras (h : ElemHead) (evaluated : List (Bytes × List Attr)) : (names : List Bytes) → Prog Unit
  | [] => return ()
  | name :: names => do
    renderExtra boom h evaluated name
    renderExtras h evaluated names

/-- element.go:7-59 — `renderAttributes`. -/
def renderAttributes (h : ElemHead) : Prog Unit := do
  if h.conditionals.length > 0 then
    let evaluated ← evaluate h.conditionals []
    if evaluated.length > 0 then
      let names ← Do.order (h.attIndices.map (·.1))
      renderStatics boom h evaluated names
      let names ← Do.order (evaluated.map (·.1))
      renderExtras boom h evaluated names
    else renderAttrs h.attributes
  else renderAttrs h.attributes

/-- element.go:69-72, 129-132 — the start tag. -/
def renderStartTag (h : ElemHead) : Prog Unit := do
  ctxWrite b%"<"
  ctxWrite h.name
  renderAttributes boom h
  ctxWrite b%">"

/-! ### Imperative -/

/-- imperative.go:81-83 — the variables of `Start`: `attNames`, `attValues` (a nil slice is `none`), `attIndices`. -/
structure Started where
  names : List Bytes
  values : List (Option (List Value))
  indices : List (Bytes × Nat)

/-- imperative.go:104-118 — the values that a name starts with. -/
def firstValues (dl : Nat → List Value) : Attr → Option (List Value)
  | .delim _ d r => startDelim d (dl r) (some [])
  | .plain _ vs => some vs
  | .bool _ => none

/-- imperative.go:85-119 — one round of the loop over `attrs`. -/
def startAdd (dl : Nat → List Value) (a : Attr) (st : Started) : Result Started :=
  match st.indices.lookup a.name with
  | some idx =>
    match a with
    | .delim _ d r =>
      (index st.values idx).bind fun avs =>
        (assign st.values idx (startDelim d (dl r) avs)).bind fun vs => .val { st with values := vs }
    | .plain _ vs => (assign st.values idx (some vs)).bind fun vs => .val { st with values := vs }
    | .bool _ => (assign st.values idx none).bind fun vs => .val { st with values := vs }
  | none =>
    .val ⟨st.names ++ [a.name], st.values ++ [firstValues dl a], st.indices ++ [(a.name, st.names.length)]⟩

/-- imperative.go:84-120 — the loop over `attrs`, skipping nil and non-attribute nodes. -/
def startCollect (dl : Nat → List Value) : List (Option Node) → Started → Result Started
  | [], st => .val st
  | some (.attr a) :: rest, st => (startAdd dl a st).bind (startCollect dl rest)
  | _ :: rest, st => startCollect dl rest st

/-- imperative.go:121-131 — the loop `for a, attName := range attNames`. -/
def startWrite (values : List (Option (List Value))) : List Bytes → (a : Nat) → Prog Unit
  | [], _ => return ()
  | n :: names, a => do
    ctxWrite b%" "
    ctxWrite n
    orPanic boom (index values a) startWriteValue
    startWrite values names (a + 1)

/-- imperative.go:78-132 — the output of `Start`. -/
def startTag (name : Bytes) (attrs : List (Option Node)) : Prog Unit := do
  ctxWrite b%"<"
  ctxWrite name
  let c ← Do.ctx
  orPanic boom (startCollect c.dl attrs ⟨[], [], []⟩) fun st => startWrite boom st.values st.names 0
  ctxWrite b%">"

/-- imperative.go:138-146 — `End`; the stack is as in the source, the last opened element at the end. -/
def endLast (stack : List Bytes) : Prog (List Bytes) :=
  if stack.length > 0 then do
    ctxWrite b%"</"
    orPanic boom (index stack (stack.length - 1)) ctxWrite
    ctxWrite b%">"
    orPanic boom (slice stack 0 (stack.length - 1)) fun s => return s
  else return stack

/-- imperative.go:149-153 — the loop `for i := len(ic.openedStack) - 1; i >= 0; i--`. -/
def endAll (stack : List Bytes) : Nat → Prog Unit
  | 0 => return ()
  | i + 1 => do
    ctxWrite b%"</"
    orPanic boom (index stack i) ctxWrite
    ctxWrite b%">"
    endAll stack i

/-- imperative.go:62-155 — one method call on an `imperativeContext`. -/
def runOp (rec : Render) : ImpOp → (stack : List Bytes) → Prog (List Bytes)
  | .writeString d, stack => do
    orPanic boom (htmlEscapeString d) ctxWrite
    return stack
  | .writeRaw d, stack => do
    ctxWrite d
    return stack
  | .writeNodes ns, stack => do
    ignoreLoop rec ns
    return stack
  | .start n isVoid attrs, stack => do
    startTag boom n attrs
    return if isVoid then stack else stack ++ [n]
  | .end, stack => endLast boom stack
  | .endAll, stack => do
    endAll boom stack stack.length
    return []

/-- imperative.go:40 — running the user's function on an `imperativeContext`. -/
def runImp (rec : Render) : ImpProg → (stack : List Bytes) → Prog (Option Err)
  | .ret e, _ => return e
  | .user upd k, stack => do
    let s ← Do.user upd
    runImp rec (k s) stack
  | .call op k, stack => do
    let stack ← runOp boom rec op stack
    let s ← Do.look
    runImp rec (k s) stack
  | .render n k, stack => do
    let e ← rec n
    let s ← Do.look
    runImp rec (k e s) stack
  | .write data k, stack => do
    let r ← Do.write data
    let s ← Do.look
    runImp rec (k r s) stack

/-! ### Render -/

/-- aitch.go:18 (lines as in Model/Render) — The `Render` methods. -/
def renderStep (rec : Render) : Render
  -- element.go:128-140
  | .element h contents => do
    renderStartTag boom h
    contentLoop rec contents
    renderEndTag h.name
    retErr
  -- element.go:68-74
  | .voidElement h => do
    renderStartTag boom h
    retErr
  -- imperative.go:38-43
  | .imperative (some f) => do
    let prog ← Do.imp f
    runImp boom rec prog []
  -- these have no index expressions (Model/Render)
  | n => Aitch.renderStep rec n

/-- aitch.go:18 — `Render`, with bounds checks. -/
def renderProg : Nat → Render
  | 0 => fun _ => .stuck
  | fuel + 1 => renderStep boom (renderProg fuel)

end Aitch.Checked

import Verif.Model.Value
import Verif.Model.Prog
/-
Model of the `Render` methods.

Unbounded recursion goes only through calls of `Node.Render`; each method is written as a program that receives
the recursive call `rec`, and `render` ties the knot with fuel.  A `Render` program returns the error that the
method returns.
-/
namespace Aitch

/-- context/context.go:32-36 — `(*Context).Write`. -/
def ctxWrite (data : Bytes) : Prog Unit := do
  let c ← Do.ctx
  match c.frame.err with
  | none => do
    let r ← Do.write data
    Do.setErr r.2
  | some _ => pure ()

/-- attribute.go:23, element.go:73,139 and the same in the other `Render` methods — `return ctx.Error`. -/
def retErr : Prog (Option Err) := do
  let c ← Do.ctx
  return c.frame.err

/-- value.go:98, conditional.go:93,103, iterate.go:46 — Go map read `ctx.Data[k]` with the `ok` flag (a nil map has no
keys). -/
def Ctx.lookup (c : Ctx) (k : Bytes) : Option Any :=
  match c.frame.data with
  | none => none
  | some m => (c.maps m).lookup k

/-- Calling the `dynamicFunc` of a value: value.go:38 with the closures of value.go:89-94 and 96-103. -/
def runDyn : Dyn → Prog Bytes
  | .user f => Do.dyn f
  | .key k => do
    let c ← Do.ctx
    match c.lookup k with
    | some v => return valueToBytes v
    | none => return []
  | .cargo => do
    let c ← Do.ctx
    return valueToBytes c.frame.cargo

/-- value.go:39, 48, 50 — `l, ctx.Error = ctx.Writer.Write(data); return l > 0, ctx.Error`.
(The returned error is `ctx.Error`; it is not part of the result here.) -/
def valueWrite (data : Bytes) : Prog Bool := do
  let r ← Do.write data
  Do.setErr r.2
  return decide (r.1 > 0)

mutual
/-- value.go:35-51 — `Value.render`.  The result is `l > 0`; the returned error is always `ctx.Error`. -/
def renderValue : Value → Prog Bool
  | .mk _ (some d) _ => do
    let data ← runDyn d
    valueWrite data
  | .mk value none concats =>
    match concats with
    | [] => valueWrite value
    | c :: cs => do
      let written ← renderValue c
      let l ← renderConcats cs (if written then 1 else 0)
      return decide (l > 0)
/-- value.go:42-46 — the loop over `v.concats` with its counter `l` (`ctx.Error` is assigned the error returned
by `concat.render`, which is `ctx.Error` already). -/
def renderConcats : List Value → Nat → Prog Nat
  | [], l => return l
  | c :: cs, l => do
    let written ← renderValue c
    renderConcats cs (if written then l + 1 else l)
end

/-- The loops `for _, v := range values { _, _ = v.render(ctx) }` (attribute.go:19-21, comment.go:16-18,
fragment.go:25-27, text.go:22-24, pi.go:19-21, imperative.go:126-128). -/
def renderValues : List Value → Prog Unit
  | [] => return ()
  | v :: vs => do
    let _ ← renderValue v
    renderValues vs

/-- attribute.go:113-118 — the loop of `(*delimitedAttribute).Render` with its flag `something`. -/
def renderDelimValues (delimiter : Bytes) : List Value → (something : Bool) → Prog Unit
  | [], _ => return ()
  | v :: vs, something => do
    Prog.when something (ctxWrite delimiter)
    let something ← renderValue v
    renderDelimValues delimiter vs something

/-- attribute.go:108-119 — `(*delimitedAttribute).Render` on the given fields. -/
def renderDelim (name delimiter : Bytes) (values : List Value) : Prog Unit := do
  ctxWrite b%" "
  ctxWrite name
  ctxWrite b%"=\""
  renderDelimValues delimiter values false
  ctxWrite b%"\""

/-- attribute.go:15-22 — `(*attribute).Render`. -/
def renderPlain (name : Bytes) (values : List Value) : Prog Unit := do
  ctxWrite b%" "
  ctxWrite name
  ctxWrite b%"=\""
  renderValues values
  ctxWrite b%"\""

/-- attribute.go:64-66 — `(*booleanAttribute).Render`. -/
def renderBool (name : Bytes) : Prog Unit := do
  ctxWrite b%" "
  ctxWrite name

/-- attribute.go:15-24, 64-68, 108-121 — `Render` of an attribute node (the returned error is `ctx.Error`). -/
def renderAttr : Attr → Prog Unit
  | .plain name values => renderPlain name values
  | .bool name => renderBool name
  | .delim name delimiter ref => do
    let c ← Do.ctx
    renderDelim name delimiter (c.dl ref)

/-- A `ConditionalFunc` call; the closures of `When` are conditional.go:92-100 and 102-110. -/
def runCond : Cond → Prog Bool
  | .user f => Do.cond f
  | .has k => do
    let c ← Do.ctx
    match c.lookup k with
    | some (.bool b) => return b
    | some _ => return true
    | none => return false
  | .hasNot k => do
    let c ← Do.ctx
    match c.lookup k with
    | some (.bool b) => return !b
    | some _ => return false
    | none => return true

/-- conditional.go:21-28 — `conditionalAttribute.evaluate`. -/
def evalConds : List Cond → Prog Bool
  | [] => return true
  | c :: cs => do
    let b ← runCond c
    if b then evalConds cs else return false

/-- conditional.go:37 — `result[name] = append(result[name], a)` on a map given by its entries. -/
def addEvaluated (name : Bytes) (a : Attr) : List (Bytes × List Attr) → List (Bytes × List Attr)
  | [] => [(name, [a])]
  | (n, as) :: rest => if n = name then (n, as ++ [a]) :: rest else (n, as) :: addEvaluated name a rest

/-- conditional.go:32-41 — `conditionalAttributes.evaluate`; the result map is given by its entries. -/
def evaluate : List CondAttr → List (Bytes × List Attr) → Prog (List (Bytes × List Attr))
  | [], result => return result
  | a :: rest, result => do
    let b ← evalConds a.conditions
    evaluate rest (if b then addEvaluated a.att.name a.att result else result)

/-- element.go:21-23, 43-45 — `if et, ok := e.(valuesNode); ok { ... et.getValues() ... }`: the values of an
attribute; a boolean attribute is not a `valuesNode` and contributes none. -/
def Attr.values (dl : Nat → List Value) : Attr → List Value
  | .plain _ vs => vs
  | .bool _ => []
  | .delim _ _ r => dl r

/-- element.go:14-28 and 36-50 — writing one attribute in effect: `att` decides, `merged` are the attributes
whose values are added to it when it is delimited, `last` is rendered otherwise. -/
def renderChosen (att : Attr) (merged : List Attr) (last : Attr) : Prog Unit :=
  match att with
  | .delim name delimiter r => do
    let c ← Do.ctx
    renderDelim name delimiter (c.dl r ++ merged.flatMap (Attr.values c.dl))
  | _ => renderAttr last

/-- element.go:12-31 — one round of the loop over `attIndices`.
An index outside `attributes` would panic; here it is skipped (see `Spec.WFHead`: it never happens). -/
def renderStatic (h : ElemHead) (evaluated : List (Bytes × List Attr)) (name : Bytes) : Prog Unit :=
  match h.attIndices.lookup name with
  | none => return ()
  | some index =>
    match h.attributes[index]? with
    | none => return ()
    | some att =>
      match evaluated.lookup name with
      | some eAttr => renderChosen att eAttr (eAttr.getLast?.getD att)
      | none => renderAttr att

/-- element.go:11-32 — the loop over `attIndices`; `names` is the order in which its keys are visited. -/
def renderStatics (h : ElemHead) (evaluated : List (Bytes × List Attr)) : (names : List Bytes) → Prog Unit
  | [] => return ()
  | name :: names => do
    renderStatic h evaluated name
    renderStatics h evaluated names

/-- element.go:34-51 — one round of the loop over `evaluated`. -/
def renderExtra (h : ElemHead) (evaluated : List (Bytes × List Attr)) (name : Bytes) : Prog Unit :=
  match h.attIndices.lookup name, evaluated.lookup name with
  | none, some (first :: others) => renderChosen first others ((first :: others).getLast?.getD first)
  | _, _ => return ()

/-- element.go:33-52 — the loop over `evaluated`. -/
def renderExtras (h : ElemHead) (evaluated : List (Bytes × List Attr)) : (names : List Bytes) → Prog Unit
  | [] => return ()
  | name :: names => do
    renderExtra h evaluated name
    renderExtras h evaluated names

/-- element.go:56-58 — the loop over `attributes`. -/
def renderAttrs : List Attr → Prog Unit
  | [] => return ()
  | a :: as => do
    renderAttr a
    renderAttrs as

/-- element.go:7-59 — `renderAttributes`. -/
def renderAttributes (h : ElemHead) : Prog Unit := do
  if h.conditionals.length > 0 then
    let evaluated ← evaluate h.conditionals []
    if evaluated.length > 0 then
      let names ← Do.order (h.attIndices.map (·.1))
      renderStatics h evaluated names
      let names ← Do.order (evaluated.map (·.1))
      renderExtras h evaluated names
    else renderAttrs h.attributes
  else renderAttrs h.attributes

/-- element.go:69-72, 129-132 — the start tag. -/
def renderStartTag (h : ElemHead) : Prog Unit := do
  ctxWrite b%"<"
  ctxWrite h.name
  renderAttributes h
  ctxWrite b%">"

/-- element.go:136-138, imperative.go:141-143 and 150-152 — an end tag. -/
def renderEndTag (name : Bytes) : Prog Unit := do
  ctxWrite b%"</"
  ctxWrite name
  ctxWrite b%">"

/-- aitch.go:18 — The type of `Node.Render`: a program returning the error. -/
abbrev Render := Node → Prog (Option Err)

/-- element.go:133-135 — `for _, c := range e.contents { ctx.Error = c.Render(ctx) }`. -/
def contentLoop {ν : Type} (rec : ν → Prog (Option Err)) : List ν → Prog Unit
  | [] => return ()
  | c :: cs => do
    let e ← rec c
    Do.setErr e
    contentLoop rec cs

/-- collection.go:12-18 — the loop over the non-attribute nodes that stops at the first error. -/
def collectionLoop (rec : Render) : List Node → Prog Unit
  | [] => return ()
  | n :: ns =>
    if n.isAttr then collectionLoop rec ns
    else do
      let e ← rec n
      Do.setErr e
      match e with
      | some _ => return ()
      | none => collectionLoop rec ns

/-- conditional.go:45-49 — the loop that stops at the first error. -/
def conditionalLoop {ν : Type} (rec : ν → Prog (Option Err)) : List ν → Prog Unit
  | [] => return ()
  | n :: ns => do
    let e ← rec n
    Do.setErr e
    match e with
    | some _ => return ()
    | none => conditionalLoop rec ns

/-- collection.go:48-52, imperative.go:71-75 — rendering nodes, skipping nil and attributes and ignoring the
returned errors. -/
def ignoreLoop (rec : Render) : List (Option Node) → Prog Unit
  | [] => return ()
  | none :: ns => ignoreLoop rec ns
  | some n :: ns =>
    if n.isAttr then ignoreLoop rec ns
    else do
      let _ ← rec n
      ignoreLoop rec ns

/-- html/document.go:14-19 — rendering all nodes, ignoring the returned errors. -/
def documentLoop {ν : Type} (rec : ν → Prog (Option Err)) : List ν → Prog Unit
  | [] => return ()
  | n :: ns => do
    let _ ← rec n
    documentLoop rec ns

/-! ### Imperative -/

/-- imperative.go:89-94 and 106-111 — appending the values of a delimited attribute to `avs`, each preceded by
the delimiter when `avs` is not empty.  (At 106-111 the test is `i > 0`; there `avs` starts empty, so it is the
same test.)  `none` is a nil slice.  (The `append` may write into spare capacity of a plain attribute's value
array, beyond its length; Model/StartSlice has the slices, and C73 shows that they hold what is said here unless another
`Start` call with the same attribute comes between the collecting and the writing.) -/
def startDelim (delimiter : Bytes) : List Value → Option (List Value) → Option (List Value)
  | [], avs => avs
  | v :: vs, avs =>
    let l := avs.getD []
    startDelim delimiter vs (some ((if l.length > 0 then l ++ [.mk delimiter none []] else l) ++ [v]))

/-- imperative.go:85-119 — one round of the loop over `attrs`.  The parallel slices `attNames` and `attValues`
with the map `attIndices` are one list of entries without repeated names; a nil value slice is `none`. -/
def startAdd (dl : Nat → List Value) (a : Attr) :
    List (Bytes × Option (List Value)) → List (Bytes × Option (List Value))
  | [] =>
    match a with
    | .delim n d r => [(n, startDelim d (dl r) (some []))]
    | .plain n vs => [(n, some vs)]
    | .bool n => [(n, none)]
  | (n, avs) :: rest =>
    if n = a.name then
      match a with
      | .delim _ d r => (n, startDelim d (dl r) avs) :: rest
      | .plain _ vs => (n, some vs) :: rest
      | .bool _ => (n, none) :: rest
    else (n, avs) :: startAdd dl a rest

/-- imperative.go:84-120 — the loop over `attrs`, skipping nil and non-attribute nodes. -/
def startCollect (dl : Nat → List Value) :
    List (Option Node) → List (Bytes × Option (List Value)) → List (Bytes × Option (List Value))
  | [], acc => acc
  | some (.attr a) :: rest, acc => startCollect dl rest (startAdd dl a acc)
  | _ :: rest, acc => startCollect dl rest acc

/-- imperative.go:124-130 — writing the value of one attribute, if any. -/
def startWriteValue : Option (List Value) → Prog Unit
  | none => return ()
  | some vs => do
    ctxWrite b%"=\""
    renderValues vs
    ctxWrite b%"\""

/-- imperative.go:121-131 — writing the collected attributes. -/
def startWrite : List (Bytes × Option (List Value)) → Prog Unit
  | [] => return ()
  | (n, vs) :: rest => do
    ctxWrite b%" "
    ctxWrite n
    startWriteValue vs
    startWrite rest

/-- imperative.go:78-132 — the output of `Start`. -/
def startTag (name : Bytes) (attrs : List (Option Node)) : Prog Unit := do
  ctxWrite b%"<"
  ctxWrite name
  let c ← Do.ctx
  startWrite (startCollect c.dl attrs [])
  ctxWrite b%">"

/-- imperative.go:149-153 — the loop of `EndAll`; the stack is a list with the last opened element first. -/
def endAll : List Bytes → Prog Unit
  | [] => return ()
  | n :: ns => do
    renderEndTag n
    endAll ns

/-- imperative.go:62-155 — one method call on an `imperativeContext`, whose `openedStack` is `stack` (last opened
first); the result is the new stack. -/
def runOp (rec : Render) : ImpOp → (stack : List Bytes) → Prog (List Bytes)
  | .writeString d, stack => do
    ctxWrite (htmlEscapeString d)
    return stack
  | .writeRaw d, stack => do
    ctxWrite d
    return stack
  | .writeNodes ns, stack => do
    ignoreLoop rec ns
    return stack
  | .start n isVoid attrs, stack => do
    startTag n attrs
    return if isVoid then stack else n :: stack
  | .end, stack =>
    match stack with
    | [] => return []
    | n :: stack => do
      renderEndTag n
      return stack
  | .endAll, stack => do
    endAll stack
    return []

/-- imperative.go:40 — running the user's function on an `imperativeContext`. -/
def runImp (rec : Render) : ImpProg → (stack : List Bytes) → Prog (Option Err)
  | .ret e, _ => return e
  | .user upd k, stack => do
    let s ← Do.user upd
    runImp rec (k s) stack
  | .call op k, stack => do
    let stack ← runOp rec op stack
    let s ← Do.look
    runImp rec (k s) stack
  | .render n k, stack => do
    let e ← rec n
    let s ← Do.look
    runImp rec (k e s) stack
  | .write data k, stack => do
    let r ← Do.write data
    let s ← Do.look
    runImp rec (k r s) stack

/-! ### Iteration -/

/-- iterate.go:45-59 — the items found under a key by `IterateKey`: `[]any`, or any other slice through
reflection (a `[]byte` is a slice of uint8). -/
def keyItems (k : Bytes) (c : Ctx) : List Any :=
  match (c.lookup k).map Any.beneath with
  | some (.anySlice xs) => xs
  | some (.slice _ xs) => xs
  | some (.bytes bs) => bs.map fun b => .int .uint8 b.toNat
  | _ => []

/-- iterate.go:80 — `i.fn(ctx)`. -/
def runItems : ItemSrc → Prog (List Any)
  | .user f => Do.items f
  | .key k => do
    let c ← Do.ctx
    return keyItems k c

/-- iterate.go:93-98, 159-164 — the nodes of one item, up to the first that returns an error. -/
def iterNodes {ν : Type} (rec : ν → Prog (Option Err)) : List ν → Prog (Option Err)
  | [] => return none
  | n :: ns => do
    let e ← rec n
    match e with
    | some e => return some e
    | none => iterNodes rec ns

/-- iterate.go:86-99 — the loop over the items; `data` is `ctx.Data`. -/
def iterItems {ν : Type} (rec : ν → Prog (Option Err)) (nodes : List ν) (data : Option MapId) :
    List Any → Prog (Option Err)
  | [] => return none
  | it :: its => do
    Do.setItem it (match it with
      | .map m => some m
      | _ => data)
    let e ← iterNodes rec nodes
    match e with
    | some e => return some e
    | none => iterItems rec nodes data its

/-- iterate.go:76-102 — `(*iterator).Render`. -/
def renderIterator {ν : Type} (rec : ν → Prog (Option Err)) (nodes : List ν) (fn : ItemSrc) : Prog (Option Err) := do
  let c ← Do.ctx
  match c.frame.err with
  | some e => return some e
  | none => do
    let items ← runItems fn
    match items with
    | [] => return none
    | items => do
      let c ← Do.ctx
      Do.enter { err := c.frame.err, data := none, cargo := .nil }
      let e ← iterItems rec nodes c.frame.data items
      let _ ← Do.leave
      match e with
      | some e => do
        Do.setErr (some e)
        return some e
      | none => return none

/-- iterate.go:160-161 — `if err != nil { ctx.Error = err }`. -/
def setErrIf : Option Err → Prog Unit
  | some e => Do.setErr (some e)
  | none => return ()

/-- iterate.go:154-165 — running the user's function with the yield closure; `child` is `ictx`.
(Calling yield again from within a node rendered by yield is not modelled.) -/
def runYield {ν : Type} (rec : ν → Prog (Option Err)) (nodes : List ν) : YieldProg → (child : Frame) → Prog Unit
  | .done, _ => return ()
  | .user upd k, child => do
    let s ← Do.user upd
    runYield rec nodes (k s) child
  | .write data k, child => do
    let r ← Do.write data
    let s ← Do.look
    runYield rec nodes (k r s) child
  | .yield it k, child => do
    Do.enter child
    Do.setItem it (match it with
      | .map m => some m
      | _ => child.data)
    let e ← iterNodes rec nodes
    let child ← Do.leave
    setErrIf e
    let s ← Do.look
    runYield rec nodes (k s) child

/-- iterate.go:145-167 — `(*yieldIterator).Render`. -/
def renderYield {ν : Type} (rec : ν → Prog (Option Err)) (nodes : List ν) (f : FnId) : Prog (Option Err) := do
  let c ← Do.ctx
  match c.frame.err with
  | some e => return some e
  | none => do
    let prog ← Do.yields f
    runYield rec nodes prog { err := c.frame.err, data := none, cargo := .nil }
    retErr

/-! ### Render -/

/-- aitch.go:18 (the lines of each type are named below) — The `Render` methods of all node types, with `rec` for the
calls of `Render` on other nodes. -/
def renderStep (rec : Render) : Render
  -- element.go:128-140
  | .element h contents => do
    renderStartTag h
    contentLoop rec contents
    renderEndTag h.name
    retErr
  -- element.go:68-74
  | .voidElement h => do
    renderStartTag h
    retErr
  -- attribute.go:15-24, 64-68, 108-121
  | .attr a => do
    renderAttr a
    retErr
  -- text.go:21-26
  | .text vs => do
    renderValues vs
    retErr
  -- comment.go:14-21
  | .comment vs => do
    ctxWrite b%"<!--"
    renderValues vs
    ctxWrite b%"-->"
    retErr
  -- fragment.go:24-29
  | .fragment vs => do
    renderValues vs
    retErr
  -- pi.go:15-24
  | .pi name vs => do
    ctxWrite b%"<!"
    ctxWrite name
    ctxWrite b%" "
    renderValues vs
    ctxWrite b%">\n"
    retErr
  -- collection.go:11-20
  | .collection ns => do
    collectionLoop rec ns
    retErr
  -- conditional.go:43-52
  | .conditional ns _ fn => do
    let b ← runCond fn
    Prog.when b (conditionalLoop rec ns)
    retErr
  -- collection.go:47-54
  | .collector f => do
    let ns ← Do.collect f
    ignoreLoop rec ns
    retErr
  -- imperative.go:38-43
  | .imperative none => return none
  | .imperative (some f) => do
    let prog ← Do.imp f
    runImp rec prog []
  -- iterate.go:76-102
  | .iterator ns fn => renderIterator rec ns fn
  -- iterate.go:145-167
  | .yieldIterator ns f => renderYield rec ns f
  -- html/document.go:13-21
  | .document prologue contents => do
    documentLoop rec (prologue.toList ++ contents)
    retErr

/-- aitch.go:18 — `Node.Render` with a bound on the depth of nested calls (stuck when the bound is hit). -/
def renderProg : Nat → Render
  | 0 => fun _ => .stuck
  | fuel + 1 => renderStep (renderProg fuel)

/-- aitch.go:18 — Calling `n.Render(ctx)` in state `s`: the returned error and the new state. -/
def render (env : Env) (fuel : Nat) (n : Node) (s : St) : Option (Option Err × St) :=
  exec env (renderProg fuel n) s

end Aitch

import Verif.Model.Construct
import Verif.Model.Render
/-
Attribute types of the user's own: nodes whose `Type()` is `AttributeNode` but which are none of the three attribute types
of the package.  The type switches on attributes (element.go:15, 21, 37, 43, 91, 157, imperative.go:87, 96, 105, 114) find
neither a `*delimitedAttribute` nor a `valuesNode` in them (`getValues` is not exported).

The nodes here are those of Types.lean with such attributes added; nodes that neither have attributes nor contain nodes with
attributes are those of Types.lean.  Nodes returned by user functions have no such attributes.
-/
namespace Aitch.Own

/-- aitch.go:16-23 — an attribute node: of the package, or of the user's own.  Of the latter the code calls `Name`, which is
taken to be constant, and `Render`, whose result it ignores. -/
inductive OAttr where
  | std (a : Attr)
  | own (name : Bytes) (render : Prog Unit)

/-- aitch.go:22 — `Name()`. -/
def OAttr.name : OAttr → Bytes
  | .std a => a.name
  | .own n _ => n

/-- conditional.go:16-19 — `conditionalAttribute`. -/
structure OCondAttr where
  att : OAttr
  conditions : List Cond

/-- element.go:61-66,120-126 — the fields of `voidElement` and `element` (see `ElemHead`). -/
structure OHead where
  name : Bytes
  attributes : List OAttr
  attIndices : List (Bytes × Nat)
  conditionals : List OCondAttr

/-- aitch.go:16-23 — nodes (see `Node`). -/
inductive ONode where
  /-- element.go:120-126 -/
  | element (h : OHead) (contents : List ONode)
  /-- element.go:61-66 -/
  | voidElement (h : OHead)
  /-- attribute.go, or a type of the user's own -/
  | attr (a : OAttr)
  /-- collection.go:7-9 -/
  | collection (nodes : List ONode)
  /-- conditional.go:10-14 -/
  | conditional (nodes : List ONode) (attributes : List OAttr) (fn : Cond)
  /-- iterate.go:69-72 -/
  | iterator (nodes : List ONode) (fn : ItemSrc)
  /-- iterate.go:138-141 -/
  | yieldIterator (nodes : List ONode) (f : FnId)
  /-- html/document.go:8-11, the prologue first -/
  | document (contents : List ONode)
  /-- a node of any other type -/
  | other (n : Node)

/-- element.go:237, collection.go:13, conditional.go:75, iterate.go:26, 131 — `Type() == AttributeNode`. -/
def ONode.isAttr : ONode → Bool
  | .attr _ => true
  | .other n => n.isAttr
  | _ => false

/-! ### Construction -/

/-- element.go:231 — the results of `attributesAndContents` (see `Split`). -/
structure OSplit where
  attrs : List OAttr := []
  condAttrs : List (OAttr × CondSlice) := []
  contents : List ONode := []

/-- element.go:251,252,262 — Appending results. -/
def OSplit.append (a b : OSplit) : OSplit :=
  ⟨a.attrs ++ b.attrs, a.condAttrs ++ b.condAttrs, a.contents ++ b.contents⟩

mutual
/-- element.go:236-265 — one round of the loop of `attributesAndContents` (an `other` node is no attribute, collection or
conditional). -/
def splitItem (conditions : CondSlice) : ONode → CondHeap → OSplit × CondHeap
  | .attr a, hp =>
    if conditions.len > 0 then ({ condAttrs := [(a, conditions)] }, hp) else ({ attrs := [a] }, hp)
  | .collection ns, hp =>
    let (r, hp) := splitItems conditions ns hp
    ({ attrs := r.attrs, condAttrs := r.condAttrs, contents := [.collection ns] }, hp)
  | .conditional ns as fn, hp =>
    let (newConditions, hp) := condAppend conditions fn hp
    let (r, hp) := splitItems newConditions ns hp
    ({ condAttrs := as.map (fun a => (a, newConditions)) ++ r.condAttrs, contents := [.conditional ns as fn] }, hp)
  | n, hp => ({ contents := [n] }, hp)
/-- element.go:231-268 — `attributesAndContents`. -/
def splitItems (conditions : CondSlice) : List ONode → CondHeap → OSplit × CondHeap
  | [], hp => ({}, hp)
  | n :: ns, hp =>
    let (a, hp) := splitItem conditions n hp
    let (b, hp) := splitItems conditions ns hp
    (a.append b, hp)
end

/-- element.go:192, 208 — `attributesAndContents(nil, content)`. -/
def attributesAndContents (content : List ONode) : List OAttr × List OCondAttr × List ONode :=
  let (r, hp) := splitItems ⟨0, 0, 0⟩ content ⟨fun _ => [], 1⟩
  (r.attrs, r.condAttrs.map fun (a, s) => ⟨a, hp.read s⟩, r.contents)

/-- element.go:84-102, 150-168 — `addAttributes`. -/
def addAttributes : List OAttr → OHead → (Nat → List Value) → OHead × (Nat → List Value)
  | [], e, dl => (e, dl)
  | att :: rest, e, dl =>
    match e.attIndices.lookup att.name with
    | some idx =>
      match e.attributes[idx]?, att with
      | some (.std (.delim _ _ r)), .std (.delim _ _ r') => addAttributes rest e (upd dl r (dl r ++ dl r'))
      | _, _ => addAttributes rest { e with attributes := e.attributes.set idx att } dl
    | none =>
      addAttributes rest
        { e with attIndices := e.attIndices ++ [(att.name, e.attributes.length)],
                 attributes := e.attributes ++ [att] } dl

/-- element.go:191-201 — `NewElement` (the contents are nodes; other contents become texts first, element.go:224). -/
def NewElement (name : Bytes) (contents : List ONode) (h : Heap) : ONode × Heap :=
  let (attrs, condAttrs, children) := attributesAndContents contents
  let (e, dl) := addAttributes attrs ⟨name, [], [], condAttrs⟩ h.dl
  (.element e children, ⟨dl, h.next⟩)

/-- element.go:207-216 — `NewVoidElement`. -/
def NewVoidElement (name : Bytes) (contents : List ONode) (h : Heap) : ONode × Heap :=
  let (attrs, condAttrs, _) := attributesAndContents contents
  let (e, dl) := addAttributes attrs ⟨name, [], [], condAttrs⟩ h.dl
  (.voidElement e, ⟨dl, h.next⟩)

/-- conditional.go:74-80 — the loop of `Conditional` (on nodes that are not nil). -/
def condSplit : List ONode → List ONode × List OAttr
  | [] => ([], [])
  | .attr a :: rest => ((condSplit rest).1, a :: (condSplit rest).2)
  | n :: rest => (n :: (condSplit rest).1, (condSplit rest).2)

/-- conditional.go:69-81, 89-111 — `Conditional` with a function, and `When`. -/
def Conditional (fn : Cond) (nodes : List ONode) : ONode := .conditional (condSplit nodes).1 (condSplit nodes).2 fn

/-- iterate.go:25-29, 61-65, 130-134 — the loop dropping attribute nodes. -/
def iterSplit (nodes : List ONode) : List ONode := nodes.filter fun n => !n.isAttr

/-- iterate.go:17-31, 42-67 — `Iterate` and `IterateKey`. -/
def Iterate (fn : ItemSrc) (nodes : List ONode) : ONode := .iterator (iterSplit nodes) fn

/-- iterate.go:122-136 — `IterateYield`. -/
def IterateYield (f : FnId) (nodes : List ONode) : ONode := .yieldIterator (iterSplit nodes) f

/-! ### Rendering -/

/-- element.go:25, 29, 47, 57 — `_ = attr.Render(ctx)`. -/
def renderAttr : OAttr → Prog Unit
  | .std a => Aitch.renderAttr a
  | .own _ p => p

/-- conditional.go:37 — `result[name] = append(result[name], a)`. -/
def addEvaluated (name : Bytes) (a : OAttr) : List (Bytes × List OAttr) → List (Bytes × List OAttr)
  | [] => [(name, [a])]
  | (n, as) :: rest => if n = name then (n, as ++ [a]) :: rest else (n, as) :: addEvaluated name a rest

/-- conditional.go:32-41 — `conditionalAttributes.evaluate`. -/
def evaluate : List OCondAttr → List (Bytes × List OAttr) → Prog (List (Bytes × List OAttr))
  | [], result => return result
  | a :: rest, result => do
    let b ← evalConds a.conditions
    evaluate rest (if b then addEvaluated a.att.name a.att result else result)

/-- element.go:21-23, 43-45 — the values of an attribute if it is a `valuesNode`. -/
def OAttr.values (dl : Nat → List Value) : OAttr → List Value
  | .std a => a.values dl
  | .own _ _ => []

/-- element.go:14-28 and 36-50 — writing one attribute in effect. -/
def renderChosen (att : OAttr) (merged : List OAttr) (last : OAttr) : Prog Unit :=
  match att with
  | .std (.delim name delimiter r) => do
    let c ← Do.ctx
    renderDelim name delimiter (c.dl r ++ merged.flatMap (OAttr.values c.dl))
  | _ => renderAttr last

/-- element.go:12-31 — one round of the loop over `attIndices`. -/
def renderStatic (h : OHead) (evaluated : List (Bytes × List OAttr)) (name : Bytes) : Prog Unit :=
  match h.attIndices.lookup name with
  | none => return ()
  | some index =>
    match h.attributes[index]? with
    | none => return ()
    | some att =>
      match evaluated.lookup name with
      | some eAttr => renderChosen att eAttr (eAttr.getLast?.getD att)
      | none => renderAttr att

/-- element.go:11-32 — the loop over `attIndices`. -/
def renderStatics (h : OHead) (evaluated : List (Bytes × List OAttr)) : (names : List Bytes) → Prog Unit
  | [] => return ()
  | name :: names => do
    renderStatic h evaluated name
    renderStatics h evaluated names

/-- element.go:34-51 — one round of the loop over `evaluated`. -/
def renderExtra (h : OHead) (evaluated : List (Bytes × List OAttr)) (name : Bytes) : Prog Unit :=
  match h.attIndices.lookup name, evaluated.lookup name with
  | none, some (first :: others) => renderChosen first others ((first :: others).getLast?.getD first)
  | _, _ => return ()

/-- element.go:33-52 — the loop over `evaluated`. -/
def renderExtras (h : OHead) (evaluated : List (Bytes × List OAttr)) : (names : List Bytes) → Prog Unit
  | [] => return ()
  | name :: names => do
    renderExtra h evaluated name
    renderExtras h evaluated names

/-- element.go:56-58 — the loop over `attributes`. -/
def renderAttrs : List OAttr → Prog Unit
  | [] => return ()
  | a :: as => do
    renderAttr a
    renderAttrs as

/-- element.go:7-59 — `renderAttributes`. -/
def renderAttributes (h : OHead) : Prog Unit := do
  if h.conditionals.length > 0 then
    let evaluated ← evaluate h.conditionals []
    if evaluated.length > 0 then
      let names ← Do.order (h.attIndices.map (·.1))
      renderStatics h evaluated names
      let names ← Do.order (evaluated.map (·.1))
      renderExtras h evaluated names
    else renderAttrs h.attributes
  else renderAttrs h.attributes

/-- element.go:69-72, 129-132 — the start tag. -/
def renderStartTag (h : OHead) : Prog Unit := do
  ctxWrite b%"<"
  ctxWrite h.name
  renderAttributes h
  ctxWrite b%">"

/-- collection.go:12-18 — the loop over the non-attribute nodes that stops at the first error. -/
def collectionLoop (rec : ONode → Prog (Option Err)) : List ONode → Prog Unit
  | [] => return ()
  | n :: ns =>
    if n.isAttr then collectionLoop rec ns
    else do
      let e ← rec n
      Do.setErr e
      match e with
      | some _ => return ()
      | none => collectionLoop rec ns

/-- aitch.go:18 — the `Render` methods (see `renderStep` and `renderProg`).  An attribute that is rendered by itself is one of
the package or returns `ctx.Error` as those do; the code never uses that result. -/
def renderProg : Nat → ONode → Prog (Option Err)
  | 0, _ => .stuck
  -- element.go:128-140
  | fuel + 1, .element h contents => do
    renderStartTag h
    contentLoop (renderProg fuel) contents
    renderEndTag h.name
    retErr
  -- element.go:68-74
  | _ + 1, .voidElement h => do
    renderStartTag h
    retErr
  -- attribute.go
  | _ + 1, .attr a => do
    renderAttr a
    retErr
  -- collection.go:11-20
  | fuel + 1, .collection ns => do
    collectionLoop (renderProg fuel) ns
    retErr
  -- conditional.go:43-52
  | fuel + 1, .conditional ns _ fn => do
    let b ← runCond fn
    Prog.when b (conditionalLoop (renderProg fuel) ns)
    retErr
  -- iterate.go:76-102
  | fuel + 1, .iterator ns fn => renderIterator (renderProg fuel) ns fn
  -- iterate.go:145-167
  | fuel + 1, .yieldIterator ns f => renderYield (renderProg fuel) ns f
  -- html/document.go:13-21
  | fuel + 1, .document contents => do
    documentLoop (renderProg fuel) contents
    retErr
  -- the other types
  | fuel + 1, .other n => Aitch.renderProg (fuel + 1) n

/-! ### Start -/

/-- imperative.go:85-119 — one round of the loop over `attrs` (see `startAdd`): an attribute of the user's own gets a nil value
slice. -/
def startAdd (dl : Nat → List Value) (a : OAttr) :
    List (Bytes × Option (List Value)) → List (Bytes × Option (List Value))
  | [] =>
    match a with
    | .std (.delim n d r) => [(n, startDelim d (dl r) (some []))]
    | .std (.plain n vs) => [(n, some vs)]
    | .std (.bool n) => [(n, none)]
    | .own n _ => [(n, none)]
  | (n, avs) :: rest =>
    if n = a.name then
      match a with
      | .std (.delim _ d r) => (n, startDelim d (dl r) avs) :: rest
      | .std (.plain _ vs) => (n, some vs) :: rest
      | .std (.bool _) => (n, none) :: rest
      | .own _ _ => (n, none) :: rest
    else (n, avs) :: startAdd dl a rest

/-- imperative.go:84-120 — the loop over `attrs`, skipping nil and non-attribute nodes. -/
def startCollect (dl : Nat → List Value) :
    List (Option ONode) → List (Bytes × Option (List Value)) → List (Bytes × Option (List Value))
  | [], acc => acc
  | some (.attr a) :: rest, acc => startCollect dl rest (startAdd dl a acc)
  | _ :: rest, acc => startCollect dl rest acc

/-- imperative.go:78-132 — the output of `Start`. -/
def startTag (name : Bytes) (attrs : List (Option ONode)) : Prog Unit := do
  ctxWrite b%"<"
  ctxWrite name
  let c ← Do.ctx
  startWrite (startCollect c.dl attrs [])
  ctxWrite b%">"

end Aitch.Own

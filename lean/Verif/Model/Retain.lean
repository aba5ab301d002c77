import Verif.Model.Construct
import Verif.Model.Render
/-
The nodes and constructors once more, with the `[]byte`s that they keep.

A constructor that is given a `[]byte` keeps the slice, not a copy (value.go:131, attribute.go:53,95,155,156,
element.go:194,210): what is written is what the caller's array holds when the node is rendered.  In the rest of the model
a `[]byte` is its contents.  Here a node holds `Kept` bytes, which are either bytes of its own (made by the library or
converted from a string) or those of a slice of the caller; `now` reads a node in the memory of a moment, which gives a
node of the rest of the model.
-/
namespace Aitch.Retain

/-- value.go:16, attribute.go:8,59,100,101, element.go:62,121 — A `[]byte` in a field of a node: bytes nobody else has,
or a slice (number `r`) that the caller has too. -/
inductive Kept where
  | own (b : Bytes)
  | slice (r : Nat)

/-- value.go:131 — What the caller's slices hold at some moment. -/
abbrev Mem := Nat → Bytes

/-- value.go:48, context/context.go:34 — Reading it. -/
def Kept.now (m : Mem) : Kept → Bytes
  | .own b => b
  | .slice r => m r

/-- value.go:15-19 — `Value`. -/
inductive KValue where
  | mk (value : Kept) (dynamicFunc : Option Dyn) (concats : List KValue)

/-- attribute.go:7-10,58-60,99-103 — the attribute node types, as in `Attr`. -/
inductive KAttr where
  | plain (name : Kept) (values : List KValue)
  | bool (name : Kept)
  | delim (name delimiter : Kept) (ref : Nat)

/-- conditional.go:16-19 — `conditionalAttribute`. -/
structure KCondAttr where
  att : KAttr
  conditions : List Cond

/-- element.go:61-66,120-126 — the fields shared by `voidElement` and `element`.  The keys of `attIndices` are Go
strings: copies. -/
structure KHead where
  name : Kept
  attributes : List KAttr
  attIndices : List (Bytes × Nat)
  conditionals : List KCondAttr

/-- aitch.go:16-23 — the node types, as in `Node`.  (Not here: `html.Document`, which is made of the others.) -/
inductive KNode where
  | element (h : KHead) (contents : List KNode)
  | voidElement (h : KHead)
  | attr (a : KAttr)
  | text (values : List KValue)
  | comment (values : List KValue)
  | fragment (values : List KValue)
  | pi (name : Bytes) (values : List KValue)
  | collection (nodes : List KNode)
  | conditional (nodes : List KNode) (attributes : List KAttr) (fn : Cond)
  | collector (f : FnId)
  | imperative (f : Option FnId)
  | iterator (nodes : List KNode) (fn : ItemSrc)
  | yieldIterator (nodes : List KNode) (f : FnId)

/-- value.go:76-165 — the values that hold no `[]byte` and are no `Value`, node, function or key. -/
def Fixed : Any → Prop
  | .nil | .bytes _ | .thunk _ | .value _ | .node _ | .dynFunc _ _ | .dynKey _ => False
  | _ => True

/-- value.go:76-165 — A Go value of type `any` given to a constructor, as in `Any`. -/
inductive KAny where
  | nil
  | bytes (b : Kept)
  | thunk (result : KAny)
  | value (v : KValue)
  | dynFunc (named : Bool) (f : Option FnId)
  | dynKey (k : Bytes)
  | node (n : KNode)
  | fixed (a : Any) (h : Fixed a)

/-- attribute.go:99-103 — the heap of delimited attributes. -/
structure KHeap where
  dl : Nat → List KValue
  next : Nat

/-! ### Reading nodes in the memory of a moment -/

mutual
/-- value.go:35-50 — a value, read now. -/
def KValue.now (m : Mem) : KValue → Value
  | .mk b d cs => .mk (b.now m) d (valuesNow m cs)
/-- attribute.go:20 — values, read now. -/
def valuesNow (m : Mem) : List KValue → List Value
  | [] => []
  | v :: vs => v.now m :: valuesNow m vs
end

/-- attribute.go:15-24,64-68,108-121 — an attribute, read now. -/
def KAttr.now (m : Mem) : KAttr → Attr
  | .plain n vs => .plain (n.now m) (valuesNow m vs)
  | .bool n => .bool (n.now m)
  | .delim n d r => .delim (n.now m) (d.now m) r

/-- conditional.go:21-52 — a conditional attribute, read now. -/
def KCondAttr.now (m : Mem) (c : KCondAttr) : CondAttr := ⟨c.att.now m, c.conditions⟩

/-- element.go:7-59 — the fields of an element, read now. -/
def KHead.now (m : Mem) (h : KHead) : ElemHead :=
  ⟨h.name.now m, h.attributes.map (·.now m), h.attIndices, h.conditionals.map (·.now m)⟩

mutual
/-- aitch.go:18 — a node, read now. -/
def KNode.now (m : Mem) : KNode → Node
  | .element h cs => .element (h.now m) (nodesNow m cs)
  | .voidElement h => .voidElement (h.now m)
  | .attr a => .attr (a.now m)
  | .text vs => .text (valuesNow m vs)
  | .comment vs => .comment (valuesNow m vs)
  | .fragment vs => .fragment (valuesNow m vs)
  | .pi n vs => .pi n (valuesNow m vs)
  | .collection ns => .collection (nodesNow m ns)
  | .conditional ns as fn => .conditional (nodesNow m ns) (as.map (·.now m)) fn
  | .collector f => .collector f
  | .imperative f => .imperative f
  | .iterator ns fn => .iterator (nodesNow m ns) fn
  | .yieldIterator ns f => .yieldIterator (nodesNow m ns) f
/-- aitch.go:18 — nodes, read now. -/
def nodesNow (m : Mem) : List KNode → List Node
  | [] => []
  | n :: ns => n.now m :: nodesNow m ns
end

/-- value.go:76-165 — an argument, read now. -/
def KAny.now (m : Mem) : KAny → Any
  | .nil => .nil
  | .bytes b => .bytes (b.now m)
  | .thunk r => .thunk (r.now m)
  | .value v => .value (v.now m)
  | .dynFunc named f => .dynFunc named f
  | .dynKey k => .dynKey k
  | .node n => .node (n.now m)
  | .fixed a _ => a

/-- attribute.go:99-103 — the delimited attributes, read now. -/
def KHeap.now (m : Mem) (h : KHeap) : Heap := ⟨fun r => valuesNow m (h.dl r), h.next⟩

/-! ### Values -/

/-- value.go:123-165 — `valueToBytes`: a `[]byte` is returned as it is (line 131), everything else is new. -/
def valueToBytes : KAny → Kept
  | .bytes b => b
  | .thunk r => valueToBytes r
  | .fixed a _ => .own (Aitch.valueToBytes a)
  | _ => .own []

mutual
/-- value.go:104-117 — what `newValue` returns for a `Node`. -/
def nodeValues (dl : Nat → List KValue) : KNode → List KValue
  | .attr (.plain _ vs) => vs
  | .attr (.delim _ _ r) => dl r
  | .attr (.bool _) => []
  | .text vs => vs
  | .comment vs => vs
  | .fragment vs => vs
  | .pi _ vs => vs
  | .collection ns => nodesValues dl ns
  | _ => []
/-- value.go:110-114 — the loop over the nodes of a collection. -/
def nodesValues (dl : Nat → List KValue) : List KNode → List KValue
  | [] => []
  | n :: ns => nodeValues dl n ++ nodesValues dl ns
end

/-- value.go:76-121 — `newValue`. -/
def newValue (dl : Nat → List KValue) : KAny → List KValue
  | .nil => []
  | .value v => [v]
  | .dynFunc _ f => [.mk (.own []) (f.map .user) []]
  | .dynKey k => if k = b%"." then [.mk (.own []) (some .cargo) []] else [.mk (.own []) (some (.key k)) []]
  | .node n => nodeValues dl n
  | v => [.mk (valueToBytes v) none []]

/-- value.go:66-74 — `newValues`. -/
def newValues (dl : Nat → List KValue) : List KAny → List KValue
  | [] => []
  | v :: vs =>
    match v with
    | .nil => newValues dl vs
    | v => newValue dl v ++ newValues dl vs

/-- value.go:22-28 — `NewValue`. -/
def NewValue (dl : Nat → List KValue) (v : KAny) : KValue :=
  match newValue dl v with
  | [x] => x
  | values => .mk (.own []) none values

/-- value.go:31-33 — `NewConcatValue`. -/
def NewConcatValue (dl : Nat → List KValue) (vs : List KAny) : KValue := .mk (.own []) none (newValues dl vs)

/-! ### Nodes -/

/-- attribute.go:153-165 — `NewDelimitedAttribute`. -/
def NewDelimitedAttribute (name delimiter : Kept) (values : List KAny) (h : KHeap) : KNode × KHeap :=
  (.attr (.delim name delimiter h.next),
   ⟨fun r => if r = h.next then newValues h.dl values else h.dl r, h.next + 1⟩)

/-- conditional.go:74-80 — the loop of `Conditional` (with nodes that are not nil). -/
def condSplit : List KNode → List KNode × List KAttr
  | [] => ([], [])
  | .attr a :: rest => ((condSplit rest).1, a :: (condSplit rest).2)
  | n :: rest => (n :: (condSplit rest).1, (condSplit rest).2)

/-- conditional.go:65-111 — `Conditional` and `When` (with a function that is not nil). -/
def mkConditional (fn : Cond) (nodes : List KNode) : KNode := .conditional (condSplit nodes).1 (condSplit nodes).2 fn

/-- iterate.go:25-29, 61-65, 130-134 — the loop dropping attributes (with nodes that are not nil). -/
def iterSplit : List KNode → List KNode
  | [] => []
  | .attr _ :: rest => iterSplit rest
  | n :: rest => n :: iterSplit rest

/-- element.go:231 — the results of `attributesAndContents`. -/
structure Split where
  attrs : List KAttr := []
  condAttrs : List (KAttr × CondSlice) := []
  contents : List KNode := []

/-- element.go:251,252,262 — appending results. -/
def Split.append (a b : Split) : Split :=
  ⟨a.attrs ++ b.attrs, a.condAttrs ++ b.condAttrs, a.contents ++ b.contents⟩

mutual
/-- element.go:236-265 — one round of the loop of `attributesAndContents`. -/
def splitItem (conditions : CondSlice) : KNode → CondHeap → Split × CondHeap
  | .attr a, hp =>
    if conditions.len > 0 then ({ condAttrs := [(a, conditions)] }, hp) else ({ attrs := [a] }, hp)
  | .collection ns, hp =>
    let (r, hp) := splitItems conditions ns hp
    ({ attrs := r.attrs, condAttrs := r.condAttrs, contents := [.collection ns] }, hp)
  | .conditional ns as fn, hp =>
    let (newConditions, hp) := condAppend conditions fn hp
    let (r, hp) := splitItems newConditions ns hp
    ({ condAttrs := as.map (fun a => (a, newConditions)) ++ r.condAttrs, contents := [.conditional ns as fn] }, hp)
  | n, hp => ({ contents := [n] }, hp)
/-- element.go:231-268 — `attributesAndContents`. -/
def splitItems (conditions : CondSlice) : List KNode → CondHeap → Split × CondHeap
  | [], hp => ({}, hp)
  | n :: ns, hp =>
    let (a, hp) := splitItem conditions n hp
    let (b, hp) := splitItems conditions ns hp
    (a.append b, hp)
end

/-- element.go:192, 208 — `attributesAndContents(nil, content)`. -/
def attributesAndContents (content : List KNode) : List KAttr × List KCondAttr × List KNode :=
  let (r, hp) := splitItems ⟨0, 0, 0⟩ content ⟨fun _ => [], 1⟩
  (r.attrs, r.condAttrs.map fun (a, s) => ⟨a, hp.read s⟩, r.contents)

/-- element.go:218-229 — `contentsToNodes`. -/
def contentsToNodes (dl : Nat → List KValue) (contents : List KAny) : List KNode :=
  contents.map fun
    | .node n => n
    | c => .text (newValues dl [c])

/-- attribute.go:30,74,127 — `Name()`: the bytes of the name at this moment, as a string. -/
def KAttr.name (m : Mem) : KAttr → Bytes
  | .plain n _ => n.now m
  | .bool n => n.now m
  | .delim n _ _ => n.now m

/-- element.go:84-102, 150-168 — `addAttributes`; `m` is the memory at this moment. -/
def addAttributes (m : Mem) : List KAttr → KHead → (Nat → List KValue) → KHead × (Nat → List KValue)
  | [], e, dl => (e, dl)
  | att :: rest, e, dl =>
    match e.attIndices.lookup (att.name m) with
    | some idx =>
      match e.attributes[idx]?, att with
      | some (.delim _ _ r), .delim _ _ r' =>
        addAttributes m rest e fun x => if x = r then dl r ++ dl r' else dl x
      | _, _ => addAttributes m rest { e with attributes := e.attributes.set idx att } dl
    | none =>
      addAttributes m rest
        { e with attIndices := e.attIndices ++ [(att.name m, e.attributes.length)],
                 attributes := e.attributes ++ [att] } dl

/-- element.go:191-201 — `NewElement`. -/
def NewElement (m : Mem) (name : Kept) (contents : List KAny) (h : KHeap) : KNode × KHeap :=
  let (attrs, condAttrs, children) := attributesAndContents (contentsToNodes h.dl contents)
  let (e, dl) := addAttributes m attrs ⟨name, [], [], condAttrs⟩ h.dl
  (.element e children, ⟨dl, h.next⟩)

/-- element.go:207-216 — `NewVoidElement`. -/
def NewVoidElement (m : Mem) (name : Kept) (contents : List KAny) (h : KHeap) : KNode × KHeap :=
  let (attrs, condAttrs, _) := attributesAndContents (contentsToNodes h.dl contents)
  let (e, dl) := addAttributes m attrs ⟨name, [], [], condAttrs⟩ h.dl
  (.voidElement e, ⟨dl, h.next⟩)

/-! ### Imperative -/

/-- imperative.go:30,40 — The body of a function given to `Imperative`, as in `ImpProg`; it may call `Start` with a
slice and write into its slices. -/
inductive KImp where
  | ret (e : Option Err)
  | set (r : Nat) (b : Bytes) (k : KImp)
  | user (upd : St → St) (k : St → KImp)
  | start (name : Kept) (isVoid : Bool) (attrs : List (Option Node)) (k : St → KImp)
  /-- the other methods (and `Start` with a name that nobody changes) -/
  | call (op : ImpOp) (k : St → KImp)

/-- imperative.go:146-155 — `EndAll`. -/
def endAll (m : Mem) : List Kept → Prog Unit
  | [] => return ()
  | n :: ns => do
    renderEndTag (n.now m)
    endAll m ns

/-- imperative.go:62-155 — a method call, when the caller's slices hold `m`.  `openedStack` holds the slices that `Start`
was given (line 134). -/
def runOp (rec : Render) (m : Mem) : ImpOp → (stack : List Kept) → Prog (List Kept)
  | .writeString d, stack => do
    ctxWrite (htmlEscapeString d)
    return stack
  | .writeRaw d, stack => do
    ctxWrite d
    return stack
  | .writeNodes ns, stack => do
    ignoreLoop rec ns
    return stack
  | .start n isVoid attrs, stack => do
    startTag n attrs
    return if isVoid then stack else .own n :: stack
  | .end, stack =>
    match stack with
    | [] => return []
    | n :: stack => do
      renderEndTag (n.now m)
      return stack
  | .endAll, stack => do
    endAll m stack
    return []

/-- imperative.go:40 — running the user's function on an `imperativeContext`. -/
def runImp (rec : Render) : KImp → Mem → (stack : List Kept) → Prog (Option Err)
  | .ret e, _, _ => return e
  | .set r b k, m, stack => runImp rec k (fun x => if x = r then b else m x) stack
  | .user upd k, m, stack => do
    let s ← Do.user upd
    runImp rec (k s) m stack
  | .start name isVoid attrs k, m, stack => do
    startTag (name.now m) attrs
    let s ← Do.look
    runImp rec (k s) m (if isVoid then stack else name :: stack)
  | .call op k, m, stack => do
    let stack ← runOp rec m op stack
    let s ← Do.look
    runImp rec (k s) m stack

end Aitch.Retain

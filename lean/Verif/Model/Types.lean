import Verif.Model.Basic
/-
The data of the model: values, attributes, nodes, Go `any` values, rendering state, environment.
-/
namespace Aitch

/-- value.go:56, conditional.go:8, collection.go:44, imperative.go:35, iterate.go:17,139 — Identifier of a user
supplied Go function; interpreted by `Env`. -/
abbrev FnId := Nat

/-- context/context.go:14 — Identifier of a Go map of type `map[string]any` (maps are reference types). -/
abbrev MapId := Nat

/-- context/context.go:12 — A (non-nil) Go `error` value. -/
abbrev Err := Nat

/-- value.go:15-19,56,87-103 — a non-nil `dynamicFunc` of a `Value`: a user function, or one of the two closures
that `newValue` makes for a `DynamicValueKey` (any key but ".", and "."). -/
inductive Dyn where
  | user (f : FnId)
  | key (k : Bytes)
  | cargo
deriving DecidableEq, Repr

/-- value.go:15-19 — `type Value struct { value []byte; dynamicFunc DynamicValueFunc; concats []Value }`. -/
inductive Value where
  | mk (value : Bytes) (dynamicFunc : Option Dyn) (concats : List Value)

/-- attribute.go:7-10,58-60,99-103 — the three attribute node types.  A `delimitedAttribute` is always
handled through a pointer and its `values` field is assigned after construction (element.go:91,157), so the
value list lives in a heap and `ref` is its address; `name` and `delimiter` are never assigned. -/
inductive Attr where
  | plain (name : Bytes) (values : List Value)
  | bool (name : Bytes)
  | delim (name : Bytes) (delimiter : Bytes) (ref : Nat)

/-- attribute.go:30,74,127 — `Name()` of the attribute node types. -/
def Attr.name : Attr → Bytes
  | .plain n _ => n
  | .bool n => n
  | .delim n _ _ => n

/-- conditional.go:8,92-110 — a `ConditionalFunc`: a user function or one of the closures made by `When`
for key `k` and for key `"!" ++ k`. -/
inductive Cond where
  | user (f : FnId)
  | has (k : Bytes)
  | hasNot (k : Bytes)
deriving DecidableEq, Repr

/-- conditional.go:16-19 — `conditionalAttribute`; the condition slice is read out (see Construct.lean). -/
structure CondAttr where
  att : Attr
  conditions : List Cond

/-- element.go:61-66,120-126 — the fields shared by `voidElement` and `element`.  `attIndices` is a Go map,
given here by its entries (one per key). -/
structure ElemHead where
  name : Bytes
  attributes : List Attr
  attIndices : List (Bytes × Nat)
  conditionals : List CondAttr

/-- iterate.go:17,42-59 — the item source of an `iterator`: a user function or the closure of `IterateKey`. -/
inductive ItemSrc where
  | user (f : FnId)
  | key (k : Bytes)

/-- aitch.go:16-23 — The node types of packages aitch and html, one constructor per Go type.
`attr` stands for the three attribute types.  A node of a type of the user's own, whose `Type()` is not `AttributeNode`, is
an `imperative` node here: the code only calls its `Render` method (and compares its type with `AttributeNode`).  Attribute
types of the user's own are in Model/Own. -/
inductive Node where
  /-- element.go:120-126 -/
  | element (h : ElemHead) (contents : List Node)
  /-- element.go:61-66 -/
  | voidElement (h : ElemHead)
  /-- attribute.go -/
  | attr (a : Attr)
  /-- text.go:14-16 -/
  | text (values : List Value)
  /-- comment.go:7-9 -/
  | comment (values : List Value)
  /-- fragment.go:17-19 -/
  | fragment (values : List Value)
  /-- pi.go:7-10 -/
  | pi (name : Bytes) (values : List Value)
  /-- collection.go:7-9 -/
  | collection (nodes : List Node)
  /-- conditional.go:10-14 -/
  | conditional (nodes : List Node) (attributes : List Attr) (fn : Cond)
  /-- collection.go:43-45 -/
  | collector (f : FnId)
  /-- imperative.go:34-36, `none` for a nil function -/
  | imperative (f : Option FnId)
  /-- iterate.go:69-72 -/
  | iterator (nodes : List Node) (fn : ItemSrc)
  /-- iterate.go:138-141 -/
  | yieldIterator (nodes : List Node) (f : FnId)
  /-- html/document.go:8-11 -/
  | document (prologue : Option Node) (contents : List Node)

/-- aitch.go:26-41 — `NodeType`. -/
inductive NodeType where
  | element | attrib | text | comment | pi | document | fragment
  | collection | conditional | dynamic | imperative | iterator
deriving DecidableEq, Repr

/-- The `Type()` methods (element.go:76,142; attribute.go:26,70,123; text.go:28; comment.go:23; fragment.go:31;
pi.go:26; collection.go:22,56; conditional.go:54; imperative.go:45; iterate.go:104,169; html/document.go:23). -/
def Node.type : Node → NodeType
  | .element _ _ => .element
  | .voidElement _ => .element
  | .attr _ => .attrib
  | .text _ => .text
  | .comment _ => .comment
  | .fragment _ => .fragment
  | .pi _ _ => .pi
  | .collection _ => .collection
  | .conditional _ _ _ => .conditional
  | .collector _ => .dynamic
  | .imperative _ => .imperative
  | .iterator _ _ => .iterator
  | .yieldIterator _ _ => .iterator
  | .document _ _ => .document

/-- element.go:237, conditional.go:75, collection.go:13,49, imperative.go:72,85, iterate.go:26,62,131, template.go:67
— `node.Type() == AttributeNode`. -/
def Node.isAttr (n : Node) : Bool := n.type == .attrib

/-- Go's integer types handled by `valueToBytes` (value.go:135-154). -/
inductive IntTy where
  | int | int8 | int16 | int32 | int64 | uint | uint8 | uint16 | uint32 | uint64
deriving DecidableEq, Repr

/-- A Go value of type `any`.  One constructor for every case that the code distinguishes:
the type switches of value.go:80-120 and 124-163, `contentsToNodes` (element.go:221), `IterateKey`
(iterate.go:46-57), `When` (conditional.go:94,104) and the reflection of `context.Get` (context/context.go:43-80).

Simplifications: a `func() any` is the value it returns; the text of a float (strconv.FormatFloat) and of
`String()` is part of the value; integer values are not range-checked (theorems cover all of `Int`).  A nil `func() any`
(calling it panics) is left out. -/
inductive Any where
  | nil
  | bool (b : Bool)
  | bytes (bs : Bytes)
  | str (s : Bytes)
  | int (t : IntTy) (i : Int)
  | float (is32 : Bool) (txt : Bytes)
  /-- a value of some other type (number `ty`) implementing fmt.Stringer; `value` is the same value without the method
  (what reflection finds: a slice, map, struct, pointer, ...) -/
  | stringer (ty : Nat) (out : Bytes) (value : Any)
  /-- `func() any` -/
  | thunk (result : Any)
  /-- `DynamicValueFunc` (named) or `func(*context.Context) []byte`; `none` is a nil function -/
  | dynFunc (named : Bool) (f : Option FnId)
  /-- `DynamicValueKey` -/
  | dynKey (k : Bytes)
  | value (v : Value)
  | node (n : Node)
  /-- `map[string]any` -/
  | map (m : MapId)
  /-- `[]any` -/
  | anySlice (xs : List Any)
  /-- a slice of another type (number `ty`) -/
  | slice (ty : Nat) (xs : List Any)
  /-- a map of another type (number `ty`) whose key type has kind string; `keyIsString` tells whether the key
  type is `string` itself -/
  | strMap (ty : Nat) (keyIsString : Bool) (entries : List (Bytes × Any))
  /-- a struct value of type number `ty`: for each name that reflection finds (fields, then fields of embedded
  structs), whether it is exported and its value, or `none` when it is in an embedded struct behind a nil pointer -/
  | struct (ty : Nat) (fields : List (Bytes × Option (Bool × Any)))
  /-- a pointer, nil or to a value of a concrete type (a pointer to an interface variable is `other`) -/
  | ptr (target : Option Any)
  /-- any other value (channels, named numbers, other maps, ...) of type number `ty` -/
  | other (ty : Nat)

/-- What `reflect.ValueOf(v).Kind()` looks at (iterate.go:49, context/context.go:55-59): the value, whatever its
methods. -/
def Any.beneath : Any → Any
  | .stringer _ _ v => v.beneath
  | v => v

/-- context/context.go:10-21 — the mutable fields of a `Context` (without Writer and Parent). -/
structure Frame where
  err : Option Err
  data : Option MapId
  cargo : Any

/-- context/context.go:34, value.go:39,48 — One call `Writer.Write(data)` and its result `(n, err)`. -/
structure WEvent where
  data : Bytes
  n : Nat
  err : Option Err

/-- context/context.go:10-21, attribute.go:99-103 — The memory a render reads: the contexts, the maps, the delimited
attributes, all other memory. -/
structure Ctx where
  /-- the current `*context.Context` -/
  frame : Frame
  /-- the chain of `Parent` contexts (only read by user functions) -/
  parents : List Frame
  /-- the contents of all `map[string]any` maps, as association lists -/
  maps : MapId → List (Bytes × Any)
  /-- `values` of every delimited attribute -/
  dl : Nat → List Value
  /-- first unused delimited attribute address -/
  dlNext : Nat
  /-- all other memory of the program (encoded as a number) -/
  world : Nat

/-- context/context.go:10-21 — The state of the program while rendering. -/
structure St extends Ctx where
  /-- the calls made to the writer so far, in order -/
  log : List WEvent
  /-- how many `range` loops over Go maps have run (selects the order of the next one) -/
  tick : Nat

/-- The methods of `ImperativeContext` (imperative.go:6-25) as operations; a `nil` node is `none`. -/
inductive ImpOp where
  | writeString (s : Bytes)
  | writeRaw (data : Bytes)
  | writeNodes (nodes : List (Option Node))
  | start (name : Bytes) (isVoid : Bool) (attrs : List (Option Node))
  | «end»
  | endAll

/-- imperative.go:30,40 — The body of a function given to `Imperative`: an interaction tree.  It calls methods, in
between runs arbitrary user code (`user`), and finally returns an error or nil.  What it does next may depend on the
whole state.  With the context (imperative.go:58-60) it can also call `Render` of a node, and see the error returned
(`render`), and write to the writer directly (`write`).

The `Render` method of a node type of the user's own (aitch.go:16-23) is such a function too, one that does not call the
methods of an `ImperativeContext`; see `Node`. -/
inductive ImpProg where
  | ret (e : Option Err)
  | call (op : ImpOp) (k : St → ImpProg)
  | user (upd : St → St) (k : St → ImpProg)
  | render (n : Node) (k : Option Err → St → ImpProg)
  | write (data : Bytes) (k : Nat × Option Err → St → ImpProg)

/-- iterate.go:122,154 — The body of a function given to `IterateYield`: an interaction tree of `yield(item)` calls.  In
between it runs arbitrary user code (`user`) and can write to the writer of the context (`write`), say separators. -/
inductive YieldProg where
  | done
  | yield (item : Any) (k : St → YieldProg)
  | user (upd : St → St) (k : St → YieldProg)
  | write (data : Bytes) (k : Nat × Option Err → St → YieldProg)

/-- context/context.go:18, value.go:56, conditional.go:8, collection.go:44, imperative.go:35, iterate.go:17,139,
element.go:11,33 — Everything outside the library: the writer, the user's functions, and the order in which the Go
runtime ranges over maps. -/
structure Env where
  /-- `Writer.Write`, given the calls before and the data: the returned `n` and `err` -/
  write : List WEvent → Bytes → Nat × Option Err
  /-- `DynamicValueFunc` -/
  dyn : FnId → St → Bytes × St
  /-- `ConditionalFunc` -/
  cond : FnId → St → Bool × St
  /-- the function of `ContentCollect`; a `nil` node is `none` -/
  collect : FnId → St → List (Option Node) × St
  /-- the function of `Iterate` -/
  items : FnId → St → List Any × St
  /-- the function of `IterateYield` -/
  yields : FnId → St → YieldProg
  /-- the function of `Imperative` -/
  imp : FnId → St → ImpProg
  /-- the order of the `t`-th `range` over a map with the given keys -/
  order : Nat → List Bytes → List Bytes
  /-- a `range` visits every key once -/
  order_perm : ∀ t ks, (order t ks).Perm ks

/-- value.go:38, conditional.go:23, collection.go:48, iterate.go:80,154, imperative.go:40 — Limits what a user
function can change: everything but the writer's log, the `Parent` chain and the map-order clock. -/
def St.confine (s s' : St) : St :=
  { s' with parents := s.parents, log := s.log, tick := s.tick }

/-- context/context.go:34, value.go:39,48 — What the writer has accepted: the first `n` bytes of the data of every
call. -/
def accepted (log : List WEvent) : Bytes :=
  log.flatMap fun e => e.data.take e.n

/-- context/context.go:34, value.go:39,48 — Bytes accepted by the writer in state `s`. -/
def St.out (s : St) : Bytes := accepted s.log

end Aitch

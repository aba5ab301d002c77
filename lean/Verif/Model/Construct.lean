import Verif.Model.Value
/-
Model of the functions that build nodes.

Memory used by construction is the heap of delimited attributes (`Heap`).  A function that may panic returns
`Result`; a function that may return a nil node returns `Option Node`.
-/
namespace Aitch

/-- attribute.go:99-103 — The heap of delimited attributes: `St.dl` and `St.dlNext`. -/
structure Heap where
  dl : Nat → List Value
  next : Nat

/-- attribute.go:99-103 — The memory of a program before it builds anything. -/
def Heap.empty : Heap := ⟨fun _ => [], 0⟩

/-- attribute.go:42-49, element.go:177-188, iterate.go:18-20, context/context.go:83-89 — Outcome of a Go call that may
panic. -/
inductive Result (α : Type) where
  | panic
  | val (a : α)

/-- element.go:91,157 — Assignment to one address. -/
def upd (dl : Nat → List Value) (r : Nat) (vs : List Value) : Nat → List Value :=
  fun r' => if r' = r then vs else dl r'

/-! ### Names -/

/-- aitch.go:13 — `[a-zA-Z]`. -/
def isNameStart (c : UInt8) : Bool :=
  (c%'a' ≤ c && c ≤ c%'z') || (c%'A' ≤ c && c ≤ c%'Z')

/-- aitch.go:13 — `[a-zA-Z0-9._\-:]`. -/
def isNameChar (c : UInt8) : Bool :=
  isNameStart c || (c%'0' ≤ c && c ≤ c%'9') || c == c%'.' || c == c%'_' || c == c%'-' || c == c%':'

/-- aitch.go:13 — `htmlTagRegex.MatchString`.  The classes are ASCII, so matching runes and matching bytes is
the same (an invalid or multi-byte rune is in no class). -/
def htmlTagMatch : Bytes → Bool
  | [] => false
  | c :: cs => isNameStart c && cs.all isNameChar

/-- element.go:270-285 — `voidElementNames`. -/
def voidElementNames : List Bytes :=
  [b%"area", b%"base", b%"br", b%"col", b%"embed", b%"hr", b%"img", b%"input", b%"link", b%"meta", b%"param",
   b%"source", b%"track", b%"wbr"]

/-! ### Leaf nodes -/

/-- text.go:8-12 — `Text`. -/
def Text (dl : Nat → List Value) (contents : List Any) : Node := .text (newValues dl contents)

/-- comment.go:36-40 — `Comment`. -/
def Comment (dl : Nat → List Value) (contents : List Any) : Node := .comment (newValues dl contents)

/-- fragment.go:11-15 — `Fragment`. -/
def Fragment (dl : Nat → List Value) (contents : List Any) : Node := .fragment (newValues dl contents)

/-- pi.go:35-40 — `PI`. -/
def PI (dl : Nat → List Value) (name : Bytes) (contents : List Any) : Node := .pi name (newValues dl contents)

/-- pi.go:47-49 — `DocType`. -/
def DocType (dl : Nat → List Value) : Node := PI dl b%"DOCTYPE" [.str b%"html"]

/-! ### Attributes -/

/-- attribute.go:51-56 — `NewAttribute`. -/
def NewAttribute (dl : Nat → List Value) (name : Bytes) (values : List Any) : Node :=
  .attr (.plain name (newValues dl values))

/-- attribute.go:93-97 — `NewBooleanAttribute`. -/
def NewBooleanAttribute (name : Bytes) : Node := .attr (.bool name)

/-- attribute.go:153-165 — `NewDelimitedAttribute` (its loop is the one of `newValues`). -/
def NewDelimitedAttribute (name delimiter : Bytes) (values : List Any) (h : Heap) : Node × Heap :=
  (.attr (.delim name delimiter h.next), ⟨upd h.dl h.next (newValues h.dl values), h.next + 1⟩)

/-- attribute.go:42-49 — `Attribute`; `strict` is `PanicOnInvalidName`. -/
def Attribute (strict : Bool) (dl : Nat → List Value) (name : Bytes) (values : List Any) :
    Result (Option Node) :=
  if htmlTagMatch name then .val (some (NewAttribute dl name values))
  else if strict then .panic
  else .val none

/-- attribute.go:84-91 — `BooleanAttribute`. -/
def BooleanAttribute (strict : Bool) (name : Bytes) : Result (Option Node) :=
  if htmlTagMatch name then .val (some (NewBooleanAttribute name))
  else if strict then .panic
  else .val none

/-- attribute.go:144-151 — `DelimitedAttribute`. -/
def DelimitedAttribute (strict : Bool) (name delimiter : Bytes) (values : List Any) (h : Heap) :
    Result (Option Node × Heap) :=
  if htmlTagMatch name then
    let (n, h) := NewDelimitedAttribute name delimiter values h
    .val (some n, h)
  else if strict then .panic
  else .val (none, h)

/-! ### Collections, conditionals, iteration -/

/-- collection.go:31-41 — `Collection`; nil nodes are dropped. -/
def Collection (nodes : List (Option Node)) : Node := .collection (nodes.filterMap id)

/-- collection.go:71-76 — `ContentCollect`. -/
def ContentCollect : Option FnId → Node
  | none => .collection []
  | some f => .collector f

/-- conditional.go:74-80 — the loop of `Conditional` sorting the nodes into attributes and others; a nil node
panics. -/
def condSplit : List (Option Node) → Result (List Node × List Attr)
  | [] => .val ([], [])
  | none :: _ => .panic
  | some n :: rest =>
    match condSplit rest with
    | .panic => .panic
    | .val (ns, as) =>
      match n with
      | .attr a => .val (ns, a :: as)
      | n => .val (n :: ns, as)

/-- conditional.go:69-81 — `Conditional` with a non-nil function. -/
def mkConditional (fn : Cond) (nodes : List (Option Node)) : Result Node :=
  match condSplit nodes with
  | .panic => .panic
  | .val (ns, as) => .val (.conditional ns as fn)

/-- conditional.go:65-82 — `Conditional`. -/
def Conditional (fn : Option FnId) (nodes : List (Option Node)) : Result Node :=
  match fn with
  | none => .val (Collection nodes)
  | some f => mkConditional (.user f) nodes

/-- conditional.go:89-111 — `When`. -/
def When (key : Bytes) (nodes : List (Option Node)) : Result Node :=
  match key with
  | [] => mkConditional (.has []) nodes
  | c :: key' => if c = c%'!' then mkConditional (.hasNot key') nodes else mkConditional (.has (c :: key')) nodes

/-- iterate.go:25-29, 61-65, 130-134 — the loop dropping attribute nodes; a nil node panics. -/
def iterSplit : List (Option Node) → Result (List Node)
  | [] => .val []
  | none :: _ => .panic
  | some n :: rest =>
    match iterSplit rest with
    | .panic => .panic
    | .val ns => if n.isAttr then .val ns else .val (n :: ns)

/-- iterate.go:17-31 — `Iterate`. -/
def Iterate (fn : Option FnId) (nodes : List (Option Node)) : Result Node :=
  match fn with
  | none => .panic
  | some f =>
    match iterSplit nodes with
    | .panic => .panic
    | .val ns => .val (.iterator ns (.user f))

/-- iterate.go:42-67 — `IterateKey`. -/
def IterateKey (key : Bytes) (nodes : List (Option Node)) : Result Node :=
  match iterSplit nodes with
  | .panic => .panic
  | .val ns => .val (.iterator ns (.key key))

/-- iterate.go:122-136 — `IterateYield`. -/
def IterateYield (fn : Option FnId) (nodes : List (Option Node)) : Result Node :=
  match fn with
  | none => .panic
  | some f =>
    match iterSplit nodes with
    | .panic => .panic
    | .val ns => .val (.yieldIterator ns f)

/-- imperative.go:30-32 — `Imperative`. -/
def Imperative (fn : Option FnId) : Node := .imperative fn

/-! ### Elements -/

/-- conditional.go:16-19, element.go:231,254 — A Go slice `[]ConditionalFunc`: backing array, length, capacity (it
starts at index 0 of its array). -/
structure CondSlice where
  arr : Nat
  len : Nat
  cap : Nat

/-- element.go:254 — The backing arrays of condition slices.  An array is a list of the elements written so far. -/
structure CondHeap where
  arrs : Nat → List Cond
  next : Nat

/-- conditional.go:22 — The elements of a slice. -/
def CondHeap.read (hp : CondHeap) (s : CondSlice) : List Cond := (hp.arrs s.arr).take s.len

/-- element.go:254 — Go's `append(s, c)` for one element: in place when there is spare capacity, otherwise into a new
array with capacity 1 for a nil slice and double the old one else (exact for the gc runtime up to capacity 512). -/
def condAppend (s : CondSlice) (c : Cond) (hp : CondHeap) : CondSlice × CondHeap :=
  if s.len < s.cap then
    ({ s with len := s.len + 1 },
     { hp with arrs := fun a => if a = s.arr then (hp.arrs a).take s.len ++ c :: (hp.arrs a).drop (s.len + 1)
                                else hp.arrs a })
  else
    ({ arr := hp.next, len := s.len + 1, cap := if s.cap = 0 then 1 else 2 * s.cap },
     { arrs := fun a => if a = hp.next then hp.read s ++ [c] else hp.arrs a, next := hp.next + 1 })

/-- element.go:231 — the results of `attributesAndContents`, conditions still as slices. -/
structure Split where
  attrs : List Attr := []
  condAttrs : List (Attr × CondSlice) := []
  contents : List Node := []

/-- element.go:251,252,262 — Appending results. -/
def Split.append (a b : Split) : Split :=
  ⟨a.attrs ++ b.attrs, a.condAttrs ++ b.condAttrs, a.contents ++ b.contents⟩

mutual
/-- element.go:236-265 — one round of the loop of `attributesAndContents`.  (Nodes are not nil here: nil nodes
are filtered or turned into text by the callers.) -/
def splitItem (conditions : CondSlice) : Node → CondHeap → Split × CondHeap
  | .attr a, hp =>
    if conditions.len > 0 then ({ condAttrs := [(a, conditions)] }, hp) else ({ attrs := [a] }, hp)
  | .collection ns, hp =>
    let (r, hp) := splitItems conditions ns hp
    ({ attrs := r.attrs, condAttrs := r.condAttrs, contents := [.collection ns] }, hp)
  | .conditional ns as fn, hp =>
    let (newConditions, hp) := condAppend conditions fn hp
    let (r, hp) := splitItems newConditions ns hp
    ({ condAttrs := as.map (fun a => (a, newConditions)) ++ r.condAttrs, contents := [.conditional ns as fn] }, hp)
  | n, hp => ({ contents := [n] }, hp)
/-- element.go:231-268 — `attributesAndContents`. -/
def splitItems (conditions : CondSlice) : List Node → CondHeap → Split × CondHeap
  | [], hp => ({}, hp)
  | n :: ns, hp =>
    let (a, hp) := splitItem conditions n hp
    let (b, hp) := splitItems conditions ns hp
    (a.append b, hp)
end

/-- element.go:192, 208 — `attributesAndContents(nil, content)`: attributes, conditional attributes (with the
conditions their slices hold in the end) and contents. -/
def attributesAndContents (content : List Node) : List Attr × List CondAttr × List Node :=
  let (r, hp) := splitItems ⟨0, 0, 0⟩ content ⟨fun _ => [], 1⟩
  (r.attrs, r.condAttrs.map fun (a, s) => ⟨a, hp.read s⟩, r.contents)

/-- element.go:218-229 — `contentsToNodes`. -/
def contentsToNodes (dl : Nat → List Value) (contents : List Any) : List Node :=
  contents.map fun
    | .node n => n
    | c => Text dl [c]

/-- element.go:84-102, 150-168 — `addAttributes`. -/
def addAttributes : List Attr → ElemHead → (Nat → List Value) → ElemHead × (Nat → List Value)
  | [], e, dl => (e, dl)
  | att :: rest, e, dl =>
    match e.attIndices.lookup att.name with
    | some idx =>
      match e.attributes[idx]?, att with
      | some (.delim _ _ r), .delim _ _ r' => addAttributes rest e (upd dl r (dl r ++ dl r'))
      | _, _ => addAttributes rest { e with attributes := e.attributes.set idx att } dl
    | none =>
      addAttributes rest
        { e with attIndices := e.attIndices ++ [(att.name, e.attributes.length)],
                 attributes := e.attributes ++ [att] } dl

/-- element.go:191-201 — `NewElement`. -/
def NewElement (name : Bytes) (contents : List Any) (h : Heap) : Node × Heap :=
  let (attrs, condAttrs, children) := attributesAndContents (contentsToNodes h.dl contents)
  let (e, dl) := addAttributes attrs ⟨name, [], [], condAttrs⟩ h.dl
  (.element e children, ⟨dl, h.next⟩)

/-- element.go:207-216 — `NewVoidElement`. -/
def NewVoidElement (name : Bytes) (contents : List Any) (h : Heap) : Node × Heap :=
  let (attrs, condAttrs, _) := attributesAndContents (contentsToNodes h.dl contents)
  let (e, dl) := addAttributes attrs ⟨name, [], [], condAttrs⟩ h.dl
  (.voidElement e, ⟨dl, h.next⟩)

/-- element.go:177-188 — `Element`. -/
def Element (strict : Bool) (name : Bytes) (contents : List Any) (h : Heap) : Result (Option Node × Heap) :=
  if htmlTagMatch name then
    let (n, h) := if voidElementNames.contains name then NewVoidElement name contents h
                  else NewElement name contents h
    .val (some n, h)
  else if strict then .panic
  else .val (none, h)

/-- element.go:110-118 — `VoidElement`. -/
def VoidElement (strict : Bool) (name : Bytes) (contents : List Any) (h : Heap) : Result (Option Node × Heap) :=
  if htmlTagMatch name then
    let (n, h) := NewVoidElement name contents h
    .val (some n, h)
  else if strict then .panic
  else .val (none, h)

end Aitch

import Verif.Model.Construct
import Verif.Model.Library
/-
Model of the constructors with arguments that call the user's code: `func() any` and `String()`.

In the rest of the model such an argument is the value that it returns.  Here it is a function of the state `W` of the
program, which it may change.  A constructor that runs gives its result, the new state and the calls that it made.
Simplification: the functions called do not change delimited attributes that exist already.
-/
namespace Aitch.Live

/-- value.go:76-165 — An argument: a `func() any`, a value with a `String` method (of none of the types that come before
fmt.Stringer in value.go:125-159, and no `Value`, function, key or node), or any other value. -/
inductive Arg where
  | any (v : Any)
  | func (f : FnId)
  | stringer (f : FnId)

/-- value.go:160,162 — The user's functions and `String` methods. -/
structure Code (W : Type) where
  func : FnId → W → Arg × W
  string : FnId → W → Bytes × W

/-- value.go:160,162 — A call of a function or a `String` method. -/
inductive Call where
  | func (f : FnId)
  | string (f : FnId)
deriving DecidableEq

/-- value.go:66-165 — A constructor that runs: from a state to its result, the next state and the calls it made; `none`
when it needs more than the given fuel. -/
def Build (W α : Type) : Type := W → Option (α × W × List Call)

/-- value.go:69 — To return a result. -/
def Build.ret {W α : Type} (a : α) : Build W α := fun w => some (a, w, [])

/-- value.go:68-72 — One thing after the other. -/
def Build.andThen {W α β : Type} (m : Build W α) (k : α → Build W β) : Build W β := fun w =>
  match m w with
  | none => none
  | some (a, w, cs) =>
    match k a w with
    | none => none
    | some (b, w, cs') => some (b, w, cs ++ cs')

instance {W : Type} : Monad (Build W) where
  pure := Build.ret
  bind := Build.andThen

variable {W : Type} (L : Code W) (fuel : Nat)

/-- value.go:160 — `vt.String()`. -/
def callString (f : FnId) : Build W Bytes := fun w => some ((L.string f w).1, (L.string f w).2, [.string f])

/-- value.go:162 — `vt()`. -/
def callFunc (f : FnId) : Build W Arg := fun w => some ((L.func f w).1, (L.func f w).2, [.func f])

/-- value.go:123-165 — `valueToBytes`.  A function may return a function. -/
def valueToBytes : Nat → Arg → Build W Bytes
  | _, .any v => return Aitch.valueToBytes v
  | _, .stringer f => callString L f
  | 0, .func _ => fun _ => none
  | n + 1, .func f => do
    let r ← callFunc L f
    valueToBytes n r

/-- value.go:76-121 — `newValue`. -/
def newValue (dl : Nat → List Value) : Arg → Build W (List Value)
  | .any v => return Aitch.newValue dl v
  | v => do
    let b ← valueToBytes L fuel v
    return [.mk b none []]

/-- value.go:66-74 — `newValues`. -/
def newValues (dl : Nat → List Value) : List Arg → Build W (List Value)
  | [] => return []
  | v :: vs =>
    match v with
    | .any .nil => newValues dl vs
    | v => do
      let a ← newValue L fuel dl v
      let b ← newValues dl vs
      return a ++ b

/-- value.go:22-28 — `NewValue`. -/
def NewValue (dl : Nat → List Value) (v : Arg) : Build W Value := do
  let values ← newValue L fuel dl v
  match values with
  | [x] => return x
  | values => return .mk [] none values

/-- value.go:31-33 — `NewConcatValue`. -/
def NewConcatValue (dl : Nat → List Value) (vs : List Arg) : Build W Value := do
  let values ← newValues L fuel dl vs
  return .mk [] none values

/-- text.go:8-12 — `Text`. -/
def Text (dl : Nat → List Value) (contents : List Arg) : Build W Node := do
  let values ← newValues L fuel dl contents
  return .text values

/-- comment.go:36-40 — `Comment`. -/
def Comment (dl : Nat → List Value) (contents : List Arg) : Build W Node := do
  let values ← newValues L fuel dl contents
  return .comment values

/-- fragment.go:11-15 — `Fragment`. -/
def Fragment (dl : Nat → List Value) (contents : List Arg) : Build W Node := do
  let values ← newValues L fuel dl contents
  return .fragment values

/-- pi.go:35-40 — `PI`. -/
def PI (dl : Nat → List Value) (name : Bytes) (contents : List Arg) : Build W Node := do
  let values ← newValues L fuel dl contents
  return .pi name values

/-- attribute.go:51-56 — `NewAttribute`. -/
def NewAttribute (dl : Nat → List Value) (name : Bytes) (contents : List Arg) : Build W Node := do
  let values ← newValues L fuel dl contents
  return .attr (.plain name values)

/-- attribute.go:153-165 — `NewDelimitedAttribute`. -/
def NewDelimitedAttribute (name delimiter : Bytes) (contents : List Arg) (h : Heap) : Build W (Node × Heap) := do
  let values ← newValues L fuel h.dl contents
  return (.attr (.delim name delimiter h.next), ⟨upd h.dl h.next values, h.next + 1⟩)

/-- css/properties.go:670-672 — `styleAttribute`. -/
def styleAttribute (name : Bytes) (value : List Arg) (h : Heap) : Build W (Node × Heap) := do
  let v ← NewConcatValue L fuel h.dl (.any (.bytes name) :: value)
  NewDelimitedAttribute L fuel b%"style" b%"; " [.any (.value v)] h

/-- element.go:218-229 — `contentsToNodes`. -/
def contentsToNodes (dl : Nat → List Value) : List Arg → Build W (List Node)
  | [] => return []
  | .any (.node n) :: cs => do
    let ns ← contentsToNodes dl cs
    return n :: ns
  | c :: cs => do
    let n ← Text L fuel dl [c]
    let ns ← contentsToNodes dl cs
    return n :: ns

/-- element.go:191-201 — `NewElement`. -/
def NewElement (name : Bytes) (contents : List Arg) (h : Heap) : Build W (Node × Heap) := do
  let nodes ← contentsToNodes L fuel h.dl contents
  let (attrs, condAttrs, children) := attributesAndContents nodes
  let (e, dl) := addAttributes attrs ⟨name, [], [], condAttrs⟩ h.dl
  return (.element e children, ⟨dl, h.next⟩)

/-- element.go:207-216 — `NewVoidElement`. -/
def NewVoidElement (name : Bytes) (contents : List Arg) (h : Heap) : Build W (Node × Heap) := do
  let nodes ← contentsToNodes L fuel h.dl contents
  let (attrs, condAttrs, _) := attributesAndContents nodes
  let (e, dl) := addAttributes attrs ⟨name, [], [], condAttrs⟩ h.dl
  return (.voidElement e, ⟨dl, h.next⟩)

/-- attribute.go:42-49 — `Attribute`: the name comes first. -/
def Attribute (strict : Bool) (dl : Nat → List Value) (name : Bytes) (values : List Arg) :
    Build W (Result (Option Node)) :=
  if htmlTagMatch name then do
    let n ← NewAttribute L fuel dl name values
    return .val (some n)
  else if strict then return .panic
  else return .val none

/-- attribute.go:144-151 — `DelimitedAttribute`. -/
def DelimitedAttribute (strict : Bool) (name delimiter : Bytes) (values : List Arg) (h : Heap) :
    Build W (Result (Option Node × Heap)) :=
  if htmlTagMatch name then do
    let (n, h) ← NewDelimitedAttribute L fuel name delimiter values h
    return .val (some n, h)
  else if strict then return .panic
  else return .val (none, h)

/-- element.go:177-188 — `Element`. -/
def Element (strict : Bool) (name : Bytes) (contents : List Arg) (h : Heap) : Build W (Result (Option Node × Heap)) :=
  if htmlTagMatch name then do
    let (n, h) ← if voidElementNames.contains name then NewVoidElement L fuel name contents h
                 else NewElement L fuel name contents h
    return .val (some n, h)
  else if strict then return .panic
  else return .val (none, h)

/-- element.go:110-118 — `VoidElement`. -/
def VoidElement (strict : Bool) (name : Bytes) (contents : List Arg) (h : Heap) :
    Build W (Result (Option Node × Heap)) :=
  if htmlTagMatch name then do
    let (n, h) ← NewVoidElement L fuel name contents h
    return .val (some n, h)
  else if strict then return .panic
  else return .val (none, h)

end Aitch.Live

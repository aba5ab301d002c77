import Verif.Model.Escape
import Verif.Model.Types
/-
Model of value.go: conversion of Go values to bytes and to `Value`s.
-/
namespace Aitch

/-- value.go:146-154 — strconv.FormatUint(n, 10): decimal digits, most significant first, no leading zero. -/
def natDec (n : Nat) : Bytes :=
  if n < 10 then [48 + n.toUInt8] else natDec (n / 10) ++ [48 + (n % 10).toUInt8]
termination_by n

/-- value.go:136-144 — strconv.FormatInt(i, 10). -/
def intDec (i : Int) : Bytes :=
  match i with
  | .ofNat n => natDec n
  | .negSucc n => c%'-' :: natDec (n + 1)

/-- value.go:123-165 — `valueToBytes`. -/
def valueToBytes : Any → Bytes
  | .bool b => if b then b%"true" else b%"false"
  | .bytes bs => bs
  | .str s => htmlEscapeString s
  | .int _ i => intDec i
  | .float _ txt => txt
  | .stringer _ out _ => out
  | .thunk r => valueToBytes r
  | _ => []

mutual
/-- value.go:104-117 — what `newValue` returns for a `Node`: `getValues()` for the types implementing
`valuesNode` (attribute.go:34,131; text.go:36; comment.go:31; fragment.go:39; pi.go:42), the values of the
elements of a collection, nil for all other nodes.  `dl` is the delimited attribute heap. -/
def nodeValues (dl : Nat → List Value) : Node → List Value
  | .attr (.plain _ vs) => vs
  | .attr (.delim _ _ r) => dl r
  | .attr (.bool _) => []
  | .text vs => vs
  | .comment vs => vs
  | .fragment vs => vs
  | .pi _ vs => vs
  | .collection ns => nodesValues dl ns
  | _ => []
/-- value.go:110-114 — the loop over the nodes of a collection. -/
def nodesValues (dl : Nat → List Value) : List Node → List Value
  | [] => []
  | n :: ns => nodeValues dl n ++ nodesValues dl ns
end

/-- value.go:76-121 — `newValue`. -/
def newValue (dl : Nat → List Value) : Any → List Value
  | .nil => []
  | .value v => [v]
  | .dynFunc _ f => [.mk [] (f.map .user) []]
  | .dynKey k => if k = b%"." then [.mk [] (some .cargo) []] else [.mk [] (some (.key k)) []]
  | .node n => nodeValues dl n
  | v => [.mk (valueToBytes v) none []]

/-- value.go:66-74 — `newValues`: the loop over the contents, skipping nil. -/
def newValues (dl : Nat → List Value) : List Any → List Value
  | [] => []
  | v :: vs =>
    match v with
    | .nil => newValues dl vs
    | v => newValue dl v ++ newValues dl vs

/-- value.go:22-28 — `NewValue`. -/
def NewValue (dl : Nat → List Value) (v : Any) : Value :=
  match newValue dl v with
  | [x] => x
  | values => .mk [] none values

/-- value.go:31-33 — `NewConcatValue`. -/
def NewConcatValue (dl : Nat → List Value) (vs : List Any) : Value :=
  .mk [] none (newValues dl vs)

end Aitch

import Verif.Spec.Text
import Verif.Spec.Out
/-
How Go values are to be formatted, and what the values given as contents stand for.
-/
namespace Aitch.Spec

/-- The text of a byte in escaped form. -/
def escapedByte (c : UInt8) : Bytes :=
  if c = c%'"' then b%"&quot;"
  else if c = c%'\'' then b%"&apos;"
  else if c = c%'&' then b%"&amp;"
  else if c = c%'<' then b%"&lt;"
  else if c = c%'>' then b%"&gt;"
  else if c = 0 then []
  else [c]

/-- The escaped form of a string. -/
def escaped (s : Bytes) : Bytes := s.flatMap escapedByte

/-- Go types that have no text form here: nil, nodes, values, functions, keys, maps, slices, structs, pointers and
others (named types included). -/
def Textless : Any → Prop
  | .nil | .dynFunc _ _ | .dynKey _ | .value _ | .node _ | .map _ | .anySlice _ | .slice _ _ | .strMap _ _ _
  | .struct _ _ | .ptr _ | .other _ => True
  | _ => False

/-- `FormatsAs v w`: the text of the Go value `v` is `w`. -/
inductive FormatsAs : Any → Bytes → Prop
  | true : FormatsAs (.bool true) b%"true"
  | false : FormatsAs (.bool false) b%"false"
  | bytes (bs) : FormatsAs (.bytes bs) bs
  | str (s) : FormatsAs (.str s) (escaped s)
  | int {t i w} : CanonInt w i → FormatsAs (.int t i) w
  | float (is32 txt) : FormatsAs (.float is32 txt) txt
  | stringer (ty out v) : FormatsAs (.stringer ty out v) out
  | thunk {r w} : FormatsAs r w → FormatsAs (.thunk r) w
  | textless {v} : Textless v → FormatsAs v []

mutual
/-- The bytes that a node stands for when it is used as a content value: those of its own values, or, for a
collection, those of its nodes. -/
def nodeContent (P : Fns) (c : Ctx) (dl : Nat → List Value) : Node → Bytes
  | .attr (.plain _ vs) => valuesBytes P c vs
  | .attr (.delim _ _ r) => valuesBytes P c (dl r)
  | .text vs | .comment vs | .fragment vs | .pi _ vs => valuesBytes P c vs
  | .collection ns => nodesContent P c dl ns
  | _ => []
/-- The same for a list of nodes. -/
def nodesContent (P : Fns) (c : Ctx) (dl : Nat → List Value) : List Node → Bytes
  | [] => []
  | n :: ns => nodeContent P c dl n ++ nodesContent P c dl ns
end

/-- `Content P c dl v w`: the content value `v` stands for the bytes `w` (rendered in `c`, and built when the
delimited attributes held `dl`). -/
inductive Content (P : Fns) (c : Ctx) (dl : Nat → List Value) : Any → Bytes → Prop
  | nil : Content P c dl .nil []
  | value (v) : Content P c dl (.value v) (valueBytes P c v)
  | dynFunc (named f) : Content P c dl (.dynFunc named (some f)) (P.dyn f c)
  | nilFunc (named) : Content P c dl (.dynFunc named none) []
  | cargo {w} : FormatsAs c.frame.cargo w → Content P c dl (.dynKey b%".") w
  | key {k v w} : k ≠ b%"." → c.lookup k = some v → FormatsAs v w → Content P c dl (.dynKey k) w
  | noKey {k} : k ≠ b%"." → c.lookup k = none → Content P c dl (.dynKey k) []
  | node (n) : Content P c dl (.node n) (nodeContent P c dl n)
  | data {v w} : (match v with | .value _ | .dynFunc _ _ | .dynKey _ | .node _ => False | _ => True) →
      FormatsAs v w → Content P c dl v w

/-- `Contents P c dl vs w`: a list of content values stands for `w`, the concatenation of what its items stand for. -/
inductive Contents (P : Fns) (c : Ctx) (dl : Nat → List Value) : List Any → Bytes → Prop
  | nil : Contents P c dl [] []
  | cons {v vs w w'} : Content P c dl v w → Contents P c dl vs w' → Contents P c dl (v :: vs) (w ++ w')

end Aitch.Spec

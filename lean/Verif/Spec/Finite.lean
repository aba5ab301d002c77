import Verif.Model.Prog
/-
Nodes whose set of descendants is fixed when they are built, and nodes that call only certain user functions.
-/
namespace Aitch.Spec

mutual
/-- The node has no part whose nodes are only supplied while rendering (`ContentCollect`, `Imperative`). -/
def Fixed : Node → Prop
  | .element _ contents => FixedAll contents
  | .collection ns => FixedAll ns
  | .conditional ns _ _ => FixedAll ns
  | .iterator ns _ => FixedAll ns
  | .yieldIterator ns _ => FixedAll ns
  | .document none contents => FixedAll contents
  | .document (some p) contents => Fixed p ∧ FixedAll contents
  | .collector _ => False
  | .imperative f => f = none
  | .voidElement _ | .attr _ | .text _ | .comment _ | .fragment _ | .pi _ _ => True
/-- `Fixed` for every node of a list. -/
def FixedAll : List Node → Prop
  | [] => True
  | n :: ns => Fixed n ∧ FixedAll ns
end

mutual
/-- How deep a node is. -/
def depth : Node → Nat
  | .element _ contents => depthAll contents + 1
  | .collection ns => depthAll ns + 1
  | .conditional ns _ _ => depthAll ns + 1
  | .iterator ns _ => depthAll ns + 1
  | .yieldIterator ns _ => depthAll ns + 1
  | .document none contents => depthAll contents + 1
  | .document (some p) contents => max (depth p) (depthAll contents) + 1
  | .voidElement _ | .attr _ | .text _ | .comment _ | .fragment _ | .pi _ _ | .collector _ | .imperative _ => 1
/-- The maximal depth in a list. -/
def depthAll : List Node → Nat
  | [] => 0
  | n :: ns => max (depth n) (depthAll ns)
end

/-! ### Which user functions a node calls -/

mutual
/-- The user functions in a value are among `q`. -/
def ValueUses (q : Action → Prop) : Value → Prop
  | .mk _ (some (.user f)) _ => q (.dyn f)
  | .mk _ (some _) _ => True
  | .mk _ none cs => ValuesUse q cs
/-- The user functions in a list of values are among `q`. -/
def ValuesUse (q : Action → Prop) : List Value → Prop
  | [] => True
  | v :: vs => ValueUses q v ∧ ValuesUse q vs
end

/-- The same for an attribute; the address of a delimited attribute satisfies `ρ`. -/
def AttrUses (q : Action → Prop) (ρ : Nat → Prop) : Attr → Prop
  | .plain _ vs => ValuesUse q vs
  | .bool _ => True
  | .delim _ _ r => ρ r

/-- The same for a condition. -/
def CondUses (q : Action → Prop) : Cond → Prop
  | .user f => q (.cond f)
  | .has _ => True
  | .hasNot _ => True

/-- The same for the attributes of an element. -/
def HeadUses (q : Action → Prop) (ρ : Nat → Prop) (h : ElemHead) : Prop :=
  (∀ a ∈ h.attributes, AttrUses q ρ a) ∧
  ∀ ca ∈ h.conditionals, AttrUses q ρ ca.att ∧ ∀ k ∈ ca.conditions, CondUses q k

/-- The same for the item source of an iteration. -/
def SrcUses (q : Action → Prop) : ItemSrc → Prop
  | .user f => q (.items f)
  | .key _ => True

mutual
/-- The node is `Fixed`, the user functions in it are among `q` and its delimited attributes among `ρ`. -/
def NodeUses (q : Action → Prop) (ρ : Nat → Prop) : Node → Prop
  | .element h contents => HeadUses q ρ h ∧ NodesUse q ρ contents
  | .voidElement h => HeadUses q ρ h
  | .attr a => AttrUses q ρ a
  | .text vs => ValuesUse q vs
  | .comment vs => ValuesUse q vs
  | .fragment vs => ValuesUse q vs
  | .pi _ vs => ValuesUse q vs
  | .collection ns => NodesUse q ρ ns
  | .conditional ns _ fn => CondUses q fn ∧ NodesUse q ρ ns
  | .iterator ns fn => SrcUses q fn ∧ NodesUse q ρ ns
  | .yieldIterator ns f => q (.yields f) ∧ NodesUse q ρ ns
  | .document none contents => NodesUse q ρ contents
  | .document (some p) contents => NodeUses q ρ p ∧ NodesUse q ρ contents
  | .collector _ => False
  | .imperative f => f = none
/-- `NodeUses` for every node of a list. -/
def NodesUse (q : Action → Prop) (ρ : Nat → Prop) : List Node → Prop
  | [] => True
  | n :: ns => NodeUses q ρ n ∧ NodesUse q ρ ns
end

/-- The user functions in the values of the delimited attributes in `ρ` are among `q`. -/
def HeapUses (q : Action → Prop) (ρ : Nat → Prop) (dl : Nat → List Value) : Prop := ∀ r, ρ r → ValuesUse q (dl r)

/-- The node (with its delimited attributes' values in `dl`) calls no user function. -/
def CallbackFree (dl : Nat → List Value) (n : Node) : Prop :=
  NodeUses (fun _ => False) (fun r => ValuesUse (fun _ => False) (dl r)) n

end Aitch.Spec

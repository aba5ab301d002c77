import Verif.Spec.Obs
import Verif.Spec.Finite
/-
What a template reads from the context.
-/
namespace Aitch.Spec

/-- What a template can refer to: an entry of the data, or the cargo. -/
inductive Ref where
  | key (k : Bytes)
  | cargo
deriving DecidableEq

/-- What a dynamic value refers to (a user function by itself refers to nothing). -/
def dynRefs : Dyn → List Ref
  | .user _ => []
  | .key k => [.key k]
  | .cargo => [.cargo]

mutual
/-- What a value refers to. -/
def valueRefs : Value → List Ref
  | .mk _ (some d) _ => dynRefs d
  | .mk _ none cs => valuesRefs cs
/-- What a list of values refers to. -/
def valuesRefs : List Value → List Ref
  | [] => []
  | v :: vs => valueRefs v ++ valuesRefs vs
end

/-- What an attribute refers to, `dl` being the values of the delimited attributes. -/
def attrRefs (dl : Nat → List Value) : Attr → List Ref
  | .plain _ vs => valuesRefs vs
  | .bool _ => []
  | .delim _ _ r => valuesRefs (dl r)

/-- What a condition refers to. -/
def condRefs : Cond → List Ref
  | .user _ => []
  | .has k => [.key k]
  | .hasNot k => [.key k]

/-- What the attributes of an element refer to. -/
def headRefs (dl : Nat → List Value) (h : ElemHead) : List Ref :=
  h.attributes.flatMap (attrRefs dl) ++
  h.conditionals.flatMap fun ca => attrRefs dl ca.att ++ ca.conditions.flatMap condRefs

/-- What the item source of an iteration refers to. -/
def srcRefs : ItemSrc → List Ref
  | .user _ => []
  | .key k => [.key k]

mutual
/-- What a node refers to: the keys of every `DynamicValueKey`, `When` and `IterateKey` in it, and the cargo if the
key "." occurs in it. -/
def nodeRefs (dl : Nat → List Value) : Node → List Ref
  | .element h contents => headRefs dl h ++ nodesRefs dl contents
  | .voidElement h => headRefs dl h
  | .attr a => attrRefs dl a
  | .text vs => valuesRefs vs
  | .comment vs => valuesRefs vs
  | .fragment vs => valuesRefs vs
  | .pi _ vs => valuesRefs vs
  | .collection ns => nodesRefs dl ns
  | .conditional ns _ fn => condRefs fn ++ nodesRefs dl ns
  | .iterator ns fn => srcRefs fn ++ nodesRefs dl ns
  | .yieldIterator ns _ => nodesRefs dl ns
  | .document none contents => nodesRefs dl contents
  | .document (some p) contents => nodeRefs dl p ++ nodesRefs dl contents
  | .collector _ => []
  | .imperative _ => []
/-- What a list of nodes refers to. -/
def nodesRefs (dl : Nat → List Value) : List Node → List Ref
  | [] => []
  | n :: ns => nodeRefs dl n ++ nodesRefs dl ns
end

/-- The two contexts hold the same under the references `R`: the same entries in the data and in every other map (maps
may be items of an iteration, and so become the data), and the same cargo. -/
structure SameUnder (R : List Ref) (c c' : Ctx) : Prop where
  data : ∀ k, .key k ∈ R → c'.lookup k = c.lookup k
  maps : ∀ k, .key k ∈ R → ∀ m, (c'.maps m).lookup k = (c.maps m).lookup k
  cargo : .cargo ∈ R → c'.frame.cargo = c.frame.cargo
  attributes : c'.dl = c.dl

/-- A user function whose result depends on what is under the references `R` only. -/
def Heeds (P : Fns) (R : List Ref) : Action → Prop
  | .dyn f => ∀ c c', SameUnder R c c' → P.dyn f c' = P.dyn f c
  | .cond f => ∀ c c', SameUnder R c c' → P.cond f c' = P.cond f c
  | .items f => ∀ c c', SameUnder R c c' → P.items f c' = P.items f c
  | .yields f => ∀ c c', SameUnder R c c' → P.yields f c' = P.yields f c
  | _ => False

/-- The node has a fixed set of descendants and calls only functions that depend on what is under `R` only. -/
def HeedsOnly (P : Fns) (R : List Ref) (dl : Nat → List Value) (n : Node) : Prop :=
  NodeUses (Heeds P R) (fun r => ValuesUse (Heeds P R) (dl r)) n

end Aitch.Spec

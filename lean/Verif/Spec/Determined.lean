import Verif.Spec.Built
/-
How far the output of a node is determined.
-/
namespace Aitch.Spec

mutual
/-- Every element of the node satisfies `q`. -/
def EveryHead (q : ElemHead → Prop) : Node → Prop
  | .element h contents => q h ∧ EveryHeadAll q contents
  | .voidElement h => q h
  | .collection ns => EveryHeadAll q ns
  | .conditional ns _ _ => EveryHeadAll q ns
  | .iterator ns _ => EveryHeadAll q ns
  | .yieldIterator ns _ => EveryHeadAll q ns
  | .document none contents => EveryHeadAll q contents
  | .document (some p) contents => EveryHead q p ∧ EveryHeadAll q contents
  | _ => True
/-- `EveryHead` for every node of a list. -/
def EveryHeadAll (q : ElemHead → Prop) : List Node → Prop
  | [] => True
  | n :: ns => EveryHead q n ∧ EveryHeadAll q ns
end

/-- Every element of the nodes that user functions supply satisfies `q`. -/
structure EveryHeadFns (q : ElemHead → Prop) (P : Fns) : Prop where
  collect : ∀ f c n, some n ∈ P.collect f c → EveryHead q n
  imp : ∀ f c ns n, .writeNodes ns ∈ P.imp f c → some n ∈ ns → EveryHead q n

/-- The element has no conditional attributes. -/
def NoCondAttrs (h : ElemHead) : Prop := h.conditionals = []

/-- Outputs that differ only in the order of the attributes in tags. -/
inductive Reordered : Bytes → Bytes → Prop
  | refl (w) : Reordered w w
  | append {a a' b b'} : Reordered a a' → Reordered b b' → Reordered (a ++ b) (a' ++ b')
  | tag (name) {l l' : List Shown} : l.Perm l' → Reordered (tagBytes name l) (tagBytes name l')

end Aitch.Spec

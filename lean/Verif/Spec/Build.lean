import Verif.Model.Construct
import Verif.Spec.Out
/-
What attributes and contents an element is given: a specification of the grouping of a contents list, without
slices and indices.
-/
namespace Aitch.Spec

mutual
/-- The attributes that a node brings to the element it is put in, each with the conditions around it (outermost
first; `cs` are those around the node itself).  Collections are looked through; the attributes given directly to a
`Conditional` come before those deeper in it. -/
def declared (cs : List Cond) : Node → List (Attr × List Cond)
  | .attr a => [(a, cs)]
  | .collection ns => declaredAll cs ns
  | .conditional ns as fn => as.map (fun a => (a, cs ++ [fn])) ++ declaredAll (cs ++ [fn]) ns
  | _ => []
/-- The attributes that a list of nodes brings to its element. -/
def declaredAll (cs : List Cond) : List Node → List (Attr × List Cond)
  | [] => []
  | n :: ns => declared cs n ++ declaredAll cs ns
end

/-- The attributes declared without any condition, in order. -/
def staticAttrs (ns : List Node) : List Attr :=
  ((declaredAll [] ns).filter fun p => p.2.isEmpty).map (·.1)

/-- The attributes declared under conditions, in order, with their conditions. -/
def condAttrs (ns : List Node) : List CondAttr :=
  ((declaredAll [] ns).filter fun p => !p.2.isEmpty).map fun p => ⟨p.1, p.2⟩

/-- The nodes of a list that are not attributes. -/
def nonAttrs (ns : List Node) : List Node := ns.filter fun n => !n.isAttr

/-- The attributes among the nodes of a list. -/
def attrsIn (ns : List Node) : List Attr :=
  ns.filterMap fun
    | .attr a => some a
    | _ => none

/-- A content argument as a node: a node is itself, anything else is text. -/
def asNode (dl : Nat → List Value) : Any → Node
  | .node n => n
  | v => .text (newValues dl [v])

mutual
/-- How many levels of conditionals are nested in a node (looking through collections). -/
def condDepth : Node → Nat
  | .collection ns => condDepthAll ns
  | .conditional ns _ _ => condDepthAll ns + 1
  | _ => 0
/-- `condDepth` of a list: the maximum. -/
def condDepthAll : List Node → Nat
  | [] => 0
  | n :: ns => max (condDepth n) (condDepthAll ns)
end

mutual
/-- How many conditionals a node holds at its top level (looking through collections only). -/
def condCount : Node → Nat
  | .collection ns => condCountAll ns
  | .conditional _ _ _ => 1
  | _ => 0
/-- `condCount` of a list: the sum. -/
def condCountAll : List Node → Nat
  | [] => 0
  | n :: ns => condCount n + condCountAll ns
end

/-- A slice that was grown by appending one element at a time to a nil slice has no spare capacity exactly at these
lengths: 0 and the powers of two. -/
def Tight (k : Nat) : Prop := k = 0 ∨ ∃ j, k = 2 ^ j

mutual
/-- No two conditionals share a slot: wherever the conditions around a place are `k` many and `k` is not `Tight`,
there is at most one conditional at that place. -/
def Separate (k : Nat) : Node → Prop
  | .collection ns => SeparateAll k ns
  | .conditional ns _ _ => (Tight (k + 1) ∨ condCountAll ns ≤ 1) ∧ SeparateAll (k + 1) ns
  | _ => True
/-- `Separate` for all nodes of a list. -/
def SeparateAll (k : Nat) : List Node → Prop
  | [] => True
  | n :: ns => Separate k n ∧ SeparateAll k ns
end

mutual
/-- The nodes of a node, collections opened. -/
def openNode : Node → List Node
  | .collection ns => openNodes ns
  | n => [n]
/-- The nodes of a list, collections opened. -/
def openNodes : List Node → List Node
  | [] => []
  | n :: ns => openNode n ++ openNodes ns
end

/-! ### Merging repeated declarations -/

/-- The address of a delimited attribute. -/
def refOf : Attr → Option Nat
  | .delim _ _ r => some r
  | _ => none

/-- Whether an attribute is delimited. -/
def isDelim (a : Attr) : Bool := (refOf a).isSome

/-- The delimited declarations at the end of a list, after the last plain or boolean one. -/
def delimSuffix (ds : List Attr) : List Attr := (ds.reverse.takeWhile isDelim).reverse

/-- Which of the declarations of one name stays: the last one if it is plain or boolean, else the first of the
delimited ones that end the list. -/
def chosen (ds : List Attr) : Option Attr := (delimSuffix ds).head?.or ds.getLast?

/-- No delimited attribute node is used twice. -/
def Unshared (as : List Attr) : Prop := (as.filterMap refOf).Nodup

end Aitch.Spec

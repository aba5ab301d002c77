import Verif.Spec.Obs
/-
What nodes do in a context that has an error already.  Values (static or dynamic) are written all the same; all other
markup is not.
-/
namespace Aitch.Spec

/-- The attribute has values. -/
def HasValues (dl : Nat → List Value) : Attr → Prop
  | .plain _ vs => vs ≠ []
  | .bool _ => False
  | .delim _ _ r => dl r ≠ []

/-- Nothing of the node is a value that would be rendered in context `c` with an error: loops that stop at an error
stop at their first node, iterations do not start. -/
inductive Mute (P : Fns) (c : Ctx) : Node → Prop
  | element {h cs} : h.conditionals = [] → (∀ a ∈ h.attributes, ¬ HasValues c.dl a) → (∀ n ∈ cs, Mute P c n) →
      Mute P c (.element h cs)
  | voidElement {h} : h.conditionals = [] → (∀ a ∈ h.attributes, ¬ HasValues c.dl a) → Mute P c (.voidElement h)
  | attr {a} : ¬ HasValues c.dl a → Mute P c (.attr a)
  | text : Mute P c (.text [])
  | comment : Mute P c (.comment [])
  | fragment : Mute P c (.fragment [])
  | pi {name} : Mute P c (.pi name [])
  | collectionNone {ns} : (∀ n ∈ ns, n.isAttr = true) → Mute P c (.collection ns)
  | collection {pre n post} : (∀ n ∈ pre, n.isAttr = true) → n.isAttr = false → Mute P c n →
      Mute P c (.collection (pre ++ n :: post))
  | conditionalOff {ns as fn} : holds P c fn = false → Mute P c (.conditional ns as fn)
  | conditionalNone {as fn} : Mute P c (.conditional [] as fn)
  | conditional {n ns as fn} : Mute P c n → Mute P c (.conditional (n :: ns) as fn)
  | collector {f} : (∀ n, some n ∈ P.collect f c → n.isAttr = false → Mute P c n) → Mute P c (.collector f)
  | iterator {ns fn} : Mute P c (.iterator ns fn)
  | yieldIterator {ns f} : Mute P c (.yieldIterator ns f)
  | document {p cs} : (∀ n ∈ p.toList ++ cs, Mute P c n) → Mute P c (.document p cs)

/-- The node has a value that is rendered in context `c` although that has an error. -/
inductive Shows (P : Fns) (c : Ctx) : Node → Prop
  | head {h a cs} : h.conditionals = [] → a ∈ h.attributes → HasValues c.dl a → Shows P c (.element h cs)
  | content {h pre n post} : h.conditionals = [] → (∀ m ∈ pre, Mute P c m) → Shows P c n →
      Shows P c (.element h (pre ++ n :: post))
  | voidHead {h a} : h.conditionals = [] → a ∈ h.attributes → HasValues c.dl a → Shows P c (.voidElement h)
  | attr {a} : HasValues c.dl a → Shows P c (.attr a)
  | text {v vs} : Shows P c (.text (v :: vs))
  | comment {v vs} : Shows P c (.comment (v :: vs))
  | fragment {v vs} : Shows P c (.fragment (v :: vs))
  | pi {name v vs} : Shows P c (.pi name (v :: vs))
  | collection {pre n post} : (∀ n ∈ pre, n.isAttr = true) → n.isAttr = false → Shows P c n →
      Shows P c (.collection (pre ++ n :: post))
  | conditional {n ns as fn} : holds P c fn = true → Shows P c n → Shows P c (.conditional (n :: ns) as fn)
  | collector {f pre n post} : P.collect f c = pre ++ some n :: post → n.isAttr = false →
      (∀ m, some m ∈ pre → m.isAttr = false → Mute P c m) → Shows P c n → Shows P c (.collector f)
  | document {p cs pre n post} : p.toList ++ cs = pre ++ n :: post → (∀ m ∈ pre, Mute P c m) → Shows P c n →
      Shows P c (.document p cs)

mutual
/-- Made of elements without conditional attributes, and without `ContentCollect` and `Imperative`. -/
def Simple : Node → Prop
  | .element h cs => h.conditionals = [] ∧ SimpleAll cs
  | .voidElement h => h.conditionals = []
  | .collection ns => SimpleAll ns
  | .conditional ns _ _ => SimpleAll ns
  | .document none cs => SimpleAll cs
  | .document (some p) cs => Simple p ∧ SimpleAll cs
  | .collector _ => False
  | .imperative _ => False
  | _ => True
/-- `Simple` for every node of a list. -/
def SimpleAll : List Node → Prop
  | [] => True
  | n :: ns => Simple n ∧ SimpleAll ns
end

end Aitch.Spec

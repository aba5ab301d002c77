import Verif.Spec.StreamClean
import Verif.Spec.Build
import Verif.Spec.Built
import Verif.Model.Html
/-
Calls of constructors that keep to the rules of C110.
-/
namespace Aitch.Spec.Stream
open Aitch.Stream Markup

section
variable (Q : Rules)

/-- The argument may be shown there: a function that may stand there, a `Value` that may, or data that is escaped or
harmless. -/
def NeatArg (p : Spot) : Any → Prop
  | .node _ => False
  | .value v => NeatValue Q p v
  | .dynFunc _ (some f) => Q.dyn p f
  | v => p ≠ .tag ∧ SafeData v

mutual
/-- All conditions under which the node brings attributes to its element, or could, satisfy `K`. -/
def CondsIn (K : Cond → Prop) : Node → Prop
  | .collection ns => CondsInAll K ns
  | .conditional ns _ fn => K fn ∧ CondsInAll K ns
  | _ => True
/-- `CondsIn` for all nodes. -/
def CondsInAll (K : Cond → Prop) : List Node → Prop
  | [] => True
  | n :: ns => CondsIn K n ∧ CondsInAll K ns
end

/-- The nodes bring allowed attributes to their element, under conditions that write nothing in a tag.  Where conditions can
get in the place of others (see C17), this goes for all conditions in these nodes, unless no attribute is conditional. -/
structure NeatAttrs (ns : List Node) : Prop where
  attrs : ∀ d ∈ declaredAll [] ns, NeatAttr Q d.1
  conds : (SeparateAll 0 ns ∧ ∀ d ∈ declaredAll [] ns, ∀ k ∈ d.2, NeatCond Q .tag k) ∨
    CondsInAll (NeatCond Q .tag) ns ∨ ∀ d ∈ declaredAll [] ns, d.2 = []

/-- The arguments of an element whose contents stand at `p`. -/
structure NeatContents (p : Spot) (contents : List Any) : Prop where
  values : ∀ v ∈ contents, NeatArg Q p v ∨ ∃ n, v = .node n
  nodes : ∀ n ∈ nodesIn contents, Neat Q p n
  attrs : NeatAttrs Q (nodesIn contents)

/-- A call of a constructor, in memory `h`, that keeps to the rules, returns the node `n` and leaves the memory `h'`. -/
inductive Makes : Heap → Spot → Node → Heap → Prop
  | newElement {name contents h} : name ∈ Q.elements → lower name ∉ textNames → NeatContents Q .content contents →
      Makes h .content (NewElement name contents h).1 (NewElement name contents h).2
  | newTextElement {name contents h} : name ∈ Q.elements → lower name ∈ textNames → NeatContents Q .text contents →
      Makes h .content (NewElement name contents h).1 (NewElement name contents h).2
  | newVoidElement {name contents h} : name ∈ Q.elements → lower name ∉ textNames → NeatAttrs Q (nodesIn contents) →
      Makes h .content (NewVoidElement name contents h).1 (NewVoidElement name contents h).2
  | newAttribute {p name values h} : name ∈ Q.attributes → (∀ v ∈ values, NeatArg Q .text v) →
      Makes h p (NewAttribute h.dl name values) h
  | newBooleanAttribute {p name h} : name ∈ Q.attributes → Makes h p (NewBooleanAttribute name) h
  | newDelimitedAttribute {p name delimiter values h} : name ∈ Q.attributes → MarkupSafe delimiter →
      (∀ v ∈ values, NeatArg Q .text v) →
      Makes h p (NewDelimitedAttribute name delimiter values h).1 (NewDelimitedAttribute name delimiter values h).2
  | text {p contents h} : (∀ v ∈ contents, NeatArg Q p v) → Makes h p (Text h.dl contents) h
  | fragment {p contents h} : (∀ v ∈ contents, NeatArg Q p v) → Makes h p (Fragment h.dl contents) h
  | comment {contents h} : (∀ v ∈ contents, NeatArg Q .text v) → Makes h .content (Comment h.dl contents) h
  | docType {h} : Makes h .content (DocType h.dl) h
  | collection {p nodes h} : (∀ n, some n ∈ nodes → Neat Q p n) → Makes h p (Collection nodes) h
  | contentCollect {p f h} : Q.collect p f → Makes h p (ContentCollect (some f)) h
  | conditional {p f nodes n h} : Q.cond p f → (∀ n, some n ∈ nodes → Neat Q p n) → Conditional (some f) nodes = .val n →
      Makes h p n h
  | when {p key nodes n h} : (∀ n, some n ∈ nodes → Neat Q p n) → When key nodes = .val n → Makes h p n h
  | iterate {p f nodes n h} : Q.items p f → (∀ n, some n ∈ nodes → Neat Q p n) → Iterate (some f) nodes = .val n →
      Makes h p n h
  | iterateKey {p key nodes n h} : (∀ n, some n ∈ nodes → Neat Q p n) → IterateKey key nodes = .val n → Makes h p n h
  | iterateYield {p f nodes n h} : Q.yields p f → (∀ n, some n ∈ nodes → Neat Q p n) → IterateYield (some f) nodes = .val n →
      Makes h p n h
  | imperative {f h} : Q.imp f → Makes h .content (Imperative (some f)) h
  | document {lang head body h} : b%"html" ∈ Q.elements → b%"head" ∈ Q.elements → b%"body" ∈ Q.elements →
      b%"lang" ∈ Q.attributes → NeatArg Q .text lang → NeatContents Q .content head → NeatContents Q .content body →
      Makes h .content (Document lang head body h).1 (Document lang head body h).2

end

end Aitch.Spec.Stream

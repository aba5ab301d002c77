import Verif.Model.Html
import Verif.Spec.Obs
/-
The nodes that a program can obtain through the API.
-/
namespace Aitch.Spec

/-- The nodes among variadic arguments of type `any`. -/
def nodesIn (contents : List Any) : List Node :=
  contents.filterMap fun
    | .node n => some n
    | _ => none

/-- `Built n`: `n` was returned by a constructor of the API, its nodes being built too. -/
inductive Built : Node → Prop
  | newElement (name contents h) : (∀ n ∈ nodesIn contents, Built n) → Built (NewElement name contents h).1
  | newVoidElement (name contents h) : (∀ n ∈ nodesIn contents, Built n) → Built (NewVoidElement name contents h).1
  | newAttribute (dl name values) : Built (NewAttribute dl name values)
  | newBooleanAttribute (name) : Built (NewBooleanAttribute name)
  | newDelimitedAttribute (name delimiter values h) : Built (NewDelimitedAttribute name delimiter values h).1
  | text (dl contents) : Built (Text dl contents)
  | comment (dl contents) : Built (Comment dl contents)
  | fragment (dl contents) : Built (Fragment dl contents)
  | pi (dl name contents) : Built (PI dl name contents)
  | collection (nodes) : (∀ n, some n ∈ nodes → Built n) → Built (Collection nodes)
  | contentCollect (f) : Built (ContentCollect f)
  | conditional (fn nodes n) : (∀ n, some n ∈ nodes → Built n) → Conditional fn nodes = .val n → Built n
  | when (key nodes n) : (∀ n, some n ∈ nodes → Built n) → When key nodes = .val n → Built n
  | iterate (fn nodes n) : (∀ n, some n ∈ nodes → Built n) → Iterate fn nodes = .val n → Built n
  | iterateKey (key nodes n) : (∀ n, some n ∈ nodes → Built n) → IterateKey key nodes = .val n → Built n
  | iterateYield (fn nodes n) : (∀ n, some n ∈ nodes → Built n) → IterateYield fn nodes = .val n → Built n
  | imperative (fn) : Built (Imperative fn)
  | document (lang head body h) : (∀ n ∈ nodesIn head, Built n) → (∀ n ∈ nodesIn body, Built n) →
      Built (Document lang head body h).1

/-- The nodes that the user functions supply while rendering are built through the API. -/
structure BuiltFns (P : Fns) : Prop where
  collect : ∀ f c n, some n ∈ P.collect f c → Built n
  imp : ∀ f c ns n, .writeNodes ns ∈ P.imp f c → some n ∈ ns → Built n

/-- Two nodes that can write the same, in every context and for all functions. -/
def SameOutput (n₁ n₂ : Node) : Prop :=
  ∀ P c w, BuiltFns P → c.frame.err = none → (Renders P c n₁ w ↔ Renders P c n₂ w)

end Aitch.Spec

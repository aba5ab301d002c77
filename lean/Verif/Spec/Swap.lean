import Verif.Spec.Built
import Verif.Spec.Build
/-
The same template with some of its parts exchanged.
-/
namespace Aitch.Spec

/-- In both contents lists no two conditionals share a slot (`Separate`; at most three levels of conditionals always do,
`separateAll_of_depth`). -/
def Apart (as bs : List Any) : Prop := SeparateAll 0 (nodesIn as) ∧ SeparateAll 0 (nodesIn bs)

mutual
/-- `Swap apart n₁ n₂ m₁ m₂`: both are built through the API in the same way, but for any number of places where the first
has `n₁` and the second has `n₂`.  If `apart` is true, then in addition the contents of all the elements on the way to such
places have no two conditionals that share a slot (with `Swap False` nothing is asked). -/
inductive Swap (apart : Prop) (n₁ n₂ : Node) : Node → Node → Prop
  | here : Swap apart n₁ n₂ n₁ n₂
  | same {n} : Built n → Swap apart n₁ n₂ n n
  | newElement (name h) {as bs} : SwapArgs apart n₁ n₂ as bs → (apart → Apart as bs) →
      Swap apart n₁ n₂ (NewElement name as h).1 (NewElement name bs h).1
  | newVoidElement (name h) {as bs} : SwapArgs apart n₁ n₂ as bs → (apart → Apart as bs) →
      Swap apart n₁ n₂ (NewVoidElement name as h).1 (NewVoidElement name bs h).1
  | collection {as bs} : SwapNodes apart n₁ n₂ as bs → Swap apart n₁ n₂ (Collection as) (Collection bs)
  | conditional {fn as bs m₁ m₂} : SwapNodes apart n₁ n₂ as bs → Conditional fn as = .val m₁ → Conditional fn bs = .val m₂ →
      Swap apart n₁ n₂ m₁ m₂
  | when {key as bs m₁ m₂} : SwapNodes apart n₁ n₂ as bs → When key as = .val m₁ → When key bs = .val m₂ → Swap apart n₁ n₂ m₁ m₂
  | iterate {fn as bs m₁ m₂} : SwapNodes apart n₁ n₂ as bs → Iterate fn as = .val m₁ → Iterate fn bs = .val m₂ →
      Swap apart n₁ n₂ m₁ m₂
  | iterateKey {key as bs m₁ m₂} : SwapNodes apart n₁ n₂ as bs → IterateKey key as = .val m₁ → IterateKey key bs = .val m₂ →
      Swap apart n₁ n₂ m₁ m₂
  | iterateYield {fn as bs m₁ m₂} : SwapNodes apart n₁ n₂ as bs → IterateYield fn as = .val m₁ → IterateYield fn bs = .val m₂ →
      Swap apart n₁ n₂ m₁ m₂
  | document (lang h) {head head' body body'} : SwapArgs apart n₁ n₂ head head' → SwapArgs apart n₁ n₂ body body' →
      (apart → Apart head head' ∧ Apart body body') →
      Swap apart n₁ n₂ (Document lang head body h).1 (Document lang head' body' h).1
/-- The same for arguments of type `any`. -/
inductive SwapArgs (apart : Prop) (n₁ n₂ : Node) : List Any → List Any → Prop
  | nil : SwapArgs apart n₁ n₂ [] []
  | same {v as bs} : (∀ n, v = .node n → Built n) → SwapArgs apart n₁ n₂ as bs → SwapArgs apart n₁ n₂ (v :: as) (v :: bs)
  | node {m₁ m₂ as bs} : Swap apart n₁ n₂ m₁ m₂ → SwapArgs apart n₁ n₂ as bs → SwapArgs apart n₁ n₂ (.node m₁ :: as) (.node m₂ :: bs)
/-- The same for nodes, some of them nil. -/
inductive SwapNodes (apart : Prop) (n₁ n₂ : Node) : List (Option Node) → List (Option Node) → Prop
  | nil : SwapNodes apart n₁ n₂ [] []
  | none {as bs} : SwapNodes apart n₁ n₂ as bs → SwapNodes apart n₁ n₂ (none :: as) (none :: bs)
  | some {m₁ m₂ as bs} : Swap apart n₁ n₂ m₁ m₂ → SwapNodes apart n₁ n₂ as bs → SwapNodes apart n₁ n₂ (some m₁ :: as) (some m₂ :: bs)
end

/-- A node that is no attribute, brings no attributes to the element it is put in, and is no conditional (nor a collection
that holds one, however deep). -/
def Inert (n : Node) : Prop := n.isAttr = false ∧ declared [] n = [] ∧ condCount n = 0

end Aitch.Spec

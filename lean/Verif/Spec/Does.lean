import Verif.Spec.Order
import Verif.Spec.Built
/-
What can be observed of a render with functions that have side effects.
-/
namespace Aitch.Spec

/-- With a healthy writer and user functions behaving as told by `E`, a render of `n` in context `c` can return nil, write
`w` and leave context `c'`. -/
def Does (E : Effects) (n : Node) (c : Ctx) (w : Bytes) (c' : Ctx) : Prop :=
  ∃ env, Healthy env ∧ Acts env E ∧ ∃ s s', s.toCtx = c ∧ Runs env n s none s' ∧ s'.out = s.out ++ w ∧ s'.toCtx = c'

/-- Two nodes that can do the same, in every context and for all functions that report no error. -/
def SameEffect (n₁ n₂ : Node) : Prop :=
  ∀ E, Calm E → ∀ c, c.frame.err = none → ∀ w c', Does E n₁ c w c' ↔ Does E n₂ c w c'

end Aitch.Spec

import Verif.Spec.StreamTemplate
import Verif.Spec.Swap
import Verif.Spec.Component
/-
Exchanging nodes for each other, in templates and in the functions that render them.
-/
namespace Aitch.Spec.Stream
open Aitch.Stream

/-- Called in the same state, with this writer and these user functions, the two nodes' `Render` methods end in the same
state (memory and all calls of the writer) and return the same, or neither of them ends. -/
def SameEnds (env : Env) (B : Bodies) (n m : Node) : Prop := ∀ s e s', Ends env B n s e s' ↔ Ends env B m s e s'

section
variable (X : Node → Node → Prop)

/-- Lists of nodes, some of them nil, that are the same but for nodes exchanged according to `X`. -/
inductive AlikeNodes : List (Option Node) → List (Option Node) → Prop
  | nil : AlikeNodes [] []
  | none {as bs} : AlikeNodes as bs → AlikeNodes (none :: as) (none :: bs)
  | some {a b as bs} : X a b → AlikeNodes as bs → AlikeNodes (some a :: as) (some b :: bs)

/-- Bodies of functions that do the same, but for nodes that they render, exchanged according to `X`, and the results,
exchanged according to `A`. -/
inductive AlikeFn {α : Type} (A : α → α → Prop) : FnProg α → FnProg α → Prop
  | ret {a b} : A a b → AlikeFn A (.ret a) (.ret b)
  | user {upd k k'} : (∀ s, AlikeFn A (k s) (k' s)) → AlikeFn A (.user upd k) (.user upd k')
  | write {d k k'} : (∀ r s, AlikeFn A (k r s) (k' r s)) → AlikeFn A (.write d k) (.write d k')
  | render {n m k k'} : X n m → (∀ e s, AlikeFn A (k e s) (k' e s)) → AlikeFn A (.render n k) (.render m k')

/-- The same for functions given to `IterateYield`. -/
inductive AlikeYield : YieldBody → YieldBody → Prop
  | done : AlikeYield .done .done
  | yield {it k k'} : (∀ s, AlikeYield (k s) (k' s)) → AlikeYield (.yield it k) (.yield it k')
  | user {upd k k'} : (∀ s, AlikeYield (k s) (k' s)) → AlikeYield (.user upd k) (.user upd k')
  | write {d k k'} : (∀ r s, AlikeYield (k r s) (k' r s)) → AlikeYield (.write d k) (.write d k')
  | render {n m k k'} : X n m → (∀ e s, AlikeYield (k e s) (k' e s)) → AlikeYield (.render n k) (.render m k')

/-- The same for functions given to `Imperative`, and `Render` methods of the user's own. -/
inductive AlikeImp : ImpProg → ImpProg → Prop
  | ret {e} : AlikeImp (.ret e) (.ret e)
  | call {op k k'} : (∀ s, AlikeImp (k s) (k' s)) → AlikeImp (.call op k) (.call op k')
  | nodes {ns ms k k'} : AlikeNodes X ns ms → (∀ s, AlikeImp (k s) (k' s)) →
      AlikeImp (.call (.writeNodes ns) k) (.call (.writeNodes ms) k')
  | user {upd k k'} : (∀ s, AlikeImp (k s) (k' s)) → AlikeImp (.user upd k) (.user upd k')
  | write {d k k'} : (∀ r s, AlikeImp (k r s) (k' r s)) → AlikeImp (.write d k) (.write d k')
  | render {n m k k'} : X n m → (∀ e s, AlikeImp (k e s) (k' e s)) → AlikeImp (.render n k) (.render m k')

/-- Programs (the same writer, and user functions that do the same) but for nodes that functions render or supply, exchanged
according to `X`. -/
structure AlikeFns (env₁ : Env) (B₁ : Bodies) (env₂ : Env) (B₂ : Bodies) : Prop where
  write : env₁.write = env₂.write
  order : env₁.order = env₂.order
  dyn : ∀ f s, AlikeFn X Eq (B₁.dyn f s) (B₂.dyn f s)
  cond : ∀ f s, AlikeFn X Eq (B₁.cond f s) (B₂.cond f s)
  items : ∀ f s, AlikeFn X Eq (B₁.items f s) (B₂.items f s)
  collect : ∀ f s, AlikeFn X (AlikeNodes X) (B₁.collect f s) (B₂.collect f s)
  yields : ∀ f s, AlikeYield X (B₁.yields f s) (B₂.yields f s)
  imp : ∀ f s, AlikeImp X (env₁.imp f s) (env₂.imp f s)

/-- Templates with the same text, and nodes exchanged according to `X` in the same places. -/
inductive AlikeParts : List Part → List Part → Prop
  | nil : AlikeParts [] []
  | text {x ps qs} : AlikeParts ps qs → AlikeParts (.text x :: ps) (.text x :: qs)
  | call {n m p ps qs} : X n m → AlikeParts ps qs → AlikeParts (.call n p :: ps) (.call m p :: qs)

end

/-- The same node, or nodes built in the same way but for `n₂` in places of `n₁` (see `Swap`). -/
def Exchanged (apart : Prop) (n₁ n₂ a b : Node) : Prop := a = b ∨ Swap apart n₁ n₂ a b

end Aitch.Spec.Stream

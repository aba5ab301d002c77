import Verif.Spec.Stream
import Verif.Spec.Concurrent
import Verif.Model.StreamMachine
/-
What functions that write and render may do while other goroutines render.
-/
namespace Aitch.Spec.Stream
open Aitch.Stream

/-- The body of a function that leaves the shared memory alone, depends on `R`-equal parts of it only, renders nodes in `N`
and returns a result in `P`.  It may write what it likes to its own context. -/
inductive QuietBody (R : Shared → Shared → Prop) (N : Node → Prop) {α : Type} (P : α → Prop) : FnProg α → Prop
  | ret {a} : P a → QuietBody R N P (.ret a)
  | user {upd k} : QuietCall R (fun s => ((), upd s)) → (∀ s s', Sim R s s' → k s = k s') →
      (∀ s, QuietBody R N P (k s)) → QuietBody R N P (.user upd k)
  | write {d k} : (∀ r s s', Sim R s s' → k r s = k r s') → (∀ r s, QuietBody R N P (k r s)) →
      QuietBody R N P (.write d k)
  | render {n k} : N n → (∀ e s s', Sim R s s' → k e s = k e s') → (∀ e s, QuietBody R N P (k e s)) →
      QuietBody R N P (.render n k)

/-- The same for the function of `IterateYield`. -/
inductive QuietYields (R : Shared → Shared → Prop) (N : Node → Prop) : YieldBody → Prop
  | done : QuietYields R N .done
  | yield {it k} : (∀ s s', Sim R s s' → k s = k s') → (∀ s, QuietYields R N (k s)) → QuietYields R N (.yield it k)
  | user {upd k} : QuietCall R (fun s => ((), upd s)) → (∀ s s', Sim R s s' → k s = k s') →
      (∀ s, QuietYields R N (k s)) → QuietYields R N (.user upd k)
  | write {d k} : (∀ r s s', Sim R s s' → k r s = k r s') → (∀ r s, QuietYields R N (k r s)) →
      QuietYields R N (.write d k)
  | render {n k} : N n → (∀ e s s', Sim R s s' → k e s = k e s') → (∀ e s, QuietYields R N (k e s)) →
      QuietYields R N (.render n k)

/-- A function that is entered in `R`-equal states does the same, and that is quiet. -/
def QuietAt (R : Shared → Shared → Prop) (N : Node → Prop) {α : Type} (P : α → Prop) (body : St → FnProg α) : Prop :=
  (∀ s s', Sim R s s' → body s = body s') ∧ ∀ s, QuietBody R N P (body s)

/-- All functions in `q` are quiet, also those in the nodes that they render and supply. -/
structure QuietBodies (R : Shared → Shared → Prop) (env : Env) (B : Bodies) (q : Action → Prop) (ρ : Nat → Prop) : Prop where
  dyn : ∀ f, q (.dyn f) → QuietAt R (NodeCalls q ρ) (fun _ => True) (B.dyn f)
  cond : ∀ f, q (.cond f) → QuietAt R (NodeCalls q ρ) (fun _ => True) (B.cond f)
  items : ∀ f, q (.items f) → QuietAt R (NodeCalls q ρ) (fun _ => True) (B.items f)
  collect : ∀ f, q (.collect f) → QuietAt R (NodeCalls q ρ) (fun ns => ∀ n, some n ∈ ns → NodeCalls q ρ n) (B.collect f)
  yields : ∀ f, q (.yields f) → (∀ s s', Sim R s s' → B.yields f s = B.yields f s') ∧
    ∀ s, QuietYields R (NodeCalls q ρ) (B.yields f s)
  imp : ∀ f, q (.imp f) → (∀ s s', Sim R s s' → env.imp f s = env.imp f s') ∧ ∀ s, QuietImp R (NodeCalls q ρ) (env.imp f s)
  calls : ∀ a, q a → match a with
    | .dyn _ | .cond _ | .items _ | .collect _ | .yields _ | .imp _ => True
    | _ => False

end Aitch.Spec.Stream

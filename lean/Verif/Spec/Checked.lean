import Verif.Model.Checked
import Verif.Spec.Built
/-
What it means that nothing panics of itself.
-/
namespace Aitch.Spec

/-- A function given to `Imperative` (or a node type of the user's own) that uses only nodes made by the API. -/
inductive ImpBuilt : ImpProg → Prop
  | ret (e) : ImpBuilt (.ret e)
  | call (op k) : (∀ ns n, op = .writeNodes ns → some n ∈ ns → Built n) → (∀ s, ImpBuilt (k s)) → ImpBuilt (.call op k)
  | user (upd k) : (∀ s, ImpBuilt (k s)) → ImpBuilt (.user upd k)
  | render (n k) : Built n → (∀ e s, ImpBuilt (k e s)) → ImpBuilt (.render n k)
  | write (data k) : (∀ r s, ImpBuilt (k r s)) → ImpBuilt (.write data k)

/-- The nodes that user functions supply while rendering are made by the API; otherwise the functions and the writer may
do what they like. -/
structure BuiltEnv (env : Env) : Prop where
  collect : ∀ f s n, some n ∈ (env.collect f s).1 → Built n
  imp : ∀ f s, ImpBuilt (env.imp f s)

/-- How far a program comes: its result, if it returns, and the state in which it returns or ends without returning. -/
def reach {α : Type} (env : Env) : Prog α → St → Option α × St
  | .pure a, s => (some a, s)
  | .step a k, s => reach env (k (a.run env s).1) (a.run env s).2
  | .stuck, s => (none, s)

/-- Nothing panics while `n.Render(ctx)` runs in state `s`, whether it returns or not: whatever a panic would do (`boom`),
what is reached with calls nested up to any depth (`fuel`) is the same as without bounds checks. -/
def PanicFree (env : Env) (n : Node) (s : St) : Prop :=
  ∀ boom fuel, reach env (Checked.renderProg boom fuel n) s = reach env (renderProg fuel n) s

/-- `n.Render(ctx)`, with bounds checks, returns `e` in state `s'`. -/
def RunsChecked (boom : Prog Unit) (env : Env) (n : Node) (s : St) (e : Option Err) (s' : St) : Prop :=
  ∃ fuel, exec env (Checked.renderProg boom fuel n) s = some (e, s')

end Aitch.Spec

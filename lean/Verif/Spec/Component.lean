import Verif.Spec.Obs
/-
Node types of the user's own ("components").
-/
namespace Aitch.Spec

/-- Called in the same state, with this writer and these user functions, the two nodes' `Render` methods end in the same
state (memory and all calls of the writer) and return the same, or neither of them ends. -/
def SameRuns (env : Env) (n m : Node) : Prop := ∀ s e s', Runs env n s e s' ↔ Runs env m s e s'

/-- The `Render` method number `f` of the user's own is `return g(ctx).Render(ctx)`. -/
def Delegates (env : Env) (f : FnId) (g : St → Node) : Prop :=
  ∀ s, env.imp f s = .render (g s) fun e _ => .ret e

/-- The `Render` method number `f` of the user's own is `_, err := ctx.Writer.Write(d(ctx)); return err`. -/
def WritesItself (env : Env) (f : FnId) (d : St → Bytes) : Prop :=
  ∀ s, env.imp f s = .write (d s) fun r _ => .ret r.2

/-- A node of the user's own type with the `Render` method number `f` (see `Node` and `ImpProg`). -/
def component (f : FnId) : Node := .imperative (some f)

end Aitch.Spec

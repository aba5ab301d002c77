import Verif.Model.Panic
import Verif.Spec.Concurrent
import Verif.Spec.Iter
/-
Rendering with functions (or a writer) that panic.
-/
namespace Aitch.Spec

/-- `n.Render` panics, and the state is then `s'`. -/
def RenderPanics (env : Env) (p : Panics) (n : Node) (s s' : St) : Prop :=
  ∃ fuel, execPanics env p (renderProg fuel n) s = some (.panicked s')

/-- `n.Render` returns, although functions may panic. -/
def RenderReturns (env : Env) (p : Panics) (n : Node) (s : St) (e : Option Err) (s' : St) : Prop :=
  ∃ fuel, execPanics env p (renderProg fuel n) s = some (.returned e s')

/-- A function that panics has changed no memory but within `R`. -/
def PanicKeeps (R : Shared → Shared → Prop) (p : Panics) : Prop := ∀ a s s', p a s = some s' → R s.shared s'.shared

/-- A function that panics has not changed Data and Cargo of the context it was given. -/
def PanicKeepsItem (p : Panics) : Prop :=
  ∀ a s s', p a s = some s' → s'.frame.data = s.frame.data ∧ s'.frame.cargo = s.frame.cargo

/-- The context `c`, with the chain of its parents, is the current context of `s` or one of its parents. -/
def HasContext (s : St) (c : Frame) (parents : List Frame) : Prop :=
  ∃ inner, s.frame :: s.parents = inner ++ c :: parents

/-- `Execute` with functions or a writer that panic; `pe` is the error that text/template makes of a panic. -/
def ExecuteEnds (env : Env) (p : Panics) (pe : Err) (t : List Part) (data : Option MapId) (cargo : Any) (s : St)
    (o : Outcome (Option Err)) : Prop := ∃ fuel, ExecutePanics env p pe fuel t data cargo s = some o

end Aitch.Spec

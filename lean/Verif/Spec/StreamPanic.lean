import Verif.Spec.Panic
import Verif.Spec.StreamConcurrent
/-
Rendering with functions that write, render and panic.
-/
namespace Aitch.Spec.Stream
open Aitch.Stream

/-- `n.Render` panics, and the state is then `s'`.  (A function panics when it is entered or in its own code, the writer when
it is called.) -/
def Panicking (env : Env) (p : Panics) (B : Bodies) (n : Node) (s s' : St) : Prop :=
  ∃ fuel, execPanics env p (renderWith B fuel n) s = some (.panicked s')

/-- `n.Render` returns, although functions may panic. -/
def Returning (env : Env) (p : Panics) (B : Bodies) (n : Node) (s : St) (e : Option Err) (s' : St) : Prop :=
  ∃ fuel, execPanics env p (renderWith B fuel n) s = some (.returned e s')

end Aitch.Spec.Stream

import Verif.Model.Stream
import Verif.Model.Machine
/-
Several goroutines rendering at the same time nodes whose functions write and render (Model/Stream).
-/
namespace Aitch.Stream

/-- aitch.go:18 — Goroutine `i` calls `nodes[i].Render` with its own context `own i`; the functions are `B i`.  A call of a
user function is not one step here: each of its writes, each change of memory and each effect of the nodes it renders is
one.  `fuel` bounds the depth to which the program is unfolded. -/
def startAll {ι : Type} (nodes : ι → Node) (envs : ι → Env) (B : ι → Bodies) (fuel : ι → Nat) (own : ι → Local)
    (sh : Shared) : Machine ι :=
  { threads := fun i => ⟨envs i, renderWith (B i) (fuel i) (nodes i), own i⟩, shared := sh }

end Aitch.Stream

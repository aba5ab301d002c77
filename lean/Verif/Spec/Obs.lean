import Verif.Spec.Out
/-
What can be observed of a render.
-/
namespace Aitch.Spec

/-- `n.Render(ctx)`, called in state `s`, ends in state `s'` and returns `e`. -/
def Runs (env : Env) (n : Node) (s : St) (e : Option Err) (s' : St) : Prop :=
  ∃ fuel, render env fuel n s = some (e, s')

/-- With a healthy writer and user functions computing `P`, a render of `n` in context `c` can write `w` and return
nil (what it writes may depend on the order in which Go ranges over maps). -/
def Renders (P : Fns) (c : Ctx) (n : Node) (w : Bytes) : Prop :=
  ∃ env, Healthy env ∧ Computes env P ∧ ∃ s s', s.toCtx = c ∧ Runs env n s none s' ∧ s'.out = s.out ++ w

/-- `n.Render(ctx)`, called in state `s`, ends, returns nil, writes `w` and leaves all memory as it was.  (There is
only one result: `Runs` is a function of `s`, see `runs_unique`.) -/
def Writes (env : Env) (n : Node) (s : St) (w : Bytes) : Prop :=
  ∃ s', Runs env n s none s' ∧ s'.out = s.out ++ w ∧ s'.toCtx = s.toCtx

/-- The only thing that `n` can write in context `c` is `w`. -/
def RendersExactly (P : Fns) (c : Ctx) (n : Node) (w : Bytes) : Prop := ∀ w', Renders P c n w' ↔ w' = w

end Aitch.Spec

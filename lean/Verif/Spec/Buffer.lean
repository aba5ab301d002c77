import Verif.Model.Base
import Verif.Spec.Component
/-
Rendering into a buffer: components that render a node in a context of its own, made by `context.New`.
-/
namespace Aitch.Spec

/-- The state in which `n.Render(context.New(&buf, ctx.Data, ctx.Cargo))` is called, in state `s` and with an empty
buffer `buf`.  (The writer of the state is the buffer.) -/
def inBuffer (s : St) : St := { contextNew s s.frame.data s.frame.cargo with log := [] }

/-- The state after that call: memory as the call left it in `s'`, the context `ctx` and its writer as in `s`. -/
def backFrom (s s' : St) : St := { s' with frame := s.frame, parents := s.parents, log := s.log, tick := s.tick }

/-- The `Render` method number `f` of the user's own is
```
var buf bytes.Buffer
err := n.Render(context.New(&buf, ctx.Data, ctx.Cargo))
next(err, buf.Bytes())
```
`inner` has the functions that `n` calls, and the buffer as the writer. -/
def RendersInBuffer (env inner : Env) (f : FnId) (n : Node) (next : Option Err → Bytes → ImpProg) : Prop :=
  Healthy inner ∧ ∀ s, ∃ e s', Runs inner n (inBuffer s) e s' ∧
    env.imp f s = .user (fun _ => backFrom s s') fun _ => next e s'.out

/-- `if err != nil { return err }; ctx.Write(buf.Bytes()); return ctx.Error` -/
def passOn : Option Err → Bytes → ImpProg
  | some e, _ => .ret (some e)
  | none, out => .call (.writeRaw out) fun s => .ret s.frame.err

/-- `if err != nil { return m.Render(ctx) }; ctx.Write(buf.Bytes()); return ctx.Error` -/
def orElse (m : Node) : Option Err → Bytes → ImpProg
  | some _, _ => .render m fun e _ => .ret e
  | none, out => .call (.writeRaw out) fun s => .ret s.frame.err

/-- The `Render` method number `f` of the user's own is `ctx.Write(out); return ctx.Error`. -/
def WritesBytes (env : Env) (f : FnId) (out : Bytes) : Prop :=
  ∀ s, env.imp f s = .call (.writeRaw out) fun s => .ret s.frame.err

/-- The `DynamicValueFunc` number `f` is
```
var buf bytes.Buffer
_ = n.Render(context.New(&buf, ctx.Data, ctx.Cargo))
return buf.Bytes()
``` -/
def ReturnsBuffer (env inner : Env) (f : FnId) (n : Node) : Prop :=
  Healthy inner ∧ ∀ s, ∃ e s', Runs inner n (inBuffer s) e s' ∧ env.dyn f s = (s'.out, backFrom s s')

/-- No user function looks at `ctx.Parent`. -/
structure IgnoresParent (P : Fns) : Prop where
  dyn : ∀ f c ps, P.dyn f { c with parents := ps } = P.dyn f c
  cond : ∀ f c ps, P.cond f { c with parents := ps } = P.cond f c
  collect : ∀ f c ps, P.collect f { c with parents := ps } = P.collect f c
  items : ∀ f c ps, P.items f { c with parents := ps } = P.items f c
  yields : ∀ f c ps, P.yields f { c with parents := ps } = P.yields f c
  imp : ∀ f c ps, P.imp f { c with parents := ps } = P.imp f c

end Aitch.Spec

import Verif.Model.Render
/-
User functions that use the context they are given to write and to render.

Elsewhere in the model a `DynamicValueFunc`, a `ConditionalFunc`, the function of `ContentCollect` and the function of
`Iterate` are functions of the state that return a result and a new state, and do not write; the function of `IterateYield`
writes, but does not render.  But they are given the `*context.Context`: they may write to its writer, and call `Render` of
any node with it, which may in turn call functions.  Here they are programs that can do that; the `Render` methods are the
same programs as before.
-/
namespace Aitch.Stream

/-- value.go:38, conditional.go:23,44, collection.go:48, iterate.go:80 — The body of a user function that returns an `α`.
`user` is code that changes memory, `write` is `ctx.Writer.Write(data)`, `render` is `n.Render(ctx)`.  What the body does
next may depend on the results of these and on the whole state.  (Rendering with another context than the given one is
not modelled.) -/
inductive FnProg (α : Type) where
  | ret (a : α)
  | user (upd : St → St) (k : St → FnProg α)
  | write (data : Bytes) (k : Nat × Option Err → St → FnProg α)
  | render (n : Node) (k : Option Err → St → FnProg α)

/-- iterate.go:122,154 — The body of a function given to `IterateYield`: as in `YieldProg`, and besides it can call `Render`
of a node with the context that it is given, and see the error returned (`render`). -/
inductive YieldBody where
  | done
  | yield (item : Any) (k : St → YieldBody)
  | user (upd : St → St) (k : St → YieldBody)
  | write (data : Bytes) (k : Nat × Option Err → St → YieldBody)
  | render (n : Node) (k : Option Err → St → YieldBody)

/-- value.go:38, conditional.go:23,44, collection.go:48, iterate.go:80,154 — The user functions of these five kinds, entered
in a state.  (Those of `Imperative` write and render anyway, see `Env`.) -/
structure Bodies where
  dyn : FnId → St → FnProg Bytes
  cond : FnId → St → FnProg Bool
  collect : FnId → St → FnProg (List (Option Node))
  items : FnId → St → FnProg (List Any)
  yields : FnId → St → YieldBody

/-- value.go:38, conditional.go:23,44, collection.go:48, iterate.go:80 — Running the body of a user function; `rec` is
`Node.Render`. -/
def FnProg.run {α : Type} (rec : Render) : FnProg α → Prog α
  | .ret a => return a
  | .user upd k => do
    let s ← Do.user upd
    (k s).run rec
  | .write data k => do
    let r ← Do.write data
    let s ← Do.look
    (k r s).run rec
  | .render n k => do
    let e ← rec n
    let s ← Do.look
    (k e s).run rec

/-- value.go:38, conditional.go:23,44, collection.go:48, iterate.go:80 — Rendering code in which the calls of user functions
run their bodies. -/
def inlined {α : Type} (B : Bodies) (rec : Render) : Prog α → Prog α
  | .pure a => .pure a
  | .stuck => .stuck
  | .step (.dyn f) k => do
    let s ← Do.look
    let r ← (B.dyn f s).run rec
    inlined B rec (k r)
  | .step (.cond f) k => do
    let s ← Do.look
    let r ← (B.cond f s).run rec
    inlined B rec (k r)
  | .step (.collect f) k => do
    let s ← Do.look
    let r ← (B.collect f s).run rec
    inlined B rec (k r)
  | .step (.items f) k => do
    let s ← Do.look
    let r ← (B.items f s).run rec
    inlined B rec (k r)
  | .step a k => .step a fun r => inlined B rec (k r)

/-- iterate.go:154-165 — running the user's function with the yield closure; `child` is `ictx`; `rec` is `Node.Render`.
(Calling yield again from within a node rendered by yield is not modelled.) -/
def runYield (rec : Render) (nodes : List Node) : YieldBody → (child : Frame) → Prog Unit
  | .done, _ => return ()
  | .user upd k, child => do
    let s ← Do.user upd
    runYield rec nodes (k s) child
  | .write data k, child => do
    let r ← Do.write data
    let s ← Do.look
    runYield rec nodes (k r s) child
  | .render n k, child => do
    let e ← rec n
    let s ← Do.look
    runYield rec nodes (k e s) child
  | .yield it k, child => do
    Do.enter child
    Do.setItem it (match it with
      | .map m => some m
      | _ => child.data)
    let e ← iterNodes rec nodes
    let child ← Do.leave
    setErrIf e
    let s ← Do.look
    runYield rec nodes (k s) child

/-- iterate.go:145-167 — `(*yieldIterator).Render`. -/
def renderYield (B : Bodies) (rec : Render) (nodes : List Node) (f : FnId) : Prog (Option Err) := do
  let c ← Do.ctx
  match c.frame.err with
  | some e => return some e
  | none => do
    let s ← Do.look
    runYield rec nodes (B.yields f s) { err := c.frame.err, data := none, cargo := .nil }
    retErr

/-- aitch.go:18 — The `Render` methods, with `rec` for the calls of `Render` on other nodes. -/
def step (B : Bodies) (rec : Render) : Render
  | .yieldIterator ns f => renderYield B rec ns f
  | n => renderStep rec n

/-- aitch.go:18 — `Node.Render`, in which the calls of user functions are still to be replaced by their bodies. -/
def nested (B : Bodies) : Nat → Render
  | 0 => fun _ => .stuck
  | fuel + 1 => step B (nested B fuel)

/-- aitch.go:18 — `Node.Render` when user functions write and render, with a bound on the depth of nested calls. -/
def renderWith (B : Bodies) : Nat → Render
  | 0 => fun _ => .stuck
  | fuel + 1 => fun n => inlined B (renderWith B fuel) (nested B (fuel + 1) n)

end Aitch.Stream

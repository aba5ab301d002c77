import Verif.Model.Types
/-
The effects of rendering.  A `Render` method is modelled as a program (`Prog`): a tree whose nodes are the
elementary effects below.  `exec` runs a program to the end; Model/Machine.lean runs several programs step by step.
-/
namespace Aitch

/-- context/context.go:10-36 — The elementary effects of the rendering code. -/
inductive Action where
  /-- context/context.go:34, value.go:39,48 — `ctx.Writer.Write(data)`, returning `(n, err)` -/
  | write (data : Bytes)
  /-- reading memory: the fields of the context, maps, the values of delimited attributes (context/context.go:33,
  value.go:36,98, attribute.go:113, iterate.go:46,77,91, conditional.go:93,103) -/
  | ctx
  /-- context/context.go:34, value.go:39,48, iterate.go:95,161 — `ctx.Error = e` -/
  | setErr (e : Option Err)
  /-- value.go:38 — calling a `DynamicValueFunc` -/
  | dyn (f : FnId)
  /-- conditional.go:23,44 — calling a `ConditionalFunc` -/
  | cond (f : FnId)
  /-- collection.go:48 — calling the function of `ContentCollect` -/
  | collect (f : FnId)
  /-- iterate.go:80 — calling the function of `Iterate` -/
  | items (f : FnId)
  /-- iterate.go:154 — entering the function of `IterateYield` -/
  | yields (f : FnId)
  /-- imperative.go:40 — entering the function of `Imperative` -/
  | imp (f : FnId)
  /-- iterate.go:154, imperative.go:40 — user code inside one of these two functions -/
  | user (upd : St → St)
  /-- iterate.go:154, imperative.go:40 — such user code looking at the state -/
  | look
  /-- element.go:11,33 — starting a `range` over a map with these keys, returning the order of the visits -/
  | order (keys : List Bytes)
  /-- iterate.go:81-85,149-153 — continuing with a new child context -/
  | enter (child : Frame)
  /-- iterate.go:87-92,155-158 — `ctx.Cargo = item; ctx.Data = data` -/
  | setItem (item : Any) (data : Option MapId)
  /-- iterate.go:95-101,161-166 — continuing with the parent context, returning the fields of the child context -/
  | leave

/-- context/context.go:10-36 — The result type of an effect. -/
def Action.Resp : Action → Type
  | .write _ => Nat × Option Err
  | .ctx => Ctx
  | .setErr _ => Unit
  | .dyn _ => Bytes
  | .cond _ => Bool
  | .collect _ => List (Option Node)
  | .items _ => List Any
  | .yields _ => YieldProg
  | .imp _ => ImpProg
  | .user _ => St
  | .look => St
  | .order _ => List Bytes
  | .enter _ => Unit
  | .setItem _ _ => Unit
  | .leave => Frame

/-- context/context.go:34 — Assignment `ctx.Error = e`. -/
def St.setErr (s : St) (e : Option Err) : St := { s with frame := { s.frame with err := e } }

/-- context/context.go:34 — A call `ctx.Writer.Write(data)` recorded in the log. -/
def St.wrote (s : St) (data : Bytes) (r : Nat × Option Err) : St := { s with log := s.log ++ [⟨data, r.1, r.2⟩] }

/-- context/context.go:10-36 and the other lines named at `Action` — The meaning of the effects. -/
def Action.run (env : Env) : (a : Action) → St → a.Resp × St
  | .write data, s => (env.write s.log data, s.wrote data (env.write s.log data))
  | .ctx, s => (s.toCtx, s)
  | .setErr e, s => ((), s.setErr e)
  | .dyn f, s => ((env.dyn f s).1, s.confine (env.dyn f s).2)
  | .cond f, s => ((env.cond f s).1, s.confine (env.cond f s).2)
  | .collect f, s => ((env.collect f s).1, s.confine (env.collect f s).2)
  | .items f, s => ((env.items f s).1, s.confine (env.items f s).2)
  | .yields f, s => (env.yields f s, s)
  | .imp f, s => (env.imp f s, s)
  | .user upd, s => (s.confine (upd s), s.confine (upd s))
  | .look, s => (s, s)
  | .order keys, s => (env.order s.tick keys, { s with tick := s.tick + 1 })
  | .enter child, s => ((), { s with frame := child, parents := s.frame :: s.parents })
  | .setItem item data, s => ((), { s with frame := { s.frame with cargo := item, data := data } })
  | .leave, s =>
    match s.parents with
    | [] => (s.frame, s)
    | f :: fs => (s.frame, { s with frame := f, parents := fs })

/-- aitch.go:18 (the body of a `Render` method) — Programs: `pure` returns, `step` performs an effect and continues
with its result, `stuck` is a computation cut off by lack of fuel. -/
inductive Prog (α : Type) where
  | pure (a : α)
  | step (a : Action) (k : a.Resp → Prog α)
  | stuck

/-- aitch.go:18 — sequencing of statements in a `Render` method. -/
def Prog.bind {α β : Type} : Prog α → (α → Prog β) → Prog β
  | .pure a, f => f a
  | .step a k, f => .step a fun r => (k r).bind f
  | .stuck, _ => .stuck

/-- aitch.go:18 — the same as `Prog.bind`, for `do` notation. -/
instance : Monad Prog where
  pure := Prog.pure
  bind := Prog.bind

/-! Programs of one effect. -/

namespace Do
@[inherit_doc Action.write] def write (data : Bytes) : Prog (Nat × Option Err) := .step (.write data) .pure
@[inherit_doc Action.ctx] def ctx : Prog (Ctx) := .step (.ctx) .pure
@[inherit_doc Action.setErr] def setErr (e : Option Err) : Prog (Unit) := .step (.setErr e) .pure
@[inherit_doc Action.dyn] def dyn (f : FnId) : Prog (Bytes) := .step (.dyn f) .pure
@[inherit_doc Action.cond] def cond (f : FnId) : Prog (Bool) := .step (.cond f) .pure
@[inherit_doc Action.collect] def collect (f : FnId) : Prog (List (Option Node)) := .step (.collect f) .pure
@[inherit_doc Action.items] def items (f : FnId) : Prog (List Any) := .step (.items f) .pure
@[inherit_doc Action.yields] def yields (f : FnId) : Prog (YieldProg) := .step (.yields f) .pure
@[inherit_doc Action.imp] def imp (f : FnId) : Prog (ImpProg) := .step (.imp f) .pure
@[inherit_doc Action.user] def user (upd : St → St) : Prog (St) := .step (.user upd) .pure
@[inherit_doc Action.look] def look : Prog (St) := .step (.look) .pure
@[inherit_doc Action.order] def order (keys : List Bytes) : Prog (List Bytes) := .step (.order keys) .pure
@[inherit_doc Action.enter] def enter (child : Frame) : Prog (Unit) := .step (.enter child) .pure
@[inherit_doc Action.setItem] def setItem (item : Any) (data : Option MapId) : Prog (Unit) := .step (.setItem item data) .pure
@[inherit_doc Action.leave] def leave : Prog (Frame) := .step (.leave) .pure
end Do

/-- attribute.go:114-116 and everywhere else — `if b { m }`. -/
def Prog.when (b : Bool) (m : Prog Unit) : Prog Unit := if b then m else pure ()

/-- aitch.go:18 (a call of a `Render` method) — Running a program; `none` when it gets stuck. -/
def exec {α : Type} (env : Env) : Prog α → St → Option (α × St)
  | .pure a, s => some (a, s)
  | .step a k, s => exec env (k (a.run env s).1) (a.run env s).2
  | .stuck, _ => none

end Aitch

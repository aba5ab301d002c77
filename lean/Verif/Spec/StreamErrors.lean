import Verif.Spec.Stream
import Verif.Spec.Writers
/-
Failing writers, when user functions themselves write to the context and render nodes with it.
-/
namespace Aitch.Spec.Stream
open Aitch.Stream

mutual
/-- The body of a function does not clear `ctx.Error`; when a write of its own fails, the next thing it does is to set
`ctx.Error`; it renders no `Imperative(nil)`; and what it returns satisfies `P`. -/
inductive CarefulFn {α : Type} (P : α → Prop) : FnProg α → Prop
  | ret {a} : P a → CarefulFn P (.ret a)
  | user {upd k} : KeepsError upd → (∀ s, CarefulFn P (k s)) → CarefulFn P (.user upd k)
  | write {d k} : (∀ n s, CarefulFn P (k (n, none) s)) → (∀ n e s, NotesFn P (k (n, some e) s)) →
      CarefulFn P (.write d k)
  | render {n k} : NoNilImp n → (∀ e s, CarefulFn P (k e s)) → CarefulFn P (.render n k)
/-- The body sets `ctx.Error`, and goes on carefully. -/
inductive NotesFn {α : Type} (P : α → Prop) : FnProg α → Prop
  | user {upd k} : (∀ s, (upd s).frame.err ≠ none) → (∀ s, CarefulFn P (k s)) → NotesFn P (.user upd k)
end

mutual
/-- The same for the function of an `IterateYield`. -/
inductive CarefulBody : YieldBody → Prop
  | done : CarefulBody .done
  | yield {it k} : (∀ s, CarefulBody (k s)) → CarefulBody (.yield it k)
  | user {upd k} : KeepsError upd → (∀ s, CarefulBody (k s)) → CarefulBody (.user upd k)
  | write {d k} : (∀ n s, CarefulBody (k (n, none) s)) → (∀ n e s, NotesBody (k (n, some e) s)) →
      CarefulBody (.write d k)
  | render {n k} : NoNilImp n → (∀ e s, CarefulBody (k e s)) → CarefulBody (.render n k)
/-- The body sets `ctx.Error`, and goes on carefully. -/
inductive NotesBody : YieldBody → Prop
  | user {upd k} : (∀ s, (upd s).frame.err ≠ none) → (∀ s, CarefulBody (k s)) → NotesBody (.user upd k)
end

/-- The body of a function neither writes nor renders, and does not clear `ctx.Error`. -/
inductive QuietFn {α : Type} : FnProg α → Prop
  | ret {a} : QuietFn (.ret a)
  | user {upd k} : KeepsError upd → (∀ s, QuietFn (k s)) → QuietFn (.user upd k)

/-- All user functions are careful with `ctx.Error`, but whether those given to `Iterate` may write is left open. -/
structure Careful (env : Env) (B : Bodies) : Prop where
  dyn : ∀ f s, CarefulFn (fun _ => True) (B.dyn f s)
  cond : ∀ f s, CarefulFn (fun _ => True) (B.cond f s)
  collect : ∀ f s, CarefulFn (fun ns => ∀ n, some n ∈ ns → NoNilImp n) (B.collect f s)
  items : ∀ f s, CarefulFn (fun _ => True) (B.items f s)
  yields : ∀ f s, CarefulBody (B.yields f s)
  imp : ∀ f s, CarefulImp s (env.imp f s)
  calls : ∀ f s, NoNilImpCalls (env.imp f s)

/-- The functions given to `Iterate` do not write. -/
def QuietItems (B : Bodies) : Prop := ∀ f s, QuietFn (B.items f s)

/-- The body of a function, entered in state `s`, does not set `ctx.Error`, unless to an error that a write has returned. -/
inductive HonestFn {α : Type} : St → FnProg α → Prop
  | ret {s a} : HonestFn s (.ret a)
  | user {s upd k} : NoNewError s upd → (∀ s', HonestFn s' (k s')) → HonestFn s (.user upd k)
  | write {s d k} : (∀ (r : Nat × Option Err) (s' : St), (∀ x, r.2 = some x → Returned s'.log x) → HonestFn s' (k r s')) →
      HonestFn s (.write d k)
  | render {s n k} : (∀ (e : Option Err) (s' : St), (∀ x, e = some x → Returned s'.log x) → HonestFn s' (k e s')) →
      HonestFn s (.render n k)

/-- The same for the function of an `IterateYield`. -/
inductive HonestBody : St → YieldBody → Prop
  | done {s} : HonestBody s .done
  | yield {s it k} : (∀ s', HonestBody s' (k s')) → HonestBody s (.yield it k)
  | user {s upd k} : NoNewError s upd → (∀ s', HonestBody s' (k s')) → HonestBody s (.user upd k)
  | write {s d k} : (∀ (r : Nat × Option Err) (s' : St), (∀ x, r.2 = some x → Returned s'.log x) → HonestBody s' (k r s')) →
      HonestBody s (.write d k)
  | render {s n k} : (∀ (e : Option Err) (s' : St), (∀ x, e = some x → Returned s'.log x) → HonestBody s' (k e s')) →
      HonestBody s (.render n k)

/-- No user function brings an error of its own. -/
structure Honest (env : Env) (B : Bodies) : Prop where
  dyn : ∀ f s, HonestFn s (B.dyn f s)
  cond : ∀ f s, HonestFn s (B.cond f s)
  collect : ∀ f s, HonestFn s (B.collect f s)
  items : ∀ f s, HonestFn s (B.items f s)
  yields : ∀ f s, HonestBody s (B.yields f s)
  imp : ∀ f s, HonestImp s (env.imp f s)

end Aitch.Spec.Stream

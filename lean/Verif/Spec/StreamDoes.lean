import Verif.Spec.Stream
/-
What a user function does, and what the node that calls it makes of that, with any writer.
-/
namespace Aitch.Spec.Stream
open Aitch.Stream

section
variable (env : Env) (B : Bodies)

/-- The body of a function, entered in state `s`, returns `a` in state `s'`.  It is told the results of its writes and of the
nodes it renders. -/
inductive Does {α : Type} : FnProg α → St → α → St → Prop
  | ret {a s} : Does (.ret a) s a s
  | user {upd k s a s'} : Does (k (s.confine (upd s))) (s.confine (upd s)) a s' → Does (.user upd k) s a s'
  | write {d k s r a s'} : env.write s.log d = r → Does (k r (s.wrote d r)) (s.wrote d r) a s' → Does (.write d k) s a s'
  | render {n k s e s₁ a s'} : Ends env B n s e s₁ → Does (k e s₁) s₁ a s' → Does (.render n k) s a s'

/-- Nodes are rendered one after the other, until one returns an error. -/
inductive Each : List Node → St → Option Err → St → Prop
  | nil {s} : Each [] s none s
  | ok {n ns s s₁ e s'} : Ends env B n s none s₁ → Each ns s₁ e s' → Each (n :: ns) s e s'
  | err {n ns s x s'} : Ends env B n s (some x) s' → Each (n :: ns) s (some x) s'

/-- Nodes are rendered one after the other, with their errors in `ctx.Error`, until one returns an error. -/
inductive Noting : List Node → St → St → Prop
  | nil {s} : Noting [] s s
  | ok {n ns s s₁ s'} : Ends env B n s none s₁ → Noting ns (s₁.setErr none) s' → Noting (n :: ns) s s'
  | err {n ns s x s₁} : Ends env B n s (some x) s₁ → Noting (n :: ns) s (s₁.setErr (some x))

/-- Nodes that are neither nil nor attributes are rendered one after the other. -/
inductive All : List (Option Node) → St → St → Prop
  | nil {s} : All [] s s
  | skip {ns s s'} : All ns s s' → All (none :: ns) s s'
  | attr {a ns s s'} : All ns s s' → All (some (.attr a) :: ns) s s'
  | node {n ns s e s₁ s'} : (∀ a, n ≠ .attr a) → Ends env B n s e s₁ → All ns s₁ s' → All (some n :: ns) s s'

/-- The context with an item: it is the `Cargo`, and the `Data` if it is a map; otherwise `Data` is `data`. -/
def withItem (fr : Frame) (data : Option MapId) (it : Any) : Frame :=
  { fr with cargo := it, data := match it with | .map m => some m | _ => data }

/-- Nodes `ns` are rendered for each of the items, until there is an error. -/
inductive Over (ns : List Node) (data : Option MapId) : List Any → St → Option Err → St → Prop
  | nil {s} : Over ns data [] s none s
  | ok {it its s s₁ e s'} : Each env B ns { s with frame := withItem s.frame data it } none s₁ → Over ns data its s₁ e s' →
      Over ns data (it :: its) s e s'
  | err {it its s x s'} : Each env B ns { s with frame := withItem s.frame data it } (some x) s' →
      Over ns data (it :: its) s (some x) s'

/-- In a child of the context of `s`. -/
def within (s : St) (child : Frame) : St := { s with frame := child, parents := s.frame :: s.parents }

/-- Back in the context of `s` from a child that ended in `t`, with an error in `ctx.Error` if there was one. -/
def back (s t : St) (e : Option Err) : St := { t with frame := { s.frame with err := e.or s.frame.err }, parents := s.parents }

/-- The function given to `IterateYield` over nodes `ns`, entered in state `s`, with `child` for the context that it yields
in, returns in state `s'`.  To yield is to render the nodes in that context, with the item. -/
inductive Yields (ns : List Node) : YieldBody → Frame → St → St → Prop
  | done {child s} : Yields ns .done child s s
  | user {upd k child s s'} : Yields ns (k (s.confine (upd s))) child (s.confine (upd s)) s' →
      Yields ns (.user upd k) child s s'
  | write {d k child s r s'} : env.write s.log d = r → Yields ns (k r (s.wrote d r)) child (s.wrote d r) s' →
      Yields ns (.write d k) child s s'
  | render {n k child s e s₁ s'} : Ends env B n s e s₁ → Yields ns (k e s₁) child s₁ s' →
      Yields ns (.render n k) child s s'
  | yield {it k child s e t s'} : Each env B ns (within s (withItem child child.data it)) e t →
      Yields ns (k (back s t e)) t.frame (back s t e) s' → Yields ns (.yield it k) child s s'

end

/-- A function given to `Imperative` that only computes, writes to the writer and renders nodes, as such. -/
def asImp : FnProg (Option Err) → ImpProg
  | .ret e => .ret e
  | .user upd k => .user upd fun s => asImp (k s)
  | .write d k => .write d fun r s => asImp (k r s)
  | .render n k => .render n fun e s => asImp (k e s)

end Aitch.Spec.Stream

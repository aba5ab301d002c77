import Verif.Spec.Iter
import Verif.Spec.StreamPanic
/-
Data and Cargo of the context when user functions write and render.
-/
namespace Aitch.Spec.Stream
open Aitch.Stream

/-- A function that does not itself change `Data` and `Cargo` of its context. -/
inductive KeepsItemFn {α : Type} : FnProg α → Prop
  | ret {a} : KeepsItemFn (.ret a)
  | user {upd k} : KeepsItem upd → (∀ s, KeepsItemFn (k s)) → KeepsItemFn (.user upd k)
  | write {d k} : (∀ r s, KeepsItemFn (k r s)) → KeepsItemFn (.write d k)
  | render {n k} : (∀ e s, KeepsItemFn (k e s)) → KeepsItemFn (.render n k)

/-- The same of a function given to `IterateYield`. -/
inductive KeepsItemBody : YieldBody → Prop
  | done : KeepsItemBody .done
  | yield {it k} : (∀ s, KeepsItemBody (k s)) → KeepsItemBody (.yield it k)
  | user {upd k} : KeepsItem upd → (∀ s, KeepsItemBody (k s)) → KeepsItemBody (.user upd k)
  | write {d k} : (∀ r s, KeepsItemBody (k r s)) → KeepsItemBody (.write d k)
  | render {n k} : (∀ e s, KeepsItemBody (k e s)) → KeepsItemBody (.render n k)

/-- No user function itself changes `Data` or `Cargo` of the context it is given. -/
structure KeepsItemBodies (env : Env) (B : Bodies) : Prop where
  dyn : ∀ f s, KeepsItemFn (B.dyn f s)
  cond : ∀ f s, KeepsItemFn (B.cond f s)
  collect : ∀ f s, KeepsItemFn (B.collect f s)
  items : ∀ f s, KeepsItemFn (B.items f s)
  yields : ∀ f s, KeepsItemBody (B.yields f s)
  imp : ∀ f s, KeepsItemImp (env.imp f s)

/-- Rendering the node leaves `Data` and `Cargo` of the context as they were. -/
def Leaves (env : Env) (B : Bodies) (n : Node) : Prop :=
  ∀ s e s', Ends env B n s e s' → s'.frame.data = s.frame.data ∧ s'.frame.cargo = s.frame.cargo

/-- A function that does not change `Data` and `Cargo` of its context, itself or by the nodes that it renders. -/
inductive LeavesFn (env : Env) (B : Bodies) {α : Type} : FnProg α → Prop
  | ret {a} : LeavesFn env B (.ret a)
  | user {upd k} : KeepsItem upd → (∀ s, LeavesFn env B (k s)) → LeavesFn env B (.user upd k)
  | write {d k} : (∀ r s, LeavesFn env B (k r s)) → LeavesFn env B (.write d k)
  | render {n k} : Leaves env B n → (∀ e s, LeavesFn env B (k e s)) → LeavesFn env B (.render n k)

/-- The same of a function given to `IterateYield`.  (What happens in the child context of a yielded item does not
matter.) -/
inductive LeavesBody (env : Env) (B : Bodies) : YieldBody → Prop
  | done : LeavesBody env B .done
  | yield {it k} : (∀ s, LeavesBody env B (k s)) → LeavesBody env B (.yield it k)
  | user {upd k} : KeepsItem upd → (∀ s, LeavesBody env B (k s)) → LeavesBody env B (.user upd k)
  | write {d k} : (∀ r s, LeavesBody env B (k r s)) → LeavesBody env B (.write d k)
  | render {n k} : Leaves env B n → (∀ e s, LeavesBody env B (k e s)) → LeavesBody env B (.render n k)

end Aitch.Spec.Stream

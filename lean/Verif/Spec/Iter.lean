import Verif.Spec.Built
/-
Iteration: what the iterated nodes see, and user functions that leave Data and Cargo alone.
-/
namespace Aitch.Spec

/-- User code that changes neither `Data` nor `Cargo` of the context it is given (it may change anything else). -/
def KeepsItem (upd : St → St) : Prop :=
  ∀ s, (upd s).frame.data = s.frame.data ∧ (upd s).frame.cargo = s.frame.cargo

/-- A function given to `IterateYield` that changes neither `Data` nor `Cargo` of its context. -/
inductive KeepsItemYield : YieldProg → Prop
  | done : KeepsItemYield .done
  | yield {it k} : (∀ s, KeepsItemYield (k s)) → KeepsItemYield (.yield it k)
  | user {upd k} : KeepsItem upd → (∀ s, KeepsItemYield (k s)) → KeepsItemYield (.user upd k)
  | write {d k} : (∀ r s, KeepsItemYield (k r s)) → KeepsItemYield (.write d k)

/-- A function given to `Imperative` that changes neither `Data` nor `Cargo` of its context. -/
inductive KeepsItemImp : ImpProg → Prop
  | ret {e} : KeepsItemImp (.ret e)
  | call {op k} : (∀ s, KeepsItemImp (k s)) → KeepsItemImp (.call op k)
  | user {upd k} : KeepsItem upd → (∀ s, KeepsItemImp (k s)) → KeepsItemImp (.user upd k)
  | render {n k} : (∀ e s, KeepsItemImp (k e s)) → KeepsItemImp (.render n k)
  | write {d k} : (∀ r s, KeepsItemImp (k r s)) → KeepsItemImp (.write d k)

/-- No user function changes `Data` or `Cargo` of the context it is given. -/
structure KeepsItemFns (env : Env) : Prop where
  dyn : ∀ f, KeepsItem fun s => (env.dyn f s).2
  cond : ∀ f, KeepsItem fun s => (env.cond f s).2
  collect : ∀ f, KeepsItem fun s => (env.collect f s).2
  items : ∀ f, KeepsItem fun s => (env.items f s).2
  yields : ∀ f s, KeepsItemYield (env.yields f s)
  imp : ∀ f s, KeepsItemImp (env.imp f s)

/-- The last map among some items. -/
def lastMap (items : List Any) : Option MapId :=
  (items.filterMap fun
    | .map m => some m
    | _ => none).getLast?

/-- The items, each with the items before it. -/
def withBefore {α : Type} (before : List α) : List α → List (List α × α)
  | [] => []
  | x :: xs => (before, x) :: withBefore (before ++ [x]) xs

end Aitch.Spec

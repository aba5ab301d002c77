import Verif.Model.Render
/-
Fuel only decides whether a run ends.
-/
namespace Aitch

/-- `m'` goes on wherever `m` is not stuck. -/
inductive Le {α : Type} : Prog α → Prog α → Prop
  | pure (a : α) : Le (.pure a) (.pure a)
  | step (a : Action) (k k' : a.Resp → Prog α) : (∀ r, Le (k r) (k' r)) → Le (.step a k) (.step a k')
  | stuck (m : Prog α) : Le .stuck m

theorem Le.refl {α : Type} (m : Prog α) : Le m m := by
  induction m with
  | pure a => exact .pure a
  | step a k ih => exact .step a k k ih
  | stuck => exact .stuck _

theorem Le.bind {α β : Type} {m m' : Prog α} {f f' : α → Prog β} (hm : Le m m') (hf : ∀ a, Le (f a) (f' a)) :
    Le (m >>= f) (m' >>= f') := by
  change Le (m.bind f) (m'.bind f')
  induction hm with
  | pure a => exact hf a
  | step a k k' _ ih => exact .step a _ _ ih
  | stuck m => exact .stuck _

theorem Le.exec {α : Type} {env : Env} {m m' : Prog α} (h : Le m m') {s : St} {r : α × St}
    (he : exec env m s = some r) : Aitch.exec env m' s = some r := by
  induction h generalizing s with
  | pure a => exact he
  | step a k k' _ ih => exact ih _ he
  | stuck m => simp [Aitch.exec] at he

theorem Le.bindR {α β : Type} {m : Prog α} {f f' : α → Prog β} (hf : ∀ a, Le (f a) (f' a)) :
    Le (m >>= f) (m >>= f') := .bind (.refl m) hf

section
variable {rec rec' : Render} (R : ∀ n, Le (rec n) (rec' n))
include R

theorem Le.contentLoop : (ns : List Node) → Le (contentLoop rec ns) (contentLoop rec' ns)
  | [] => .refl _
  | n :: ns => .bind (R n) fun _ => .bindR fun _ => Le.contentLoop ns

theorem Le.conditionalLoop : (ns : List Node) → Le (conditionalLoop rec ns) (conditionalLoop rec' ns)
  | [] => .refl _
  | n :: ns => by
    refine .bind (R n) fun e => .bindR fun _ => ?_
    cases e
    · exact Le.conditionalLoop ns
    · exact .refl _

theorem Le.collectionLoop : (ns : List Node) → Le (collectionLoop rec ns) (collectionLoop rec' ns)
  | [] => .refl _
  | n :: ns => by
    unfold Aitch.collectionLoop
    split
    · exact Le.collectionLoop ns
    · refine .bind (R n) fun e => .bindR fun _ => ?_
      cases e
      · exact Le.collectionLoop ns
      · exact .refl _

theorem Le.ignoreLoop : (ns : List (Option Node)) → Le (ignoreLoop rec ns) (ignoreLoop rec' ns)
  | [] => .refl _
  | none :: ns => Le.ignoreLoop ns
  | some n :: ns => by
    unfold Aitch.ignoreLoop
    split
    · exact Le.ignoreLoop ns
    · exact .bind (R n) fun _ => Le.ignoreLoop ns

theorem Le.documentLoop : (ns : List Node) → Le (documentLoop rec ns) (documentLoop rec' ns)
  | [] => .refl _
  | n :: ns => .bind (R n) fun _ => Le.documentLoop ns

theorem Le.iterNodes : (ns : List Node) → Le (iterNodes rec ns) (iterNodes rec' ns)
  | [] => .refl _
  | n :: ns => by
    refine .bind (R n) fun e => ?_
    cases e
    · exact Le.iterNodes ns
    · exact .refl _

theorem Le.iterItems (ns : List Node) (d : Option MapId) :
    (its : List Any) → Le (iterItems rec ns d its) (iterItems rec' ns d its)
  | [] => .refl _
  | it :: its => by
    refine .bindR fun _ => .bind (Le.iterNodes R ns) fun e => ?_
    cases e
    · exact Le.iterItems ns d its
    · exact .refl _

theorem Le.renderIterator (ns : List Node) (fn : ItemSrc) :
    Le (renderIterator rec ns fn) (renderIterator rec' ns fn) := by
  unfold Aitch.renderIterator
  refine .bindR fun c => ?_
  split
  · exact .refl _
  · refine .bindR fun its => ?_
    split
    · exact .refl _
    · exact .bindR fun c => .bindR fun _ => .bind (Le.iterItems R ns _ _) fun e => .refl _

theorem Le.runYield (ns : List Node) (p : YieldProg) (child : Frame) :
    Le (runYield rec ns p child) (runYield rec' ns p child) := by
  induction p generalizing child with
  | done => exact .refl _
  | user upd k ih => exact .bindR fun s => ih s child
  | write d k ih => exact .bindR fun r => .bindR fun s => ih r s child
  | yield it k ih =>
    exact .bindR fun _ => .bindR fun _ => .bind (Le.iterNodes R ns) fun e => .bindR fun child =>
      .bindR fun _ => .bindR fun s => ih s child

theorem Le.renderYield (ns : List Node) (f : FnId) : Le (renderYield rec ns f) (renderYield rec' ns f) := by
  unfold Aitch.renderYield
  refine .bindR fun c => ?_
  split
  · exact .refl _
  · exact .bindR fun p => .bind (Le.runYield R ns p _) fun _ => .refl _

theorem Le.runOp (op : ImpOp) (stack : List Bytes) : Le (runOp rec op stack) (runOp rec' op stack) := by
  cases op with
  | writeNodes ns => exact .bind (Le.ignoreLoop R ns) fun _ => .refl _
  | _ => exact .refl _

theorem Le.runImp (p : ImpProg) (stack : List Bytes) : Le (runImp rec p stack) (runImp rec' p stack) := by
  induction p generalizing stack with
  | ret e => exact .refl _
  | user upd k ih => exact .bindR fun s => ih s stack
  | call op k ih => exact .bind (Le.runOp R op stack) fun stack => .bindR fun s => ih s stack
  | render n k ih => exact .bind (R n) fun e => .bindR fun s => ih e s stack
  | write d k ih => exact .bindR fun r => .bindR fun s => ih r s stack

theorem Le.renderStep (n : Node) : Le (renderStep rec n) (renderStep rec' n) := by
  cases n with
  | element h cs => exact .bindR fun _ => .bind (Le.contentLoop R cs) fun _ => .refl _
  | voidElement h => exact .refl _
  | attr a => exact .refl _
  | text vs => exact .refl _
  | comment vs => exact .refl _
  | fragment vs => exact .refl _
  | pi n vs => exact .refl _
  | collection ns => exact .bind (Le.collectionLoop R ns) fun _ => .refl _
  | conditional ns as fn =>
    refine .bindR fun b => .bind ?_ fun _ => .refl _
    cases b
    · exact .refl _
    · exact Le.conditionalLoop R ns
  | collector f => exact .bindR fun ns => .bind (Le.ignoreLoop R ns) fun _ => .refl _
  | imperative f =>
    cases f with
    | none => exact .refl _
    | some f => exact .bindR fun p => Le.runImp R p []
  | iterator ns fn => exact Le.renderIterator R ns fn
  | yieldIterator ns f => exact Le.renderYield R ns f
  | document p cs => exact .bind (Le.documentLoop R _) fun _ => .refl _

end

theorem Le.renderProg {f f' : Nat} (h : f ≤ f') (n : Node) : Le (renderProg f n) (renderProg f' n) := by
  induction f generalizing f' n with
  | zero => exact .stuck _
  | succ f ih =>
    obtain ⟨f', rfl⟩ : ∃ g, f' = g + 1 := ⟨f' - 1, by omega⟩
    exact Le.renderStep (fun n => ih (by omega) n) n

/-- More fuel does not change the result of a render that ends. -/
theorem render_mono {env : Env} {f f' : Nat} (h : f ≤ f') {n : Node} {s : St} {r : Option Err × St}
    (hr : render env f n s = some r) : render env f' n s = some r := (Le.renderProg h n).exec hr

/-- The result does not depend on the amount of fuel. -/
theorem render_unique {env : Env} {f f' : Nat} {n : Node} {s : St} {r r' : Option Err × St}
    (hr : render env f n s = some r) (hr' : render env f' n s = some r') : r = r' := by
  have h1 := render_mono (Nat.le_max_left f f') hr
  have h2 := render_mono (Nat.le_max_right f f') hr'
  rw [h1] at h2; simpa using h2

end Aitch

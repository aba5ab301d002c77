import Verif.Proofs.Iter
/-
Data and Cargo of the context are kept by every render, if the user functions keep those of their context.
-/
set_option linter.unusedSectionVars false

namespace Aitch
open Spec

/-- `m` leaves Data and Cargo of the current context as they were. -/
def KeepsItems (env : Env) {α} (m : Prog α) : Prop :=
  ∀ d c, Trip env (SameItem d c) m fun _ => SameItem d c

section
variable {env : Env} {α β : Type}

theorem KeepsItems.pure (a : α) : KeepsItems env (Pure.pure a : Prog α) := fun _ _ => .pure fun _ h => h

theorem KeepsItems.stuck : KeepsItems env (.stuck : Prog α) := fun _ _ => .stuck

theorem KeepsItems.bind {m : Prog α} {f : α → Prog β} (hm : KeepsItems env m) (hf : ∀ a, KeepsItems env (f a)) :
    KeepsItems env (m >>= f) := fun d c => .bind (hm d c) fun a => hf a d c

theorem KeepsItems.act {a : Action}
    (h : ∀ s, (a.run env s).2.frame.data = s.frame.data ∧ (a.run env s).2.frame.cargo = s.frame.cargo) :
    KeepsItems env (.step a .pure) := fun _ _ => .act fun s hs => ⟨(h s).1.trans hs.1, (h s).2.trans hs.2⟩

theorem KeepsItems.ctx : KeepsItems env Do.ctx := .act fun _ => ⟨rfl, rfl⟩
theorem KeepsItems.write (d) : KeepsItems env (Do.write d) := .act fun _ => ⟨rfl, rfl⟩
theorem KeepsItems.setErr (e) : KeepsItems env (Do.setErr e) := .act fun _ => ⟨rfl, rfl⟩
theorem KeepsItems.yields (f) : KeepsItems env (Do.yields f) := .act fun _ => ⟨rfl, rfl⟩
theorem KeepsItems.imp (f) : KeepsItems env (Do.imp f) := .act fun _ => ⟨rfl, rfl⟩
theorem KeepsItems.look : KeepsItems env Do.look := .act fun _ => ⟨rfl, rfl⟩
theorem KeepsItems.order (ks) : KeepsItems env (Do.order ks) := .act fun _ => ⟨rfl, rfl⟩
theorem KeepsItems.user {u} (h : KeepsItem u) : KeepsItems env (Do.user u) := .act h

theorem KeepsItems.when {b : Bool} {m : Prog Unit} (h : KeepsItems env m) : KeepsItems env (Prog.when b m) := by
  unfold Prog.when; split
  · exact h
  · exact .pure _

end

/-- The assumption about the user functions, found automatically. -/
class ItemFns (env : Env) : Prop where
  fns : KeepsItemFns env

section
variable {env : Env} [U : ItemFns env]

theorem KeepsItems.dyn (f) : KeepsItems env (Do.dyn f) := .act (U.fns.dyn f)
theorem KeepsItems.cond (f) : KeepsItems env (Do.cond f) := .act (U.fns.cond f)
theorem KeepsItems.collect (f) : KeepsItems env (Do.collect f) := .act (U.fns.collect f)
theorem KeepsItems.items (f) : KeepsItems env (Do.items f) := .act (U.fns.items f)

theorem KeepsItems.ctxWrite (d : Bytes) : KeepsItems env (ctxWrite d) := by
  unfold Aitch.ctxWrite
  refine .bind .ctx fun c => ?_
  split
  · exact .bind (.write d) fun _ => .setErr _
  · exact .pure _

theorem KeepsItems.retErr : KeepsItems env retErr := .bind .ctx fun _ => .pure _

theorem KeepsItems.runDyn (d : Dyn) : KeepsItems env (runDyn d) := by
  cases d with
  | user f => exact .dyn f
  | key k => refine .bind .ctx fun c => ?_; split <;> exact .pure _
  | cargo => exact .bind .ctx fun _ => .pure _

theorem KeepsItems.valueWrite (d : Bytes) : KeepsItems env (valueWrite d) :=
  .bind (.write d) fun _ => .bind (.setErr _) fun _ => .pure _

mutual
theorem KeepsItems.renderValue : (v : Value) → KeepsItems env (renderValue v)
  | .mk _ (some d) _ => .bind (.runDyn d) fun _ => .valueWrite _
  | .mk v none [] => .valueWrite v
  | .mk _ none (c :: cs) => .bind (.renderValue c) fun _ => .bind (.renderConcats cs _) fun _ => .pure _
theorem KeepsItems.renderConcats : (vs : List Value) → (l : Nat) → KeepsItems env (renderConcats vs l)
  | [], _ => .pure _
  | c :: cs, _ => .bind (.renderValue c) fun _ => .renderConcats cs _
end

theorem KeepsItems.renderValues : (vs : List Value) → KeepsItems env (renderValues vs)
  | [] => .pure _
  | v :: vs => .bind (.renderValue v) fun _ => .renderValues vs

theorem KeepsItems.renderDelimValues (d : Bytes) : (vs : List Value) → (b : Bool) →
    KeepsItems env (renderDelimValues d vs b)
  | [], _ => .pure _
  | v :: vs, _ => .bind (.when (.ctxWrite d)) fun _ => .bind (.renderValue v) fun _ => .renderDelimValues d vs _

theorem KeepsItems.renderDelim (n d : Bytes) (vs : List Value) : KeepsItems env (renderDelim n d vs) :=
  .bind (.ctxWrite _) fun _ => .bind (.ctxWrite _) fun _ => .bind (.ctxWrite _) fun _ =>
    .bind (.renderDelimValues d vs false) fun _ => .ctxWrite _

theorem KeepsItems.renderAttr (a : Attr) : KeepsItems env (renderAttr a) := by
  cases a with
  | plain n vs =>
    exact .bind (.ctxWrite _) fun _ => .bind (.ctxWrite _) fun _ => .bind (.ctxWrite _) fun _ =>
      .bind (.renderValues vs) fun _ => .ctxWrite _
  | bool n => exact .bind (.ctxWrite _) fun _ => .ctxWrite _
  | delim n d r => exact .bind .ctx fun _ => .renderDelim _ _ _

theorem KeepsItems.runCond (k : Cond) : KeepsItems env (runCond k) := by
  cases k with
  | user f => exact .cond f
  | has k => refine .bind .ctx fun c => ?_; split <;> exact .pure _
  | hasNot k => refine .bind .ctx fun c => ?_; split <;> exact .pure _

theorem KeepsItems.evalConds : (ks : List Cond) → KeepsItems env (evalConds ks)
  | [] => .pure _
  | k :: ks => by
    refine .bind (.runCond k) fun b => ?_
    split
    · exact KeepsItems.evalConds ks
    · exact .pure _

theorem KeepsItems.evaluate : (cas : List CondAttr) → (acc : List (Bytes × List Attr)) →
    KeepsItems env (evaluate cas acc)
  | [], _ => .pure _
  | _ :: as, _ => .bind (.evalConds _) fun _ => .evaluate as _

theorem KeepsItems.renderChosen (a : Attr) (m : List Attr) (l : Attr) : KeepsItems env (renderChosen a m l) := by
  unfold Aitch.renderChosen
  split
  · exact .bind .ctx fun _ => .renderDelim _ _ _
  · exact .renderAttr l

theorem KeepsItems.renderStatics (h : ElemHead) (ev : List (Bytes × List Attr)) : (ns : List Bytes) →
    KeepsItems env (renderStatics h ev ns)
  | [] => .pure _
  | n :: ns => by
    refine .bind ?_ fun _ => KeepsItems.renderStatics h ev ns
    unfold renderStatic
    split
    · exact .pure _
    · split
      · exact .pure _
      · split
        · exact .renderChosen _ _ _
        · exact .renderAttr _

theorem KeepsItems.renderExtras (h : ElemHead) (ev : List (Bytes × List Attr)) : (ns : List Bytes) →
    KeepsItems env (renderExtras h ev ns)
  | [] => .pure _
  | n :: ns => by
    refine .bind ?_ fun _ => KeepsItems.renderExtras h ev ns
    unfold renderExtra
    split
    · exact .renderChosen _ _ _
    · exact .pure _

theorem KeepsItems.renderAttrs : (as : List Attr) → KeepsItems env (renderAttrs as)
  | [] => .pure _
  | a :: as => .bind (.renderAttr a) fun _ => .renderAttrs as

theorem KeepsItems.renderAttributes (h : ElemHead) : KeepsItems env (renderAttributes h) := by
  unfold Aitch.renderAttributes
  split
  · refine .bind (.evaluate _ _) fun ev => ?_
    split
    · exact .bind (.order _) fun _ => .bind (.renderStatics _ _ _) fun _ => .bind (.order _) fun _ =>
        .renderExtras _ _ _
    · exact .renderAttrs _
  · exact .renderAttrs _

theorem KeepsItems.renderStartTag (h : ElemHead) : KeepsItems env (renderStartTag h) :=
  .bind (.ctxWrite _) fun _ => .bind (.ctxWrite _) fun _ => .bind (.renderAttributes h) fun _ => .ctxWrite _

theorem KeepsItems.renderEndTag (n : Bytes) : KeepsItems env (renderEndTag n) :=
  .bind (.ctxWrite _) fun _ => .bind (.ctxWrite _) fun _ => .ctxWrite _

theorem KeepsItems.startWrite : (l : List (Bytes × Option (List Value))) → KeepsItems env (startWrite l)
  | [] => .pure _
  | (n, vs) :: l => by
    refine .bind (.ctxWrite _) fun _ => .bind (.ctxWrite _) fun _ => .bind ?_ fun _ => KeepsItems.startWrite l
    cases vs with
    | none => exact .pure _
    | some vs => exact .bind (.ctxWrite _) fun _ => .bind (.renderValues vs) fun _ => .ctxWrite _

theorem KeepsItems.startTag (n : Bytes) (as : List (Option Node)) : KeepsItems env (startTag n as) :=
  .bind (.ctxWrite _) fun _ => .bind (.ctxWrite _) fun _ => .bind .ctx fun _ => .bind (.startWrite _) fun _ =>
    .ctxWrite _

theorem KeepsItems.endAll : (l : List Bytes) → KeepsItems env (endAll l)
  | [] => .pure _
  | n :: l => .bind (.renderEndTag n) fun _ => .endAll l

theorem KeepsItems.runItems (src : ItemSrc) : KeepsItems env (runItems src) := by
  cases src with
  | user f => exact .items f
  | key k => exact .bind .ctx fun _ => .pure _

section
variable {rec : Render} (R : ∀ n, KeepsItems env (rec n))
include R

theorem KeepsItems.contentLoop : (ns : List Node) → KeepsItems env (contentLoop rec ns)
  | [] => .pure _
  | n :: ns => .bind (R n) fun _ => .bind (.setErr _) fun _ => KeepsItems.contentLoop ns

theorem KeepsItems.conditionalLoop : (ns : List Node) → KeepsItems env (conditionalLoop rec ns)
  | [] => .pure _
  | n :: ns => by
    refine .bind (R n) fun e => .bind (.setErr _) fun _ => ?_
    cases e
    · exact KeepsItems.conditionalLoop ns
    · exact .pure _

theorem KeepsItems.collectionLoop : (ns : List Node) → KeepsItems env (collectionLoop rec ns)
  | [] => .pure _
  | n :: ns => by
    unfold Aitch.collectionLoop
    split
    · exact KeepsItems.collectionLoop ns
    · refine .bind (R n) fun e => .bind (.setErr _) fun _ => ?_
      cases e
      · exact KeepsItems.collectionLoop ns
      · exact .pure _

theorem KeepsItems.ignoreLoop : (ns : List (Option Node)) → KeepsItems env (ignoreLoop rec ns)
  | [] => .pure _
  | none :: ns => KeepsItems.ignoreLoop ns
  | some n :: ns => by
    unfold Aitch.ignoreLoop
    split
    · exact KeepsItems.ignoreLoop ns
    · exact .bind (R n) fun _ => KeepsItems.ignoreLoop ns

theorem KeepsItems.documentLoop : (ns : List Node) → KeepsItems env (documentLoop rec ns)
  | [] => .pure _
  | n :: ns => .bind (R n) fun _ => KeepsItems.documentLoop ns

end

theorem KeepsItems.renderIterator {rec : Render} (R : ∀ n, KeepsParents (rec n)) (ns : List Node) (fn : ItemSrc) :
    KeepsItems env (renderIterator rec ns fn) := fun _ _ => sameItem_iterator R ns fun f _ => U.fns.items f

theorem KeepsItems.renderYield {rec : Render} (R : ∀ n, KeepsParents (rec n)) (ns : List Node) (f : FnId) :
    KeepsItems env (renderYield rec ns f) := fun _ _ => sameItem_yield R ns (U.fns.yields f)

section
variable {rec : Render} (R : ∀ n, KeepsItems env (rec n))
include R

theorem KeepsItems.runOp (op : ImpOp) (st : List Bytes) : KeepsItems env (runOp rec op st) := by
  cases op with
  | writeString d => exact .bind (.ctxWrite _) fun _ => .pure _
  | writeRaw d => exact .bind (.ctxWrite _) fun _ => .pure _
  | writeNodes ns => exact .bind (.ignoreLoop R ns) fun _ => .pure _
  | start n v as => exact .bind (.startTag n as) fun _ => .pure _
  | «end» =>
    cases st with
    | nil => exact .pure _
    | cons n st => exact .bind (.renderEndTag n) fun _ => .pure _
  | endAll => exact .bind (.endAll st) fun _ => .pure _

theorem KeepsItems.runImp {p : ImpProg} (hp : KeepsItemImp p) (st : List Bytes) :
    KeepsItems env (runImp rec p st) := by
  induction hp generalizing st with
  | ret => exact .pure _
  | user hu _ ih => exact .bind (.user hu) fun s => ih s st
  | call _ ih => exact .bind (.runOp R _ st) fun st => .bind .look fun s => ih s st
  | render _ ih => exact .bind (R _) fun e => .bind .look fun s => ih e s st
  | write _ ih => exact .bind (.write _) fun r => .bind .look fun s => ih r s st

theorem KeepsItems.renderStep (R' : ∀ n, KeepsParents (rec n)) (n : Node) : KeepsItems env (renderStep rec n) := by
  cases n with
  | element h cs =>
    exact .bind (.renderStartTag h) fun _ => .bind (.contentLoop R cs) fun _ =>
      .bind (.renderEndTag _) fun _ => .retErr
  | voidElement h => exact .bind (.renderStartTag h) fun _ => .retErr
  | attr a => exact .bind (.renderAttr a) fun _ => .retErr
  | text vs => exact .bind (.renderValues vs) fun _ => .retErr
  | comment vs => exact .bind (.ctxWrite _) fun _ => .bind (.renderValues vs) fun _ => .bind (.ctxWrite _) fun _ => .retErr
  | fragment vs => exact .bind (.renderValues vs) fun _ => .retErr
  | pi n vs =>
    exact .bind (.ctxWrite _) fun _ => .bind (.ctxWrite _) fun _ => .bind (.ctxWrite _) fun _ =>
      .bind (.renderValues vs) fun _ => .bind (.ctxWrite _) fun _ => .retErr
  | collection ns => exact .bind (.collectionLoop R ns) fun _ => .retErr
  | conditional ns as fn => exact .bind (.runCond fn) fun _ => .bind (.when (.conditionalLoop R ns)) fun _ => .retErr
  | collector f => exact .bind (.collect f) fun ns => .bind (.ignoreLoop R ns) fun _ => .retErr
  | imperative f =>
    cases f with
    | none => exact .pure _
    | some f =>
      refine fun d c => .bind (Q := fun p s => SameItem d c s ∧ KeepsItemImp p) (.act fun s h => ⟨h, U.fns.imp f s⟩) fun p => ?_
      intro s r s' h he
      exact KeepsItems.runImp R h.2 [] d c s r s' h.1 he
  | iterator ns fn => exact .renderIterator R' ns fn
  | yieldIterator ns f => exact .renderYield R' ns f
  | document p cs => exact .bind (.documentLoop R _) fun _ => .retErr

end

theorem KeepsItems.renderProg : (fuel : Nat) → (n : Node) → KeepsItems env (renderProg fuel n)
  | 0, _ => .stuck
  | fuel + 1, n => .renderStep (KeepsItems.renderProg fuel) (KeepsParents.renderProg fuel) n

end

/-- No user function changes Data or Cargo of its context: then no render does. -/
theorem runs_keepsItems {env : Env} (U : KeepsItemFns env) {n : Node} {s s' : St} {e : Option Err}
    (h : Runs env n s e s') :
    s'.frame.data = s.frame.data ∧ s'.frame.cargo = s.frame.cargo ∧ s'.parents = s.parents := by
  obtain ⟨fuel, h⟩ := h
  have : ItemFns env := ⟨U⟩
  have h1 := KeepsItems.renderProg fuel n _ _ s e s' ⟨rfl, rfl⟩ h
  exact ⟨h1.1, h1.2, (KeepsParents.renderProg fuel _).keeps h⟩

end Aitch

import Verif.Proofs.Items
import Verif.Proofs.Machine
import Verif.Proofs.Fuel
import Verif.Spec.Panic
/-
Renders that panic.
-/
set_option linter.unusedSectionVars false

namespace Aitch
open Spec

section
variable {env : Env} {p : Panics} {α β : Type}

theorem execPanics_pure (a : α) (s : St) : execPanics env p (Pure.pure a) s = some (.returned a s) := rfl

/-- A program that returns although effects may panic is run as usual. -/
theorem execPanics_returned {m : Prog α} {s s' : St} {a : α} (h : execPanics env p m s = some (.returned a s')) :
    exec env m s = some (a, s') := by
  induction m generalizing s with
  | pure b => simp only [execPanics, Option.some.injEq, Outcome.returned.injEq] at h; obtain ⟨rfl, rfl⟩ := h; rfl
  | stuck => simp [execPanics] at h
  | step b k ih =>
    simp only [execPanics] at h
    split at h
    · cases h
    · exact ih _ h

theorem execPanics_bind {m : Prog α} {f : α → Prog β} {s : St} :
    execPanics env p (m >>= f) s = (execPanics env p m s).bind fun
      | .returned a s' => execPanics env p (f a) s'
      | .panicked s' => some (.panicked s') := by
  change execPanics env p (m.bind f) s = _
  induction m generalizing s with
  | pure b => rfl
  | stuck => rfl
  | step b k ih =>
    simp only [Prog.bind, execPanics]
    split
    · rfl
    · exact ih _

/-- Without panics, programs run as usual. -/
theorem execPanics_never (m : Prog α) (s : St) :
    execPanics env (fun _ _ => none) m s = (exec env m s).map fun r => .returned r.1 r.2 := by
  induction m generalizing s with
  | pure b => rfl
  | stuck => rfl
  | step b k ih =>
    simp only [execPanics, Panics.at, exec]
    split
    · split at * <;> simp_all
    · exact ih _ _

theorem Le.execPanics {m m' : Prog α} (h : Le m m') {s : St} {r : Outcome α}
    (he : execPanics env p m s = some r) : Aitch.execPanics env p m' s = some r := by
  induction h generalizing s with
  | pure a => exact he
  | step a k k' _ ih =>
    simp only [Aitch.execPanics] at he ⊢
    split
    · rename_i h1; rw [h1] at he; exact he
    · rename_i h1; rw [h1] at he; exact ih _ he
  | stuck m => simp [Aitch.execPanics] at he

/-- The writer's log when an effect panics is that before it. -/
theorem at_log {a : Action} {s s' : St} (h : p.at a s = some s') : s'.log = s.log := by
  unfold Panics.at at h
  split at h
  · obtain ⟨t, -, rfl⟩ := Option.map_eq_some_iff.1 h
    cases a <;> rfl
  · cases h

/-- What was written before the panic is a prefix of what the program would write. -/
theorem panicked_log {m : Prog α} {s s₁ s₂ : St} {a : α} (h : execPanics env p m s = some (.panicked s₁))
    (h₂ : exec env m s = some (a, s₂)) : s.log <+: s₁.log ∧ s₁.log <+: s₂.log := by
  induction m generalizing s with
  | pure b => cases h
  | stuck => cases h
  | step b k ih =>
    simp only [execPanics] at h
    split at h
    · rename_i s' h1
      cases h
      rw [at_log h1]
      exact ⟨List.prefix_rfl, (run_log env b s).trans (exec_log h₂)⟩
    · exact ⟨(run_log env b s).trans (ih _ h h₂).1, (ih _ h h₂).2⟩

/-- Memory at a panic. -/
theorem panicked_shared {R : Shared → Shared → Prop} (hR : Equivalence R) {I : Ctx → Prop} {N : Node → Prop}
    (hI : ∀ s s' : St, R s.shared s'.shared → I s.toCtx → I s'.toCtx) (hp : PanicKeeps R p) {m : Prog α}
    (hm : Uni R I N (Respects R I N env) m) {s s' : St} (hs : I s.toCtx)
    (h : execPanics env p m s = some (.panicked s')) : R s.shared s'.shared := by
  induction hm generalizing s with
  | pure a => cases h
  | stuck => cases h
  | step a k ha _ _ ih =>
    have h0 := (ha.1 s s ⟨rfl, hR.refl _⟩).2.2
    simp only [execPanics] at h
    split at h
    · rename_i t h1
      cases h
      unfold Panics.at at h1
      split at h1
      · obtain ⟨t, h2, rfl⟩ := Option.map_eq_some_iff.1 h1
        have h3 := hp _ _ _ h2
        cases a <;> first | exact h3 | exact hR.refl _
      · cases h1
    · exact hR.trans h0 (ih _ (ha.2 _ hs) (hI s _ h0 hs) h)

end

/-- The context in which a program started is still there when it panics, with Data and Cargo as they were. -/
def Safe (env : Env) (p : Panics) {α : Type} (m : Prog α) : Prop :=
  ∀ s s', execPanics env p m s = some (.panicked s') →
    ∃ c : Frame, HasContext s' c s.parents ∧ c.data = s.frame.data ∧ c.cargo = s.frame.cargo

/-- The same for its parents only. -/
def SafeParents (env : Env) (p : Panics) {α : Type} (m : Prog α) : Prop :=
  ∀ s s', execPanics env p m s = some (.panicked s') → ∃ c : Frame, HasContext s' c s.parents

/-- `m` keeps the context in which it started, whether it returns or panics. -/
structure KeepsContext (env : Env) (p : Panics) {α : Type} (m : Prog α) : Prop where
  parents : KeepsParents m
  items : KeepsItems env m
  safe : Safe env p m

theorem KeepsContext.safeParents {env : Env} {p : Panics} {α : Type} {m : Prog α} (h : KeepsContext env p m) : SafeParents env p m :=
  fun s s' he => let ⟨c, hc, _⟩ := h.safe s s' he; ⟨c, hc⟩

/-- The assumption about panicking functions, found automatically. -/
class ItemPanics (p : Panics) : Prop where
  keeps : PanicKeepsItem p

theorem panicked_bind {env : Env} {p : Panics} {α β : Type} {m : Prog α} {f : α → Prog β} {s s' : St}
    (h : execPanics env p (m >>= f) s = some (.panicked s')) :
    execPanics env p m s = some (.panicked s') ∨
      ∃ a s₁, exec env m s = some (a, s₁) ∧ execPanics env p (f a) s₁ = some (.panicked s') := by
  rw [execPanics_bind] at h
  cases h1 : execPanics env p m s with
  | none => rw [h1] at h; cases h
  | some o =>
    rw [h1] at h
    cases o with
    | panicked t => cases h; exact .inl rfl
    | returned a t => exact .inr ⟨a, t, execPanics_returned h1, h⟩

theorem SafeParents.bind {env : Env} {p : Panics} {α β : Type} {m : Prog α} {f : α → Prog β} (hm : SafeParents env p m)
    (hk : KeepsParents m) (hf : ∀ a, SafeParents env p (f a)) : SafeParents env p (m >>= f) := by
  intro s s' h
  rcases panicked_bind h with h | ⟨a, s₁, h1, h2⟩
  · exact hm s s' h
  · have := hf a s₁ s' h2
    rwa [hk.keeps h1] at this

section
variable {env : Env} {p : Panics} {α β : Type}

theorem KeepsContext.pure (a : α) : KeepsContext env p (Pure.pure a : Prog α) := ⟨.pure a, .pure a, fun _ _ h => by cases h⟩

theorem KeepsContext.stuck : KeepsContext env p (.stuck : Prog α) := ⟨.stuck, .stuck, fun _ _ h => by cases h⟩

theorem KeepsContext.bind {m : Prog α} {f : α → Prog β} (hm : KeepsContext env p m) (hf : ∀ a, KeepsContext env p (f a)) :
    KeepsContext env p (m >>= f) := by
  refine ⟨.bind hm.parents fun a => (hf a).parents, .bind hm.items fun a => (hf a).items, fun s s' h => ?_⟩
  rcases panicked_bind h with h | ⟨a, s₁, h1, h2⟩
  · exact hm.safe s s' h
  · obtain ⟨c, h3, h4, h5⟩ := (hf a).safe s₁ s' h2
    have h6 := hm.items _ _ _ _ _ ⟨rfl, rfl⟩ h1
    rw [hm.parents.keeps h1] at h3
    exact ⟨c, h3, h4.trans h6.1, h5.trans h6.2⟩

theorem at_context [P : ItemPanics p] {a : Action} {s s' : St} (h : p.at a s = some s') :
    s'.parents = s.parents ∧ s'.frame.data = s.frame.data ∧ s'.frame.cargo = s.frame.cargo := by
  unfold Panics.at at h
  split at h
  · obtain ⟨t, h2, rfl⟩ := Option.map_eq_some_iff.1 h
    have := P.keeps _ _ _ h2
    cases a <;> first | exact ⟨rfl, this⟩ | exact ⟨rfl, rfl, rfl⟩
  · cases h

theorem KeepsContext.act [ItemPanics p] {a : Action} (h1 : KeepsParents (.step a .pure)) (h2 : KeepsItems env (.step a .pure)) :
    KeepsContext env p (.step a .pure) := by
  refine ⟨h1, h2, fun s s' h => ?_⟩
  simp only [execPanics] at h
  split at h
  · rename_i t ht
    cases h
    obtain ⟨h3, h4, h5⟩ := at_context ht
    exact ⟨s'.frame, ⟨[], by rw [h3]; rfl⟩, h4, h5⟩
  · cases h

variable [ItemPanics p]

theorem KeepsContext.ctx : KeepsContext env p Do.ctx := .act .ctx .ctx
theorem KeepsContext.write (d) : KeepsContext env p (Do.write d) := .act (.write d) (.write d)
theorem KeepsContext.setErr (e) : KeepsContext env p (Do.setErr e) := .act (.setErr e) (.setErr e)
theorem KeepsContext.yields (f) : KeepsContext env p (Do.yields f) := .act (.yields f) (.yields f)
theorem KeepsContext.imp (f) : KeepsContext env p (Do.imp f) := .act (.imp f) (.imp f)
theorem KeepsContext.look : KeepsContext env p Do.look := .act .look .look
theorem KeepsContext.order (ks) : KeepsContext env p (Do.order ks) := .act (.order ks) (.order ks)
theorem KeepsContext.user {u} (h : KeepsItem u) : KeepsContext env p (Do.user u) := .act (.user u) (.user h)

theorem KeepsContext.when {b : Bool} {m : Prog Unit} (h : KeepsContext env p m) : KeepsContext env p (Prog.when b m) := by
  unfold Prog.when; split
  · exact h
  · exact .pure _

end

section
variable {env : Env} {p : Panics} [ItemPanics p] [U : ItemFns env]

theorem KeepsContext.dyn (f) : KeepsContext env p (Do.dyn f) := .act (.dyn f) (.dyn f)
theorem KeepsContext.cond (f) : KeepsContext env p (Do.cond f) := .act (.cond f) (.cond f)
theorem KeepsContext.collect (f) : KeepsContext env p (Do.collect f) := .act (.collect f) (.collect f)
theorem KeepsContext.items' (f) : KeepsContext env p (Do.items f) := .act (.items f) (.items f)

theorem KeepsContext.ctxWrite (d : Bytes) : KeepsContext env p (ctxWrite d) := by
  unfold Aitch.ctxWrite
  refine .bind .ctx fun c => ?_
  split
  · exact .bind (.write d) fun _ => .setErr _
  · exact .pure _

theorem KeepsContext.retErr : KeepsContext env p retErr := .bind .ctx fun _ => .pure _

theorem KeepsContext.runDyn (d : Dyn) : KeepsContext env p (runDyn d) := by
  cases d with
  | user f => exact .dyn f
  | key k => refine .bind .ctx fun c => ?_; split <;> exact .pure _
  | cargo => exact .bind .ctx fun _ => .pure _

theorem KeepsContext.valueWrite (d : Bytes) : KeepsContext env p (valueWrite d) :=
  .bind (.write d) fun _ => .bind (.setErr _) fun _ => .pure _

mutual
theorem KeepsContext.renderValue : (v : Value) → KeepsContext env p (renderValue v)
  | .mk _ (some d) _ => .bind (.runDyn d) fun _ => .valueWrite _
  | .mk v none [] => .valueWrite v
  | .mk _ none (c :: cs) => .bind (.renderValue c) fun _ => .bind (.renderConcats cs _) fun _ => .pure _
theorem KeepsContext.renderConcats : (vs : List Value) → (l : Nat) → KeepsContext env p (renderConcats vs l)
  | [], _ => .pure _
  | c :: cs, _ => .bind (.renderValue c) fun _ => .renderConcats cs _
end

theorem KeepsContext.renderValues : (vs : List Value) → KeepsContext env p (renderValues vs)
  | [] => .pure _
  | v :: vs => .bind (.renderValue v) fun _ => .renderValues vs

theorem KeepsContext.renderDelimValues (d : Bytes) : (vs : List Value) → (b : Bool) →
    KeepsContext env p (renderDelimValues d vs b)
  | [], _ => .pure _
  | v :: vs, _ => .bind (.when (.ctxWrite d)) fun _ => .bind (.renderValue v) fun _ => .renderDelimValues d vs _

theorem KeepsContext.renderDelim (n d : Bytes) (vs : List Value) : KeepsContext env p (renderDelim n d vs) :=
  .bind (.ctxWrite _) fun _ => .bind (.ctxWrite _) fun _ => .bind (.ctxWrite _) fun _ =>
    .bind (.renderDelimValues d vs false) fun _ => .ctxWrite _

theorem KeepsContext.renderAttr (a : Attr) : KeepsContext env p (renderAttr a) := by
  cases a with
  | plain n vs =>
    exact .bind (.ctxWrite _) fun _ => .bind (.ctxWrite _) fun _ => .bind (.ctxWrite _) fun _ =>
      .bind (.renderValues vs) fun _ => .ctxWrite _
  | bool n => exact .bind (.ctxWrite _) fun _ => .ctxWrite _
  | delim n d r => exact .bind .ctx fun _ => .renderDelim _ _ _

theorem KeepsContext.runCond (k : Cond) : KeepsContext env p (runCond k) := by
  cases k with
  | user f => exact .cond f
  | has k => refine .bind .ctx fun c => ?_; split <;> exact .pure _
  | hasNot k => refine .bind .ctx fun c => ?_; split <;> exact .pure _

theorem KeepsContext.evalConds : (ks : List Cond) → KeepsContext env p (evalConds ks)
  | [] => .pure _
  | k :: ks => by
    refine .bind (.runCond k) fun b => ?_
    split
    · exact KeepsContext.evalConds ks
    · exact .pure _

theorem KeepsContext.evaluate : (cas : List CondAttr) → (acc : List (Bytes × List Attr)) →
    KeepsContext env p (evaluate cas acc)
  | [], _ => .pure _
  | _ :: as, _ => .bind (.evalConds _) fun _ => .evaluate as _

theorem KeepsContext.renderChosen (a : Attr) (m : List Attr) (l : Attr) : KeepsContext env p (renderChosen a m l) := by
  unfold Aitch.renderChosen
  split
  · exact .bind .ctx fun _ => .renderDelim _ _ _
  · exact .renderAttr l

theorem KeepsContext.renderStatics (h : ElemHead) (ev : List (Bytes × List Attr)) : (ns : List Bytes) →
    KeepsContext env p (renderStatics h ev ns)
  | [] => .pure _
  | n :: ns => by
    refine .bind ?_ fun _ => KeepsContext.renderStatics h ev ns
    unfold renderStatic
    split
    · exact .pure _
    · split
      · exact .pure _
      · split
        · exact .renderChosen _ _ _
        · exact .renderAttr _

theorem KeepsContext.renderExtras (h : ElemHead) (ev : List (Bytes × List Attr)) : (ns : List Bytes) →
    KeepsContext env p (renderExtras h ev ns)
  | [] => .pure _
  | n :: ns => by
    refine .bind ?_ fun _ => KeepsContext.renderExtras h ev ns
    unfold renderExtra
    split
    · exact .renderChosen _ _ _
    · exact .pure _

theorem KeepsContext.renderAttrs : (as : List Attr) → KeepsContext env p (renderAttrs as)
  | [] => .pure _
  | a :: as => .bind (.renderAttr a) fun _ => .renderAttrs as

theorem KeepsContext.renderAttributes (h : ElemHead) : KeepsContext env p (renderAttributes h) := by
  unfold Aitch.renderAttributes
  split
  · refine .bind (.evaluate _ _) fun ev => ?_
    split
    · exact .bind (.order _) fun _ => .bind (.renderStatics _ _ _) fun _ => .bind (.order _) fun _ =>
        .renderExtras _ _ _
    · exact .renderAttrs _
  · exact .renderAttrs _

theorem KeepsContext.renderStartTag (h : ElemHead) : KeepsContext env p (renderStartTag h) :=
  .bind (.ctxWrite _) fun _ => .bind (.ctxWrite _) fun _ => .bind (.renderAttributes h) fun _ => .ctxWrite _

theorem KeepsContext.renderEndTag (n : Bytes) : KeepsContext env p (renderEndTag n) :=
  .bind (.ctxWrite _) fun _ => .bind (.ctxWrite _) fun _ => .ctxWrite _

theorem KeepsContext.startWrite : (l : List (Bytes × Option (List Value))) → KeepsContext env p (startWrite l)
  | [] => .pure _
  | (n, vs) :: l => by
    refine .bind (.ctxWrite _) fun _ => .bind (.ctxWrite _) fun _ => .bind ?_ fun _ => KeepsContext.startWrite l
    cases vs with
    | none => exact .pure _
    | some vs => exact .bind (.ctxWrite _) fun _ => .bind (.renderValues vs) fun _ => .ctxWrite _

theorem KeepsContext.startTag (n : Bytes) (as : List (Option Node)) : KeepsContext env p (startTag n as) :=
  .bind (.ctxWrite _) fun _ => .bind (.ctxWrite _) fun _ => .bind .ctx fun _ => .bind (.startWrite _) fun _ =>
    .ctxWrite _

theorem KeepsContext.endAll : (l : List Bytes) → KeepsContext env p (endAll l)
  | [] => .pure _
  | n :: l => .bind (.renderEndTag n) fun _ => .endAll l

theorem KeepsContext.runItems (src : ItemSrc) : KeepsContext env p (runItems src) := by
  cases src with
  | user f => exact .items' f
  | key k => exact .bind .ctx fun _ => .pure _

section
variable {rec : Render} (R : ∀ n, KeepsContext env p (rec n))
include R

theorem KeepsContext.contentLoop : (ns : List Node) → KeepsContext env p (contentLoop rec ns)
  | [] => .pure _
  | n :: ns => .bind (R n) fun _ => .bind (.setErr _) fun _ => KeepsContext.contentLoop ns

theorem KeepsContext.conditionalLoop : (ns : List Node) → KeepsContext env p (conditionalLoop rec ns)
  | [] => .pure _
  | n :: ns => by
    refine .bind (R n) fun e => .bind (.setErr _) fun _ => ?_
    cases e
    · exact KeepsContext.conditionalLoop ns
    · exact .pure _

theorem KeepsContext.collectionLoop : (ns : List Node) → KeepsContext env p (collectionLoop rec ns)
  | [] => .pure _
  | n :: ns => by
    unfold Aitch.collectionLoop
    split
    · exact KeepsContext.collectionLoop ns
    · refine .bind (R n) fun e => .bind (.setErr _) fun _ => ?_
      cases e
      · exact KeepsContext.collectionLoop ns
      · exact .pure _

theorem KeepsContext.ignoreLoop : (ns : List (Option Node)) → KeepsContext env p (ignoreLoop rec ns)
  | [] => .pure _
  | none :: ns => KeepsContext.ignoreLoop ns
  | some n :: ns => by
    unfold Aitch.ignoreLoop
    split
    · exact KeepsContext.ignoreLoop ns
    · exact .bind (R n) fun _ => KeepsContext.ignoreLoop ns

theorem KeepsContext.documentLoop : (ns : List Node) → KeepsContext env p (documentLoop rec ns)
  | [] => .pure _
  | n :: ns => .bind (R n) fun _ => KeepsContext.documentLoop ns

end

theorem SafeParents.setItem (i d) : SafeParents env p (Do.setItem i d) := fun s s' h => by
  simp [Do.setItem, execPanics, Panics.at, Action.foreign] at h

/-- A panic in a child context leaves the context around it as it was. -/
theorem KeepsContext.scope {α γ : Type} {child : Frame} {m : Prog α} {k : α → Frame → Prog γ} (hm : KeepsParents m)
    (hs : SafeParents env p m) (hk : ∀ a f, KeepsContext env p (k a f)) :
    KeepsContext env p (do Do.enter child; let e ← m; let fr ← Do.leave; k e fr) := by
  refine ⟨.scope hm fun a f => (hk a f).parents, fun d c => .scope hm fun a f => (hk a f).items d c, fun s s' h => ?_⟩
  rcases panicked_bind h with h | ⟨_, s₁, h1, h2⟩
  · simp [Do.enter, execPanics, Panics.at, Action.foreign] at h
  cases h1
  rcases panicked_bind h2 with h | ⟨a, t, h3, h4⟩
  · obtain ⟨c, inner, h⟩ := hs _ _ h
    exact ⟨s.frame, ⟨inner ++ [c], by rw [h]; simp [Action.run]⟩, rfl, rfl⟩
  · rcases panicked_bind h4 with h | ⟨fr, t', h5, h6⟩
    · simp [Do.leave, execPanics, Panics.at, Action.foreign] at h
    · have hp := hm.keeps h3
      have h7 : exec env Do.leave t = some (t.frame, s.left t) := by
        simp only [Do.leave, exec, Action.run, hp, St.left]
      rw [h7] at h5
      cases h5
      obtain ⟨c, h8, h9⟩ := (hk a t.frame).safe _ s' h6
      exact ⟨c, h8, h9⟩

section
variable {rec : Render} (R : ∀ n, KeepsContext env p (rec n))
include R

theorem KeepsContext.iterNodes : (ns : List Node) → KeepsContext env p (iterNodes rec ns)
  | [] => .pure _
  | n :: ns => by
    refine .bind (R n) fun e => ?_
    cases e
    · exact KeepsContext.iterNodes ns
    · exact .pure _

theorem SafeParents.iterItems (ns : List Node) (d : Option MapId) : (its : List Any) →
    SafeParents env p (iterItems rec ns d its)
  | [] => (KeepsContext.pure _).safeParents
  | it :: its => by
    refine .bind (.setItem _ _) (.setItem _ _) fun _ => .bind (KeepsContext.iterNodes R ns).safeParents
      (KeepsContext.iterNodes R ns).parents fun e => ?_
    cases e
    · exact SafeParents.iterItems ns d its
    · exact (KeepsContext.pure _).safeParents

theorem KeepsContext.renderIterator (ns : List Node) (fn : ItemSrc) : KeepsContext env p (renderIterator rec ns fn) := by
  unfold Aitch.renderIterator
  refine .bind .ctx fun c => ?_
  split
  · exact .pure _
  · refine .bind (.runItems fn) fun items => ?_
    split
    · exact .pure _
    · refine .bind .ctx fun c => .scope (.iterItems (fun n => (R n).parents) _ _ _) (.iterItems R _ _ _) fun e _ => ?_
      split
      · exact .bind (.setErr _) fun _ => .pure _
      · exact .pure _

theorem KeepsContext.runYield (ns : List Node) {y : YieldProg} (hy : KeepsItemYield y) (child : Frame) :
    KeepsContext env p (runYield rec ns y child) := by
  induction hy generalizing child with
  | done => exact .pure _
  | user hu _ ih => exact .bind (.user hu) fun s => ih s _
  | write _ ih => exact .bind (.write _) fun r => .bind .look fun s => ih r s _
  | yield _ ih =>
    rw [runYield_yield]
    refine .scope (.bind (.setItem _ _) fun _ => (KeepsContext.iterNodes R ns).parents)
      (.bind (.setItem _ _) (.setItem _ _) fun _ => (KeepsContext.iterNodes R ns).safeParents) fun e fr => .bind ?_ fun _ =>
      .bind .look fun s => ih s _
    cases e
    · exact .pure _
    · exact .setErr _

/-- Going on with what a function gave. -/
theorem KeepsContext.bindFn {α β : Type} {a : Action} {g : a.Resp → α} {f : α → Prog β} (C : α → Prop)
    (ha : KeepsContext env p (.step a .pure)) (h0 : ∀ s, (a.run env s).2 = s) (hC : ∀ s, C (g (a.run env s).1))
    (hf : ∀ x, C x → KeepsContext env p (f x)) (hk : ∀ x, KeepsParents (f x)) :
    KeepsContext env p (Prog.step a fun r => f (g r)) := by
  refine ⟨?_, fun d c s r s' hs he => ?_, fun s s' h => ?_⟩
  · unfold KeepsParents
    rw [balanced_flat ha.parents.flat]
    exact fun r => hk (g r)
  · have he : exec env (f (g (a.run env s).1)) (a.run env s).2 = some (r, s') := he
    rw [h0] at he
    exact (hf _ (hC s)).items d c s r s' hs he
  · simp only [execPanics] at h
    split at h
    · rename_i t ht
      cases h
      obtain ⟨h3, h4, h5⟩ := at_context ht
      exact ⟨s'.frame, ⟨[], by rw [h3]; rfl⟩, h4, h5⟩
    · rw [h0] at h
      exact (hf _ (hC s)).safe s s' h

theorem KeepsContext.renderYield (ns : List Node) (f : FnId) : KeepsContext env p (renderYield rec ns f) := by
  unfold Aitch.renderYield
  refine .bind .ctx fun c => ?_
  split
  · exact .pure _
  · exact KeepsContext.bindFn R (a := .yields f) (g := id) KeepsItemYield (.yields f) (fun _ => rfl) (fun s => U.fns.yields f s)
      (fun y hy => .bind (.runYield R ns hy _) fun _ => .retErr)
      fun y => .bind (.runYield (fun n => (R n).parents) ns y _) fun _ => .retErr

end

section
variable {rec : Render} (R : ∀ n, KeepsContext env p (rec n))
include R

theorem KeepsContext.runOp (op : ImpOp) (st : List Bytes) : KeepsContext env p (runOp rec op st) := by
  cases op with
  | writeString d => exact .bind (.ctxWrite _) fun _ => .pure _
  | writeRaw d => exact .bind (.ctxWrite _) fun _ => .pure _
  | writeNodes ns => exact .bind (.ignoreLoop R ns) fun _ => .pure _
  | start n v as => exact .bind (.startTag n as) fun _ => .pure _
  | «end» =>
    cases st with
    | nil => exact .pure _
    | cons n st => exact .bind (.renderEndTag n) fun _ => .pure _
  | endAll => exact .bind (.endAll st) fun _ => .pure _

theorem KeepsContext.runImp {i : ImpProg} (hi : KeepsItemImp i) (st : List Bytes) :
    KeepsContext env p (runImp rec i st) := by
  induction hi generalizing st with
  | ret => exact .pure _
  | user hu _ ih => exact .bind (.user hu) fun s => ih s st
  | call _ ih => exact .bind (.runOp R _ st) fun st => .bind .look fun s => ih s st
  | render _ ih => exact .bind (R _) fun e => .bind .look fun s => ih e s st
  | write _ ih => exact .bind (.write _) fun r => .bind .look fun s => ih r s st

theorem KeepsContext.renderStep (n : Node) : KeepsContext env p (renderStep rec n) := by
  cases n with
  | element h cs =>
    exact .bind (.renderStartTag h) fun _ => .bind (.contentLoop R cs) fun _ =>
      .bind (.renderEndTag _) fun _ => .retErr
  | voidElement h => exact .bind (.renderStartTag h) fun _ => .retErr
  | attr a => exact .bind (.renderAttr a) fun _ => .retErr
  | text vs => exact .bind (.renderValues vs) fun _ => .retErr
  | comment vs => exact .bind (.ctxWrite _) fun _ => .bind (.renderValues vs) fun _ => .bind (.ctxWrite _) fun _ => .retErr
  | fragment vs => exact .bind (.renderValues vs) fun _ => .retErr
  | pi n vs =>
    exact .bind (.ctxWrite _) fun _ => .bind (.ctxWrite _) fun _ => .bind (.ctxWrite _) fun _ =>
      .bind (.renderValues vs) fun _ => .bind (.ctxWrite _) fun _ => .retErr
  | collection ns => exact .bind (.collectionLoop R ns) fun _ => .retErr
  | conditional ns as fn => exact .bind (.runCond fn) fun _ => .bind (.when (.conditionalLoop R ns)) fun _ => .retErr
  | collector f => exact .bind (.collect f) fun ns => .bind (.ignoreLoop R ns) fun _ => .retErr
  | imperative f =>
    cases f with
    | none => exact .pure _
    | some f =>
      exact KeepsContext.bindFn R (a := .imp f) (g := id) KeepsItemImp (.imp f) (fun _ => rfl) (fun s => U.fns.imp f s)
        (fun i hi => .runImp R hi []) fun i => .runImp (fun n => (R n).parents) i []
  | iterator ns fn => exact .renderIterator R ns fn
  | yieldIterator ns f => exact .renderYield R ns f
  | document p cs => exact .bind (.documentLoop R _) fun _ => .retErr

end

theorem KeepsContext.renderProg : (fuel : Nat) → (n : Node) → KeepsContext env p (renderProg fuel n)
  | 0, _ => .stuck
  | fuel + 1, n => .renderStep (KeepsContext.renderProg fuel) n

end

/-! ### Templates -/

section
variable {env : Env} {p : Panics} {pe : Err}

theorem partsPanics_fuel {f f' : Nat} (hf : f ≤ f') (t : List Part) {s : St} {o : Outcome (Option Err)}
    (h : partsPanics env p pe f t s = some o) : partsPanics env p pe f' t s = some o := by
  induction t generalizing s with
  | nil => exact h
  | cons x ps ih =>
    cases x with
    | text d =>
      simp only [partsPanics] at h ⊢
      cases h1 : execPanics env p (Do.write d) s with
      | none => rw [h1] at h; cases h
      | some o₁ =>
        rw [h1] at h
        cases o₁ with
        | panicked s₁ => exact h
        | returned r s₁ =>
          simp only at h ⊢
          cases h2 : r.2 with
          | some e => rw [h2] at h; exact h
          | none => rw [h2] at h; exact ih h
    | call n place =>
      simp only [partsPanics] at h ⊢
      cases h1 : execPanics env p (renderProg f n) s with
      | none => rw [h1] at h; cases h
      | some o₁ =>
        rw [(Le.renderProg hf n).execPanics h1]
        rw [h1] at h
        cases o₁ with
        | panicked s₁ => exact h
        | returned e s₁ =>
          cases e with
          | some e => exact h
          | none =>
            simp only at h ⊢
            cases h3 : execPanics env p (Do.write (escapeEmpty (contextFunc n) place)) s₁ with
            | none => rw [h3] at h; cases h
            | some o₂ =>
              rw [h3] at h
              cases o₂ with
              | panicked s₂ => exact h
              | returned r s₂ =>
                simp only at h ⊢
                cases h2 : r.2 with
                | some e => rw [h2] at h; exact h
                | none => rw [h2] at h; exact ih h

/-- The same end, or cut off by a panic. -/
def CutOff (pe : Err) (e₂ : Option Err) (s₂ : St) : Outcome (Option Err) → Prop
  | .returned e s' => (e = e₂ ∧ s' = s₂) ∨ (e = some pe ∧ s'.log <+: s₂.log)
  | .panicked s' => s'.log <+: s₂.log

/-- How a template ends whose functions or writer may panic, compared to its execution without panics. -/
theorem partsPanics_log {f : Nat} (t : List Part) {s s₂ : St} {e₂ : Option Err} {o : Outcome (Option Err)}
    (h : partsPanics env p pe f t s = some o) (h₂ : exec env (execParts (renderProg f) t) s = some (e₂, s₂)) :
    CutOff pe e₂ s₂ o := by
  induction t generalizing s with
  | nil => cases h; cases h₂; exact .inl ⟨rfl, rfl⟩
  | cons x ps ih =>
    cases x with
    | text d =>
      simp only [partsPanics] at h
      simp only [execParts] at h₂
      rw [exec_bind] at h₂
      have hw : exec env (Do.write d) s = some (env.write s.log d, s.wrote d (env.write s.log d)) := rfl
      cases h1 : execPanics env p (Do.write d) s with
      | none => rw [h1] at h; cases h
      | some o₁ =>
        rw [h1] at h
        cases o₁ with
        | panicked s₁ =>
          cases h
          have h3 := panicked_log h1 hw
          rw [hw] at h₂
          simp only [Option.bind_some] at h₂
          refine h3.2.trans ?_
          split at h₂
          · cases h₂; exact List.prefix_rfl
          · exact exec_log h₂
        | returned r s₁ =>
          have h3 := execPanics_returned h1
          rw [h3] at h₂
          simp only [Option.bind_some] at h h₂
          cases h2 : r.2 with
          | some e => rw [h2] at h h₂; cases h; cases h₂; exact .inl ⟨rfl, rfl⟩
          | none => rw [h2] at h h₂; exact ih h h₂
    | call n place =>
      simp only [partsPanics] at h
      simp only [execParts] at h₂
      rw [exec_bind] at h₂
      cases h1 : execPanics env p (renderProg f n) s with
      | none => rw [h1] at h; cases h
      | some o₁ =>
        rw [h1] at h
        cases o₁ with
        | panicked s₁ =>
          cases h
          refine .inr ⟨rfl, ?_⟩
          cases h3 : exec env (renderProg f n) s with
          | none => rw [h3] at h₂; cases h₂
          | some r =>
            rw [h3] at h₂
            refine (panicked_log h1 h3).2.trans ?_
            simp only [Option.bind_some] at h₂
            split at h₂
            · cases h₂; exact List.prefix_rfl
            · exact exec_log h₂
        | returned e s₁ =>
          rw [execPanics_returned h1] at h₂
          simp only [Option.bind_some] at h₂
          cases e with
          | some e => cases h; cases h₂; exact .inl ⟨rfl, rfl⟩
          | none =>
            simp only at h h₂
            rw [exec_bind] at h₂
            have hw : exec env (Do.write (escapeEmpty (contextFunc n) place)) s₁ = some (env.write s₁.log (escapeEmpty (contextFunc n) place),
              s₁.wrote (escapeEmpty (contextFunc n) place) (env.write s₁.log (escapeEmpty (contextFunc n) place))) := rfl
            cases h3 : execPanics env p (Do.write (escapeEmpty (contextFunc n) place)) s₁ with
            | none => rw [h3] at h; cases h
            | some o₂ =>
              rw [h3] at h
              cases o₂ with
              | panicked s₂ =>
                cases h
                have h5 := panicked_log h3 hw
                rw [hw] at h₂
                simp only [Option.bind_some] at h₂
                refine h5.2.trans ?_
                split at h₂
                · cases h₂; exact List.prefix_rfl
                · exact exec_log h₂
              | returned r s₂ =>
                have h4 := execPanics_returned h3
                rw [h4] at h₂
                simp only [Option.bind_some] at h h₂
                cases h2 : r.2 with
                | some e => rw [h2] at h h₂; cases h; cases h₂; exact .inl ⟨rfl, rfl⟩
                | none => rw [h2] at h h₂; exact ih h h₂

/-- Only text/template's own writes can make `Execute` panic. -/
theorem partsPanics_panicked (hp : ∀ d s, p (.write d) s = none) {f : Nat} (t : List Part) {s s' : St} :
    partsPanics env p pe f t s ≠ some (.panicked s') := by
  have hw : ∀ d s, execPanics env p (Do.write d) s = some (.returned (env.write s.log d) (s.wrote d (env.write s.log d))) :=
    fun d s => by simp [Do.write, execPanics, Panics.at, hp, Action.foreign, Action.run]
  induction t generalizing s with
  | nil => intro h; cases h
  | cons x ps ih =>
    intro h
    cases x with
    | text d =>
      simp only [partsPanics, hw] at h
      split at h
      · cases h
      · exact ih h
    | call n place =>
      simp only [partsPanics, hw] at h
      split at h
      · cases h
      · split at h
        · cases h
        · exact ih h
      · cases h
      · cases h

/-- A node whose rendering panics behind parts that went well. -/
theorem partsPanics_append {f : Nat} (t u : List Part) {s s₁ : St}
    (h : partsPanics env p pe f t s = some (.returned none s₁)) :
    partsPanics env p pe f (t ++ u) s = partsPanics env p pe f u s₁ := by
  induction t generalizing s with
  | nil => cases h; rfl
  | cons x ps ih =>
    cases x with
    | text d =>
      simp only [partsPanics, List.cons_append] at h ⊢
      split at h
      · split at h
        · cases h
        · exact ih h
      · cases h
      · cases h
    | call n place =>
      simp only [partsPanics, List.cons_append] at h ⊢
      split at h
      · cases h
      · split at h
        · split at h
          · cases h
          · exact ih h
        · cases h
        · cases h
      · cases h
      · cases h

end

end Aitch

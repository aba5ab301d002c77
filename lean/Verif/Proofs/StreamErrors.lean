import Verif.Spec.StreamErrors
import Verif.Proofs.Errors
import Verif.Proofs.Stream
/-
A failed write is remembered in `ctx.Error`, also when user functions write and render.
-/
set_option linter.unusedSectionVars false

namespace Aitch.Stream
open Aitch Spec Spec.Stream

/-! ### Contexts are entered and left in a balanced way -/

theorem balanced_run {α : Type} {rr : Render} (PP : ∀ n, KeepsParents (rr n)) : (p : FnProg α) → KeepsParents (p.run rr)
  | .ret _ => .pure _
  | .user _ k => .bind (.user _) fun s => balanced_run PP (k s)
  | .write _ k => .bind (.write _) fun r => .bind .look fun s => balanced_run PP (k r s)
  | .render n k => .bind (PP n) fun e => .bind .look fun s => balanced_run PP (k e s)

theorem balanced_fn {α β : Type} {rr : Render} (PP : ∀ n, KeepsParents (rr n)) {body : St → FnProg β} {f : β → Prog α}
    {d : Nat} (hf : ∀ b, Balanced (f b) d) : Balanced (do let s ← Do.look; let r ← (body s).run rr; f r) d := by
  rw [← Nat.zero_add d]
  refine Balanced.bind KeepsParents.look fun s => ?_
  rw [← Nat.zero_add d]
  exact Balanced.bind (balanced_run PP _) hf

theorem balanced_inlined {α : Type} {B : Bodies} {rr : Render} (PP : ∀ n, KeepsParents (rr n)) {m : Prog α} {d : Nat}
    (hm : Balanced m d) : Balanced (inlined B rr m) d := by
  induction m generalizing d with
  | pure a => exact hm
  | stuck => exact trivial
  | step a k ih =>
    cases a with
    | dyn f => exact balanced_fn PP fun b => ih b (hm b)
    | cond f => exact balanced_fn PP fun b => ih b (hm b)
    | collect f => exact balanced_fn PP fun b => ih b (hm b)
    | items f => exact balanced_fn PP fun b => ih b (hm b)
    | enter c => exact ih () (d := d + 1) hm
    | leave =>
      cases d with
      | zero => exact hm.elim
      | succ d => exact fun fr => ih fr (hm fr)
    | _ => exact fun r => ih r (hm r)

theorem runYield_scope {rec : Render} (ns : List Node) (it : Any) (k : St → YieldBody) (child : Frame) :
    runYield rec ns (.yield it k) child = (do
      Do.enter child
      let e ← (do
        Do.setItem it (itemData child.data it)
        iterNodes rec ns)
      let fr ← Do.leave
      setErrIf e
      let s ← Do.look
      runYield rec ns (k s) fr) := by
  conv => lhs; unfold runYield
  rw [prog_assoc (Do.setItem _ _)]
  cases it <;> rfl

theorem balanced_runYield {rec : Render} (R : ∀ n, KeepsParents (rec n)) (ns : List Node) : (p : YieldBody) →
    (child : Frame) → KeepsParents (runYield rec ns p child)
  | .done, _ => .pure _
  | .user _ k, _ => .bind (.user _) fun s => balanced_runYield R ns (k s) _
  | .write _ k, _ => .bind (.write _) fun r => .bind .look fun s => balanced_runYield R ns (k r s) _
  | .render n k, _ => .bind (R n) fun e => .bind .look fun s => balanced_runYield R ns (k e s) _
  | .yield it k, child => by
    rw [runYield_scope]
    refine .scope (.bind (.setItem _ _) fun _ => .iterNodes R ns) fun e fr => .bind ?_ fun _ =>
      .bind .look fun s => balanced_runYield R ns (k s) _
    cases e
    · exact .pure _
    · exact .setErr _

theorem step_other (B : Bodies) (rec : Render) {n : Node} (hn : ∀ ns f, n ≠ .yieldIterator ns f) :
    step B rec n = renderStep rec n := by
  cases n with
  | yieldIterator ns f => exact (hn ns f rfl).elim
  | _ => rfl

theorem balanced_step {B : Bodies} {rec : Render} (R : ∀ n, KeepsParents (rec n)) (n : Node) :
    KeepsParents (step B rec n) := by
  cases n with
  | yieldIterator ns f =>
    change KeepsParents (renderYield B rec ns f)
    unfold renderYield
    refine .bind .ctx fun c => ?_
    split
    · exact .pure _
    · exact .bind .look fun s => .bind (balanced_runYield R ns _ _) fun _ => .retErr
  | _ =>
    rw [step_other B rec fun ns f h => by cases h]
    exact KeepsParents.renderStep R _

theorem balanced_nested {B : Bodies} : (fuel : Nat) → (n : Node) → KeepsParents (nested B fuel n)
  | 0, _ => .stuck
  | fuel + 1, n => balanced_step (balanced_nested fuel) n

theorem balanced_renderWith {B : Bodies} : (fuel : Nat) → (n : Node) → KeepsParents (renderWith B fuel n)
  | 0, _ => .stuck
  | fuel + 1, n => balanced_inlined (balanced_renderWith fuel) (balanced_nested (fuel + 1) n)

/-! ### Triples of programs with user functions -/

/-- A triple of the program in which the calls of user functions run their bodies. -/
def STrip {α : Type} (env : Env) (B : Bodies) (rr : Render) (I : St → Prop) (m : Prog α) (Q : α → St → Prop) : Prop :=
  Trip env I (inlined B rr m) Q

section
variable {env : Env} {B : Bodies} {rr : Render}

section
variable {α β : Type} {I : St → Prop} {Q : α → St → Prop}

theorem STrip.pure {a : α} (h : ∀ s, I s → Q a s) : STrip env B rr I (Pure.pure a) Q := Trip.pure h

theorem STrip.bind {m : Prog α} {f : α → Prog β} {R : β → St → Prop} (hm : STrip env B rr I m Q)
    (hf : ∀ a, STrip env B rr (Q a) (f a) R) : STrip env B rr I (m >>= f) R := by
  unfold STrip
  rw [inlined_bind]
  exact Trip.bind hm hf

theorem STrip.pre {m : Prog α} {I' : St → Prop} (h : STrip env B rr I m Q) (hi : ∀ s, I' s → I s) :
    STrip env B rr I' m Q := Trip.pre h hi

theorem STrip.stuck : STrip env B rr I (.stuck : Prog α) Q := Trip.stuck

theorem STrip.act {a : Action} {Q : a.Resp → St → Prop} (h : ∀ s, I s → Q (a.run env s).1 (a.run env s).2)
    (ha : inlined B rr (.step a .pure) = .step a .pure := by rfl) : STrip env B rr I (.step a .pure) Q := by
  unfold STrip
  rw [ha]
  exact Trip.act h

theorem STrip.of {m : Prog α} (h : Trip env I m Q) (hm : inlined B rr m = m := by rfl) : STrip env B rr I m Q := by
  unfold STrip
  rw [hm]
  exact h

end

theorem inlined_ctxWrite (d : Bytes) : inlined B rr (ctxWrite d) = ctxWrite d := by
  unfold ctxWrite
  rw [inlined_bind]
  change Do.ctx >>= _ = _
  congr 1
  funext c
  cases c.frame.err <;> rfl

/-- `m` keeps `J`. -/
abbrev KJ {α} (env : Env) (B : Bodies) (rr : Render) (m : Prog α) : Prop := STrip env B rr J m fun _ => J

theorem KJ.pure {α} (a : α) : KJ env B rr (Pure.pure a : Prog α) := STrip.pure fun _ h => h

theorem KJ.bind {α β} {m : Prog α} {f : α → Prog β} (hm : KJ env B rr m) (hf : ∀ a, KJ env B rr (f a)) :
    KJ env B rr (m >>= f) := STrip.bind hm hf

theorem KJ.when {b : Bool} {m : Prog Unit} (h : KJ env B rr m) : KJ env B rr (Prog.when b m) := by
  unfold Prog.when; split
  · exact h
  · exact .pure _

theorem KJ.ctx : KJ env B rr Do.ctx := STrip.act fun _ h => h
theorem KJ.order (ks) : KJ env B rr (Do.order ks) := STrip.act fun _ h => h
theorem KJ.look : KJ env B rr Do.look := STrip.act fun _ h => h

theorem KJ.ctxWrite (d : Bytes) : KJ env B rr (ctxWrite d) := STrip.of (Aitch.KJ.ctxWrite d) (inlined_ctxWrite d)

theorem STrip.retErr : STrip env B rr J retErr RQ := STrip.of Trip.retErr

variable (S : StaysFailed env.write) (C : Spec.Stream.Careful env B)
  (RR : ∀ n, NoNilImp n → Trip env J (rr n) RQ) (PP : ∀ n, KeepsParents (rr n))

include S in
theorem KJ.valueWrite (d : Bytes) : KJ env B rr (valueWrite d) := STrip.of (Aitch.KJ.valueWrite S d)

theorem KJ.user {upd : St → St} (h : KeepsError upd) : KJ env B rr (Do.user upd) := STrip.of (Aitch.KJ.user h)

/-- Before and after a write. -/
theorem wrote_ok {s : St} (hs : J s) (d : Bytes) (n : Nat) : J (s.wrote d (n, none)) := fun h => by
  rcases failed_snoc.1 h with h | h
  · exact hs h
  · exact (h rfl).elim

include RR in
/-- The body of a careful function. -/
theorem Trip.runFn {α : Type} {P : α → Prop} : (p : FnProg α) →
    (CarefulFn P p → Trip env J (p.run rr) fun a s => J s ∧ P a) ∧
    (NotesFn P p → Trip env (fun _ => True) (p.run rr) fun a s => J s ∧ P a)
  | .ret a => by
    refine ⟨fun h => ?_, nofun⟩
    cases h with
    | ret h => exact Trip.pure fun _ hs => ⟨hs, h⟩
  | .user upd k => by
    refine ⟨fun h => ?_, fun h => ?_⟩
    · cases h with
      | user h1 h2 => exact Trip.bind (Aitch.KJ.user h1) fun s => (Trip.runFn (k s)).1 (h2 s)
    · cases h with
      | user h1 h2 => exact Trip.bind (Q := fun _ => J) (Trip.act fun s _ _ => h1 s) fun s => (Trip.runFn (k s)).1 (h2 s)
  | .write d k => by
    refine ⟨fun h => ?_, nofun⟩
    cases h with
    | write h1 h2 =>
      intro s r s' hs he
      have he : exec env ((k (env.write s.log d) (s.wrote d (env.write s.log d))).run rr)
        (s.wrote d (env.write s.log d)) = some (r, s') := he
      rcases hw : env.write s.log d with ⟨n, _ | e⟩
      · rw [hw] at he
        exact (Trip.runFn _).1 (h1 n _) _ r s' (wrote_ok hs d n) he
      · rw [hw] at he
        exact (Trip.runFn _).2 (h2 n e _) _ r s' trivial he
  | .render n k => by
    refine ⟨fun h => ?_, nofun⟩
    cases h with
    | render h1 h2 =>
      exact Trip.bind (RR n h1) fun e => Trip.bind (Q := fun _ => J) (Trip.act fun _ h => h.1) fun s =>
        (Trip.runFn (k e s)).1 (h2 e s)

theorem Trip.quiet {α : Type} : {p : FnProg α} → QuietFn p →
    Trip env (fun s => J s ∧ ¬ Failed s.log) (p.run rr) fun _ s => J s ∧ ¬ Failed s.log
  | _, .ret => Trip.pure fun _ h => h
  | _, .user h1 h2 => Trip.bind (Q := fun _ s => J s ∧ ¬ Failed s.log)
      (Trip.act fun s h => ⟨fun hf => h1 s (h.1 hf), h.2⟩) fun s => Trip.quiet (h2 s)

include C RR

theorem STrip.dyn (f : FnId) : KJ env B rr (Do.dyn f) := by
  refine Trip.bind (Q := fun t s => t = s ∧ J s) (Trip.act fun s h => ⟨rfl, h⟩) fun t =>
    Trip.bind (Q := fun _ => J) ?_ fun _ => Trip.pure fun _ h => h
  exact (((Trip.runFn RR _).1 (C.dyn f t)).pre fun _ h => h.2).conseq fun _ _ h => h.1

theorem STrip.cond (f : FnId) : KJ env B rr (Do.cond f) := by
  refine Trip.bind (Q := fun t s => t = s ∧ J s) (Trip.act fun s h => ⟨rfl, h⟩) fun t =>
    Trip.bind (Q := fun _ => J) ?_ fun _ => Trip.pure fun _ h => h
  exact (((Trip.runFn RR _).1 (C.cond f t)).pre fun _ h => h.2).conseq fun _ _ h => h.1

theorem STrip.collect (f : FnId) :
    STrip env B rr J (Do.collect f) fun ns s => J s ∧ ∀ n, some n ∈ ns → NoNilImp n := by
  refine Trip.bind (Q := fun t s => t = s ∧ J s) (Trip.act fun s h => ⟨rfl, h⟩) fun t =>
    Trip.bind (Q := fun ns s => J s ∧ ∀ n, some n ∈ ns → NoNilImp n) ?_ fun _ => Trip.pure fun _ h => h
  exact ((Trip.runFn RR _).1 (C.collect f t)).pre fun _ h => h.2

omit C RR in
theorem STrip.items (Qi : QuietItems B) (f : FnId) :
    STrip env B rr (fun s => J s ∧ ¬ Failed s.log) (Do.items f) fun _ s => J s ∧ ¬ Failed s.log := by
  refine Trip.bind (Q := fun t s => J s ∧ ¬ Failed s.log) (Trip.act fun s h => h) fun t =>
    Trip.bind (Q := fun _ s => J s ∧ ¬ Failed s.log) ?_ fun _ => Trip.pure fun _ h => h
  exact Trip.quiet (Qi f t)

theorem KJ.runDyn (d : Dyn) : KJ env B rr (runDyn d) := by
  cases d with
  | user f => exact STrip.dyn C RR f
  | key k => refine .bind .ctx fun c => ?_; split <;> exact .pure _
  | cargo => exact .bind .ctx fun _ => .pure _

include S

mutual
theorem KJ.renderValue : (v : Value) → KJ env B rr (renderValue v)
  | .mk _ (some d) _ => .bind (.runDyn C RR d) fun _ => .valueWrite S _
  | .mk v none [] => .valueWrite S v
  | .mk _ none (c :: cs) => .bind (KJ.renderValue c) fun _ => .bind (KJ.renderConcats cs _) fun _ => .pure _
theorem KJ.renderConcats : (vs : List Value) → (l : Nat) → KJ env B rr (renderConcats vs l)
  | [], _ => .pure _
  | c :: cs, _ => .bind (KJ.renderValue c) fun _ => KJ.renderConcats cs _
end

theorem KJ.renderValues : (vs : List Value) → KJ env B rr (renderValues vs)
  | [] => .pure _
  | v :: vs => .bind (.renderValue S C RR v) fun _ => KJ.renderValues vs

theorem KJ.renderDelimValues (d : Bytes) : (vs : List Value) → (b : Bool) → KJ env B rr (renderDelimValues d vs b)
  | [], _ => .pure _
  | v :: vs, _ => .bind (.when (.ctxWrite d)) fun _ => .bind (.renderValue S C RR v) fun _ => KJ.renderDelimValues d vs _

theorem KJ.renderDelim (n d : Bytes) (vs : List Value) : KJ env B rr (renderDelim n d vs) :=
  .bind (.ctxWrite _) fun _ => .bind (.ctxWrite _) fun _ => .bind (.ctxWrite _) fun _ =>
    .bind (.renderDelimValues S C RR d vs false) fun _ => .ctxWrite _

theorem KJ.renderAttr (a : Attr) : KJ env B rr (renderAttr a) := by
  cases a with
  | plain n vs =>
    exact .bind (.ctxWrite _) fun _ => .bind (.ctxWrite _) fun _ => .bind (.ctxWrite _) fun _ =>
      .bind (.renderValues S C RR vs) fun _ => .ctxWrite _
  | bool n => exact .bind (.ctxWrite _) fun _ => .ctxWrite _
  | delim n d r => exact .bind .ctx fun _ => .renderDelim S C RR _ _ _

omit S in
theorem KJ.runCond (k : Cond) : KJ env B rr (runCond k) := by
  cases k with
  | user f => exact STrip.cond C RR f
  | has k => refine .bind .ctx fun c => ?_; split <;> exact .pure _
  | hasNot k => refine .bind .ctx fun c => ?_; split <;> exact .pure _

omit S in
theorem KJ.evalConds : (ks : List Cond) → KJ env B rr (evalConds ks)
  | [] => .pure _
  | k :: ks => by
    refine .bind (.runCond C RR k) fun b => ?_
    split
    · exact KJ.evalConds ks
    · exact .pure _

omit S in
theorem KJ.evaluate : (cas : List CondAttr) → (acc : List (Bytes × List Attr)) → KJ env B rr (evaluate cas acc)
  | [], _ => .pure _
  | _ :: as, _ => .bind (.evalConds C RR _) fun _ => KJ.evaluate as _

theorem KJ.renderChosen (a : Attr) (m : List Attr) (l : Attr) : KJ env B rr (renderChosen a m l) := by
  unfold Aitch.renderChosen
  split
  · exact .bind .ctx fun _ => .renderDelim S C RR _ _ _
  · exact .renderAttr S C RR l

theorem KJ.renderStatics (h : ElemHead) (ev : List (Bytes × List Attr)) : (ns : List Bytes) →
    KJ env B rr (renderStatics h ev ns)
  | [] => .pure _
  | n :: ns => by
    refine .bind ?_ fun _ => KJ.renderStatics h ev ns
    unfold renderStatic
    split
    · exact .pure _
    · split
      · exact .pure _
      · split
        · exact .renderChosen S C RR _ _ _
        · exact .renderAttr S C RR _

theorem KJ.renderExtras (h : ElemHead) (ev : List (Bytes × List Attr)) : (ns : List Bytes) →
    KJ env B rr (renderExtras h ev ns)
  | [] => .pure _
  | n :: ns => by
    refine .bind ?_ fun _ => KJ.renderExtras h ev ns
    unfold renderExtra
    split
    · exact .renderChosen S C RR _ _ _
    · exact .pure _

theorem KJ.renderAttrs : (as : List Attr) → KJ env B rr (renderAttrs as)
  | [] => .pure _
  | a :: as => .bind (.renderAttr S C RR a) fun _ => KJ.renderAttrs as

theorem KJ.renderAttributes (h : ElemHead) : KJ env B rr (renderAttributes h) := by
  unfold Aitch.renderAttributes
  split
  · refine .bind (.evaluate C RR _ _) fun ev => ?_
    split
    · exact .bind (.order _) fun _ => .bind (.renderStatics S C RR _ _ _) fun _ => .bind (.order _) fun _ =>
        .renderExtras S C RR _ _ _
    · exact .renderAttrs S C RR _
  · exact .renderAttrs S C RR _

theorem KJ.renderStartTag (h : ElemHead) : KJ env B rr (renderStartTag h) :=
  .bind (.ctxWrite _) fun _ => .bind (.ctxWrite _) fun _ => .bind (.renderAttributes S C RR h) fun _ => .ctxWrite _

omit S C RR in
theorem KJ.renderEndTag (n : Bytes) : KJ env B rr (renderEndTag n) :=
  .bind (.ctxWrite _) fun _ => .bind (.ctxWrite _) fun _ => .ctxWrite _

theorem KJ.startWrite : (l : List (Bytes × Option (List Value))) → KJ env B rr (startWrite l)
  | [] => .pure _
  | (n, vs) :: l => by
    refine .bind (.ctxWrite _) fun _ => .bind (.ctxWrite _) fun _ => .bind ?_ fun _ => KJ.startWrite l
    cases vs with
    | none => exact .pure _
    | some vs => exact .bind (.ctxWrite _) fun _ => .bind (.renderValues S C RR vs) fun _ => .ctxWrite _

theorem KJ.startTag (n : Bytes) (as : List (Option Node)) : KJ env B rr (startTag n as) :=
  .bind (.ctxWrite _) fun _ => .bind (.ctxWrite _) fun _ => .bind .ctx fun _ => .bind (.startWrite S C RR _) fun _ =>
    .ctxWrite _

omit S C RR in
theorem KJ.endAll : (l : List Bytes) → KJ env B rr (endAll l)
  | [] => .pure _
  | n :: l => .bind (.renderEndTag n) fun _ => .endAll l

omit S C RR

/-- `ctx.Error = c.Render(ctx)` -/
theorem STrip.setErrRQ (e : Option Err) : STrip env B rr (RQ e) (Do.setErr e) (fun _ s => RQ e s) :=
  STrip.act fun _ h => ⟨fun hf => h.2 hf, h.2⟩

variable {rec : Render} (R : ∀ n, NoNilImp n → STrip env B rr J (rec n) RQ) (PR : ∀ n, KeepsParents (rec n))
include R

theorem KJ.contentLoop : (ns : List Node) → NoNilImpAll ns → KJ env B rr (contentLoop rec ns)
  | [], _ => .pure _
  | n :: ns, hn => STrip.bind (R n hn.1) fun e => STrip.bind (STrip.setErrRQ e) fun _ =>
      (KJ.contentLoop ns hn.2).pre fun _ h => h.1

theorem KJ.conditionalLoop : (ns : List Node) → NoNilImpAll ns → KJ env B rr (conditionalLoop rec ns)
  | [], _ => .pure _
  | n :: ns, hn => by
    refine STrip.bind (R n hn.1) fun e => STrip.bind (STrip.setErrRQ e) fun _ => ?_
    cases e
    · exact (KJ.conditionalLoop ns hn.2).pre fun _ h => h.1
    · exact STrip.pure fun _ h => h.1

theorem KJ.collectionLoop : (ns : List Node) → NoNilImpAll ns → KJ env B rr (collectionLoop rec ns)
  | [], _ => .pure _
  | n :: ns, hn => by
    unfold Aitch.collectionLoop
    split
    · exact KJ.collectionLoop ns hn.2
    · refine STrip.bind (R n hn.1) fun e => STrip.bind (STrip.setErrRQ e) fun _ => ?_
      cases e
      · exact (KJ.collectionLoop ns hn.2).pre fun _ h => h.1
      · exact STrip.pure fun _ h => h.1

theorem KJ.ignoreLoop : (ns : List (Option Node)) → (∀ n, some n ∈ ns → NoNilImp n) → KJ env B rr (ignoreLoop rec ns)
  | [], _ => .pure _
  | none :: ns, hn => KJ.ignoreLoop ns fun n h => hn n (by simp [h])
  | some n :: ns, hn => by
    unfold Aitch.ignoreLoop
    split
    · exact KJ.ignoreLoop ns fun n h => hn n (by simp [h])
    · exact STrip.bind (R n (hn n (by simp))) fun _ =>
        (KJ.ignoreLoop ns fun n h => hn n (by simp [h])).pre fun _ h => h.1

theorem KJ.documentLoop : (ns : List Node) → NoNilImpAll ns → KJ env B rr (documentLoop rec ns)
  | [], _ => .pure _
  | n :: ns, hn => STrip.bind (R n hn.1) fun _ => (KJ.documentLoop ns hn.2).pre fun _ h => h.1

/-- Rendering the nodes of an item: if the result is nil, the last node's result was nil, or there were no nodes. -/
theorem STrip.iterNodes : (ns : List Node) → NoNilImpAll ns → (b : Prop) →
    STrip env B rr (fun s => J s ∧ (Failed s.log → b)) (iterNodes rec ns)
      (fun e s => J s ∧ (Failed s.log → e ≠ none ∨ b))
  | [], _, _ => STrip.pure fun _ h => ⟨h.1, fun hf => Or.inr (h.2 hf)⟩
  | n :: ns, hn, b => by
    refine STrip.bind ((R n hn.1).pre fun _ h => h.1) fun e => ?_
    cases e with
    | none =>
      exact (STrip.iterNodes ns hn.2 b).pre fun s h => ⟨h.1, fun hf => (h.2 hf rfl).elim⟩
    | some e => exact STrip.pure fun _ h => ⟨h.1, fun _ => Or.inl (by simp)⟩

theorem STrip.iterItems (ns : List Node) (hn : NoNilImpAll ns) (d : Option MapId) : (its : List Any) →
    STrip env B rr (fun s => ¬ Failed s.log) (iterItems rec ns d its) (fun e s => Failed s.log → e ≠ none)
  | [] => STrip.pure fun _ h hf => (h hf).elim
  | it :: its => by
    refine STrip.bind (Q := fun _ s => ¬ Failed s.log) (STrip.act fun _ h => h) fun _ =>
      STrip.bind ((STrip.iterNodes R ns hn False).pre fun _ h => ⟨fun hf => (h hf).elim, h⟩) fun e => ?_
    cases e with
    | none => exact (STrip.iterItems ns hn d its).pre fun s h hf => by simpa using h.2 hf
    | some e => exact STrip.pure fun _ _ _ => by simp

include PR PP

omit R PR in
/-- A child context's life. -/
theorem STrip.scoped {I : St → Prop} {α γ : Type} {child : Frame} {m : Prog α} {k : α → Frame → Prog γ} {Q : γ → St → Prop}
    (hm : KeepsParents m)
    (h : ∀ s e t, I s → exec env (inlined B rr m) (s.entered child) = some (e, t) →
      STrip env B rr (fun u => u = s.left t) (k e t.frame) Q) :
    STrip env B rr I (do Do.enter child; let e ← m; let fr ← Do.leave; k e fr) Q := by
  intro s r s' hs he
  rw [inlined_bind] at he
  simp only [inlined_bind] at he
  have he : exec env (do Do.enter child; let e ← inlined B rr m; let fr ← Do.leave; inlined B rr (k e fr)) s =
    some (r, s') := he
  obtain ⟨e, t, h1, h2⟩ := exec_scope (balanced_inlined PP hm) he
  exact h s e t hs h1 _ _ _ rfl h2

omit R PR in
theorem STrip.runItems (Qi : QuietItems B) (src : ItemSrc) :
    STrip env B rr (fun s => J s ∧ ¬ Failed s.log) (runItems src) fun _ s => J s ∧ ¬ Failed s.log := by
  cases src with
  | user f => exact STrip.items Qi f
  | key k =>
    exact STrip.bind (Q := fun _ s => J s ∧ ¬ Failed s.log) (STrip.act fun _ h => h) fun _ => STrip.pure fun _ h => h

theorem STrip.renderIterator (Qi : QuietItems B) (ns : List Node) (hn : NoNilImpAll ns) (fn : ItemSrc) :
    STrip env B rr J (renderIterator rec ns fn) RQ := by
  unfold Aitch.renderIterator
  refine STrip.bind (Q := fun c s => J s ∧ s.toCtx = c) (STrip.act fun s h => ⟨h, rfl⟩) fun c => ?_
  cases herr : c.frame.err with
  | some e => exact STrip.pure fun _ h => ⟨h.1, fun _ => by simp⟩
  | none =>
    refine STrip.bind ((STrip.runItems PP Qi fn).pre fun s h => ⟨h.1, fun hf => h.1 hf (by rw [h.2]; exact herr)⟩) fun items => ?_
    cases items with
    | nil => exact STrip.pure fun _ h => ⟨h.1, fun hf => (h.2 hf).elim⟩
    | cons it its =>
      refine STrip.bind (Q := fun _ s => ¬ Failed s.log) (STrip.act fun _ h => h.2) fun c => ?_
      refine STrip.scoped PP (KeepsParents.iterItems PR _ _ _) fun s e t hs h1 => ?_
      have h4 := STrip.iterItems R ns hn _ _ (s.entered _) _ _ hs h1
      cases e with
      | some e =>
        exact STrip.bind (Q := fun _ s => J s) (STrip.act fun _ _ _ => by simp [Action.run, St.setErr]) fun _ =>
          STrip.pure fun _ h => ⟨h, fun _ => by simp⟩
      | none =>
        refine STrip.pure fun u hu => ?_
        subst hu
        have : ¬ Failed (s.left t).log := fun hf => h4 hf rfl
        exact ⟨fun hf => (this hf).elim, fun hf => (this hf).elim⟩

/-- The body of a careful function given to `IterateYield`. -/
theorem STrip.runYields (ns : List Node) (hn : NoNilImpAll ns) : (p : YieldBody) → (child : Frame) →
    (CarefulBody p → STrip env B rr J (runYield rec ns p child) (fun _ s => J s)) ∧
    (NotesBody p → STrip env B rr (fun _ => True) (runYield rec ns p child) (fun _ s => J s))
  | .done, _ => ⟨fun _ => STrip.pure fun _ h => h, nofun⟩
  | .user upd k, child => by
    refine ⟨fun hp => ?_, fun hp => ?_⟩
    · cases hp with
      | user h1 h2 => exact STrip.bind (KJ.user h1) fun s => (STrip.runYields ns hn (k s) child).1 (h2 s)
    · cases hp with
      | user h1 h2 =>
        exact STrip.bind (Q := fun _ => J) (STrip.act fun s _ _ => h1 s) fun s =>
          (STrip.runYields ns hn (k s) child).1 (h2 s)
  | .write d k, child => by
    refine ⟨fun hp => ?_, nofun⟩
    cases hp with
    | write h1 h2 =>
      intro s r s' hs he
      have he : exec env (inlined B rr (runYield rec ns (k (env.write s.log d) (s.wrote d (env.write s.log d))) child))
        (s.wrote d (env.write s.log d)) = some (r, s') := he
      rcases hw : env.write s.log d with ⟨n, _ | e⟩
      · rw [hw] at he
        exact (STrip.runYields ns hn _ child).1 (h1 n _) _ r s' (wrote_ok hs d n) he
      · rw [hw] at he
        exact (STrip.runYields ns hn _ child).2 (h2 n e _) _ r s' trivial he
  | .render n k, child => by
    refine ⟨fun hp => ?_, nofun⟩
    cases hp with
    | render h1 h2 =>
      exact STrip.bind (R n h1) fun e => STrip.bind (Q := fun _ => J) (STrip.act fun _ h => h.1) fun s =>
        (STrip.runYields ns hn (k e s) child).1 (h2 e s)
  | .yield it k, child => by
    refine ⟨fun hp => ?_, nofun⟩
    cases hp with
    | yield hk =>
      rw [runYield_scope]
      refine STrip.scoped PP (.bind (.setItem _ _) fun _ => .iterNodes PR ns) fun s e t hs h1 => ?_
      have h3 : Failed t.log → e ≠ none ∨ s.frame.err ≠ none := by
        by_cases hf : Failed s.log
        · exact fun _ => .inr (hs hf)
        · refine fun h => .inl ?_
          have := STrip.bind (B := B) (rr := rr) (I := fun t => J t ∧ (Failed t.log → False))
            (m := Do.setItem it (itemData child.data it))
            (Q := fun _ t => J t ∧ (Failed t.log → False)) (STrip.act fun _ h => h)
            (fun _ => STrip.iterNodes R ns hn False) (s.entered child) e t ⟨fun h => (hf h).elim, hf⟩ h1
          exact (this.2 h).elim id False.elim
      refine STrip.bind (Q := fun _ => J) ?_
        (fun _ => STrip.bind (m := Do.look) KJ.look fun s => (STrip.runYields ns hn (k s) t.frame).1 (hk s))
      cases e with
      | none =>
        refine STrip.pure fun u hu => ?_
        subst hu
        exact fun hf => (h3 hf).elim (fun h => (h rfl).elim) id
      | some e => exact STrip.act fun u _ _ => by simp [Action.run, St.setErr]

include C

theorem STrip.renderYield (ns : List Node) (hn : NoNilImpAll ns) (f : FnId) :
    STrip env B rr J (renderYield B rec ns f) RQ := by
  unfold Stream.renderYield
  refine STrip.bind KJ.ctx fun c => ?_
  cases herr : c.frame.err with
  | some e => exact STrip.pure fun _ h => ⟨h, fun _ => by simp⟩
  | none =>
    exact STrip.bind KJ.look fun s => STrip.bind ((STrip.runYields PP R PR ns hn _ _).1 (C.yields f s)) fun _ => STrip.retErr

omit PR PP
include S RR

theorem KJ.runOp (op : ImpOp) (st : List Bytes) (h : ∀ ns n, op = .writeNodes ns → some n ∈ ns → NoNilImp n) :
    KJ env B rr (runOp rec op st) := by
  cases op with
  | writeString d => exact .bind (.ctxWrite _) fun _ => .pure _
  | writeRaw d => exact .bind (.ctxWrite _) fun _ => .pure _
  | writeNodes ns => exact .bind (.ignoreLoop R ns fun n hn => h ns n rfl hn) fun _ => .pure _
  | start n v as => exact .bind (.startTag S C RR n as) fun _ => .pure _
  | «end» =>
    cases st with
    | nil => exact .pure _
    | cons n st => exact .bind (.renderEndTag n) fun _ => .pure _
  | endAll => exact .bind (.endAll st) fun _ => .pure _

theorem STrip.runImps : (p : ImpProg) → NoNilImpCalls p → (st : List Bytes) →
    STrip env B rr (fun s => J s ∧ CarefulImp s p) (runImp rec p st) RQ ∧
    (NotesImp p → STrip env B rr (fun _ => True) (runImp rec p st) RQ)
  | .ret e, _, _ => by
    refine ⟨STrip.pure fun s h => ⟨h.1, fun hf => ?_⟩, nofun⟩
    cases h.2 with
    | ret h2 => exact h2 (h.1 hf)
  | .user upd k, hp, st => by
    cases hp with
    | user hk =>
      refine ⟨?_, fun hq => ?_⟩
      · refine STrip.bind (Q := fun s s' => J s' ∧ CarefulImp s' (k s)) (STrip.act fun s h => ?_) fun s =>
          (STrip.runImps (k s) (hk s) st).1
        cases h.2 with
        | user h1 h2 => exact ⟨fun hf => h1 s (h.1 hf), h2 _⟩
      · cases hq with
        | user h1 h2 =>
          exact STrip.bind (Q := fun s s' => J s' ∧ CarefulImp s' (k s)) (STrip.act fun s _ => ⟨fun _ => h1 s, h2 _⟩) fun s =>
            (STrip.runImps (k s) (hk s) st).1
  | .call op k, hp, st => by
    cases hp with
    | call h1 hk =>
      refine ⟨?_, nofun⟩
      intro s r s' hs he
      cases hs.2 with
      | call h2 =>
        exact STrip.bind (KJ.runOp S C RR R op st h1) (fun st => STrip.bind (Q := fun s s' => J s' ∧ CarefulImp s' (k s))
          (STrip.act fun s h => ⟨h, h2 _⟩) fun s => (STrip.runImps (k s) (hk s) st).1) s r s' hs.1 he
  | .render n k, hp, st => by
    cases hp with
    | render h1 hk =>
      refine ⟨?_, nofun⟩
      intro s r s' hs he
      cases hs.2 with
      | render h2 =>
        exact STrip.bind (R n h1) (fun e => STrip.bind (Q := fun s s' => J s' ∧ CarefulImp s' (k e s))
          (STrip.act fun s h => ⟨h.1, h2 _ _⟩) fun s => (STrip.runImps (k e s) (hk e s) st).1) s r s' hs.1 he
  | .write d k, hp, st => by
    cases hp with
    | write hk =>
      refine ⟨?_, nofun⟩
      intro s r s' hs he
      have he : exec env (inlined B rr (runImp rec (k (env.write s.log d) (s.wrote d (env.write s.log d))) st))
        (s.wrote d (env.write s.log d)) = some (r, s') := he
      cases hs.2 with
      | write h1 h2 =>
        rcases hw : env.write s.log d with ⟨n, _ | e⟩
        · rw [hw] at he
          refine (STrip.runImps _ (hk _ _) st).1 _ r s' ⟨fun h => ?_, h1 n _⟩ he
          rcases failed_snoc.1 h with h | h
          · exact hs.1 h
          · exact (h rfl).elim
        · rw [hw] at he
          exact (STrip.runImps _ (hk _ _) st).2 (h2 n e _) _ r s' trivial he

include PR PP

theorem STrip.renderStep (Qi : QuietItems B) (n : Node) (hn : NoNilImp n) : STrip env B rr J (step B rec n) RQ := by
  cases n with
  | element h cs =>
    exact STrip.bind (KJ.renderStartTag S C RR h) fun _ => STrip.bind (KJ.contentLoop R cs hn) fun _ =>
      STrip.bind (KJ.renderEndTag _) fun _ => STrip.retErr
  | voidElement h => exact STrip.bind (KJ.renderStartTag S C RR h) fun _ => STrip.retErr
  | attr a => exact STrip.bind (KJ.renderAttr S C RR a) fun _ => STrip.retErr
  | text vs => exact STrip.bind (KJ.renderValues S C RR vs) fun _ => STrip.retErr
  | comment vs =>
    exact STrip.bind (KJ.ctxWrite _) fun _ => STrip.bind (KJ.renderValues S C RR vs) fun _ =>
      STrip.bind (KJ.ctxWrite _) fun _ => STrip.retErr
  | fragment vs => exact STrip.bind (KJ.renderValues S C RR vs) fun _ => STrip.retErr
  | pi n vs =>
    exact STrip.bind (KJ.ctxWrite _) fun _ => STrip.bind (KJ.ctxWrite _) fun _ => STrip.bind (KJ.ctxWrite _) fun _ =>
      STrip.bind (KJ.renderValues S C RR vs) fun _ => STrip.bind (KJ.ctxWrite _) fun _ => STrip.retErr
  | collection ns => exact STrip.bind (KJ.collectionLoop R ns hn) fun _ => STrip.retErr
  | conditional ns as fn =>
    exact STrip.bind (KJ.runCond C RR fn) fun _ => STrip.bind (KJ.when (.conditionalLoop R ns hn)) fun _ => STrip.retErr
  | collector f =>
    refine STrip.bind (STrip.collect C RR f) fun ns => STrip.bind (Q := fun _ => J) ?_ fun _ => STrip.retErr
    intro s r s' hs he
    exact KJ.ignoreLoop R ns hs.2 _ _ _ hs.1 he
  | imperative f =>
    cases f with
    | none => exact (hn rfl).elim
    | some f =>
      refine STrip.bind (Q := fun p s => (J s ∧ CarefulImp s p) ∧ NoNilImpCalls p) (STrip.act fun s hs =>
        ⟨⟨hs, C.imp f s⟩, C.calls f s⟩) fun p => ?_
      intro s r s' hs he
      exact (STrip.runImps S C RR R p hs.2 []).1 _ _ _ hs.1 he
  | iterator ns fn => exact STrip.renderIterator PP R PR Qi ns hn fn
  | yieldIterator ns f => exact STrip.renderYield C PP R PR ns hn f
  | document p cs =>
    refine STrip.bind (KJ.documentLoop R _ ?_) fun _ => STrip.retErr
    cases p with
    | none => exact hn
    | some p => exact hn

end

theorem STrip.nested {env : Env} {B : Bodies} {rr : Render} (S : StaysFailed env.write) (C : Spec.Stream.Careful env B)
    (RR : ∀ n, NoNilImp n → Trip env J (rr n) RQ) (PP : ∀ n, KeepsParents (rr n)) (Qi : QuietItems B) :
    (fuel : Nat) → (n : Node) → NoNilImp n → STrip env B rr J (nested B fuel n) RQ
  | 0, _, _ => STrip.stuck
  | fuel + 1, n, hn => STrip.renderStep S C RR PP (STrip.nested S C RR PP Qi fuel) (balanced_nested fuel) Qi n hn

theorem Trip.renderWith {env : Env} {B : Bodies} (S : StaysFailed env.write) (C : Spec.Stream.Careful env B)
    (Qi : QuietItems B) : (fuel : Nat) → (n : Node) → NoNilImp n → Trip env J (renderWith B fuel n) RQ
  | 0, _, _ => Trip.stuck
  | fuel + 1, n, hn => STrip.nested S C (Trip.renderWith S C Qi fuel) (balanced_renderWith fuel) Qi (fuel + 1) n hn

end Aitch.Stream

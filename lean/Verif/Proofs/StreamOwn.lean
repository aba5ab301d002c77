import Verif.Proofs.StreamErrors
import Verif.Proofs.OwnErrors
/-
Every error in a context, and every returned error, was returned by a write, also when user functions write and render
(user functions that bring no errors).
-/
set_option linter.unusedSectionVars false

namespace Aitch.Stream
open Aitch Spec Spec.Stream

section
variable {env : Env} {B : Bodies} {rr : Render}

/-- `m` keeps `O`. -/
abbrev KO {α} (env : Env) (B : Bodies) (rr : Render) (m : Prog α) : Prop := STrip env B rr O m fun _ => O

theorem KO.pure {α} (a : α) : KO env B rr (Pure.pure a : Prog α) := STrip.pure fun _ h => h

theorem KO.bind {α β} {m : Prog α} {f : α → Prog β} (hm : KO env B rr m) (hf : ∀ a, KO env B rr (f a)) :
    KO env B rr (m >>= f) := STrip.bind hm hf

theorem KO.when {b : Bool} {m : Prog Unit} (h : KO env B rr m) : KO env B rr (Prog.when b m) := by
  unfold Prog.when; split
  · exact h
  · exact .pure _

theorem KO.ctx : KO env B rr Do.ctx := STrip.act fun _ h => h
theorem KO.order (ks) : KO env B rr (Do.order ks) := STrip.act fun _ h => h
theorem KO.look : KO env B rr Do.look := STrip.act fun _ h => h

theorem KO.ctxWrite (d : Bytes) : KO env B rr (ctxWrite d) := STrip.of (Aitch.KO.ctxWrite d) (inlined_ctxWrite d)

theorem KO.write' (d : Bytes) :
    STrip env B rr O (Do.write d) (fun r s => O s ∧ ∀ x, r.2 = some x → Returned s.log x) := STrip.of (Aitch.KO.write' d)

theorem KO.retErr' : STrip env B rr O retErr OQ := STrip.of Aitch.KO.retErr'

theorem KO.valueWrite (d : Bytes) : KO env B rr (valueWrite d) := STrip.of (Aitch.KO.valueWrite d)

variable (C : Spec.Stream.Honest env B) (RR : ∀ n, Trip env O (rr n) OQ)
include RR

/-- The body of an honest function. -/
theorem Trip.honest {α : Type} : (p : FnProg α) → Trip env (fun s => O s ∧ HonestFn s p) (p.run rr) fun _ => O
  | .ret _ => Trip.pure fun _ h => h.1
  | .user upd k => by
    refine Trip.bind (Q := fun s s' => O s' ∧ HonestFn s' (k s)) (Trip.act fun s h => ?_) fun s => Trip.honest (k s)
    cases h.2 with
    | user h1 h2 => exact ⟨h.1.confine h1, h2 _⟩
  | .write d k => by
    intro s r s' hs he
    cases hs.2 with
    | write h2 =>
      exact Trip.bind (Aitch.KO.write' d) (fun e => Trip.bind (Q := fun s s' => O s' ∧ HonestFn s' (k e s))
        (Trip.act fun s h => ⟨h.1, h2 _ _ h.2⟩) fun s => Trip.honest (k e s)) s r s' hs.1 he
  | .render n k => by
    intro s r s' hs he
    cases hs.2 with
    | render h2 =>
      exact Trip.bind (RR n) (fun e => Trip.bind (Q := fun s s' => O s' ∧ HonestFn s' (k e s))
        (Trip.act fun s h => ⟨h.1, h2 _ _ h.2⟩) fun s => Trip.honest (k e s)) s r s' hs.1 he

include C

theorem KO.dyn (f : FnId) : KO env B rr (Do.dyn f) :=
  Trip.bind (Q := fun t s => O s ∧ HonestFn s (B.dyn f t)) (Trip.act fun s h => ⟨h, C.dyn f s⟩) fun _ =>
    Trip.bind (Trip.honest RR _) fun _ => Trip.pure fun _ h => h

theorem KO.cond (f : FnId) : KO env B rr (Do.cond f) :=
  Trip.bind (Q := fun t s => O s ∧ HonestFn s (B.cond f t)) (Trip.act fun s h => ⟨h, C.cond f s⟩) fun _ =>
    Trip.bind (Trip.honest RR _) fun _ => Trip.pure fun _ h => h

theorem KO.collect (f : FnId) : KO env B rr (Do.collect f) :=
  Trip.bind (Q := fun t s => O s ∧ HonestFn s (B.collect f t)) (Trip.act fun s h => ⟨h, C.collect f s⟩) fun _ =>
    Trip.bind (Trip.honest RR _) fun _ => Trip.pure fun _ h => h

theorem KO.items (f : FnId) : KO env B rr (Do.items f) :=
  Trip.bind (Q := fun t s => O s ∧ HonestFn s (B.items f t)) (Trip.act fun s h => ⟨h, C.items f s⟩) fun _ =>
    Trip.bind (Trip.honest RR _) fun _ => Trip.pure fun _ h => h

theorem KO.runDyn (d : Dyn) : KO env B rr (runDyn d) := by
  cases d with
  | user f => exact KO.dyn C RR f
  | key k => refine .bind .ctx fun c => ?_; split <;> exact .pure _
  | cargo => exact .bind .ctx fun _ => .pure _

mutual
theorem KO.renderValue : (v : Value) → KO env B rr (renderValue v)
  | .mk _ (some d) _ => .bind (.runDyn C RR d) fun _ => KO.valueWrite _
  | .mk v none [] => KO.valueWrite v
  | .mk _ none (c :: cs) => .bind (KO.renderValue c) fun _ => .bind (KO.renderConcats cs _) fun _ => .pure _
theorem KO.renderConcats : (vs : List Value) → (l : Nat) → KO env B rr (renderConcats vs l)
  | [], _ => .pure _
  | c :: cs, _ => .bind (KO.renderValue c) fun _ => KO.renderConcats cs _
end

theorem KO.renderValues : (vs : List Value) → KO env B rr (renderValues vs)
  | [] => .pure _
  | v :: vs => .bind (.renderValue C RR v) fun _ => KO.renderValues vs

theorem KO.renderDelimValues (d : Bytes) : (vs : List Value) → (b : Bool) → KO env B rr (renderDelimValues d vs b)
  | [], _ => .pure _
  | v :: vs, _ => .bind (.when (.ctxWrite d)) fun _ => .bind (.renderValue C RR v) fun _ => KO.renderDelimValues d vs _

theorem KO.renderDelim (n d : Bytes) (vs : List Value) : KO env B rr (renderDelim n d vs) :=
  .bind (.ctxWrite _) fun _ => .bind (.ctxWrite _) fun _ => .bind (.ctxWrite _) fun _ =>
    .bind (.renderDelimValues C RR d vs false) fun _ => .ctxWrite _

theorem KO.renderAttr (a : Attr) : KO env B rr (renderAttr a) := by
  cases a with
  | plain n vs =>
    exact .bind (.ctxWrite _) fun _ => .bind (.ctxWrite _) fun _ => .bind (.ctxWrite _) fun _ =>
      .bind (.renderValues C RR vs) fun _ => .ctxWrite _
  | bool n => exact .bind (.ctxWrite _) fun _ => .ctxWrite _
  | delim n d r => exact .bind .ctx fun _ => .renderDelim C RR _ _ _

theorem KO.runCond (k : Cond) : KO env B rr (runCond k) := by
  cases k with
  | user f => exact KO.cond C RR f
  | has k => refine .bind .ctx fun c => ?_; split <;> exact .pure _
  | hasNot k => refine .bind .ctx fun c => ?_; split <;> exact .pure _

theorem KO.evalConds : (ks : List Cond) → KO env B rr (evalConds ks)
  | [] => .pure _
  | k :: ks => by
    refine .bind (.runCond C RR k) fun b => ?_
    split
    · exact KO.evalConds ks
    · exact .pure _

theorem KO.evaluate : (cas : List CondAttr) → (acc : List (Bytes × List Attr)) → KO env B rr (evaluate cas acc)
  | [], _ => .pure _
  | _ :: as, _ => .bind (.evalConds C RR _) fun _ => KO.evaluate as _

theorem KO.renderChosen (a : Attr) (m : List Attr) (l : Attr) : KO env B rr (renderChosen a m l) := by
  unfold Aitch.renderChosen
  split
  · exact .bind .ctx fun _ => .renderDelim C RR _ _ _
  · exact .renderAttr C RR l

theorem KO.renderStatics (h : ElemHead) (ev : List (Bytes × List Attr)) : (ns : List Bytes) →
    KO env B rr (renderStatics h ev ns)
  | [] => .pure _
  | n :: ns => by
    refine .bind ?_ fun _ => KO.renderStatics h ev ns
    unfold renderStatic
    split
    · exact .pure _
    · split
      · exact .pure _
      · split
        · exact .renderChosen C RR _ _ _
        · exact .renderAttr C RR _

theorem KO.renderExtras (h : ElemHead) (ev : List (Bytes × List Attr)) : (ns : List Bytes) →
    KO env B rr (renderExtras h ev ns)
  | [] => .pure _
  | n :: ns => by
    refine .bind ?_ fun _ => KO.renderExtras h ev ns
    unfold renderExtra
    split
    · exact .renderChosen C RR _ _ _
    · exact .pure _

theorem KO.renderAttrs : (as : List Attr) → KO env B rr (renderAttrs as)
  | [] => .pure _
  | a :: as => .bind (.renderAttr C RR a) fun _ => KO.renderAttrs as

theorem KO.renderAttributes (h : ElemHead) : KO env B rr (renderAttributes h) := by
  unfold Aitch.renderAttributes
  split
  · refine .bind (.evaluate C RR _ _) fun ev => ?_
    split
    · exact .bind (.order _) fun _ => .bind (.renderStatics C RR _ _ _) fun _ => .bind (.order _) fun _ =>
        .renderExtras C RR _ _ _
    · exact .renderAttrs C RR _
  · exact .renderAttrs C RR _

theorem KO.renderStartTag (h : ElemHead) : KO env B rr (renderStartTag h) :=
  .bind (.ctxWrite _) fun _ => .bind (.ctxWrite _) fun _ => .bind (.renderAttributes C RR h) fun _ => .ctxWrite _

omit C RR in
theorem KO.renderEndTag (n : Bytes) : KO env B rr (renderEndTag n) :=
  .bind (.ctxWrite _) fun _ => .bind (.ctxWrite _) fun _ => .ctxWrite _

theorem KO.startWrite : (l : List (Bytes × Option (List Value))) → KO env B rr (startWrite l)
  | [] => .pure _
  | (n, vs) :: l => by
    refine .bind (.ctxWrite _) fun _ => .bind (.ctxWrite _) fun _ => .bind ?_ fun _ => KO.startWrite l
    cases vs with
    | none => exact .pure _
    | some vs => exact .bind (.ctxWrite _) fun _ => .bind (.renderValues C RR vs) fun _ => .ctxWrite _

theorem KO.startTag (n : Bytes) (as : List (Option Node)) : KO env B rr (startTag n as) :=
  .bind (.ctxWrite _) fun _ => .bind (.ctxWrite _) fun _ => .bind .ctx fun _ => .bind (.startWrite C RR _) fun _ =>
    .ctxWrite _

omit C RR in
theorem KO.endAll : (l : List Bytes) → KO env B rr (endAll l)
  | [] => .pure _
  | n :: l => .bind (.renderEndTag n) fun _ => .endAll l

theorem KO.runItems (src : ItemSrc) : KO env B rr (runItems src) := by
  cases src with
  | user f => exact KO.items C RR f
  | key k => exact .bind .ctx fun _ => .pure _

omit C RR

/-- `ctx.Error = c.Render(ctx)` -/
theorem KO.setErrOQ (e : Option Err) : STrip env B rr (OQ e) (Do.setErr e) (fun _ s => OQ e s) :=
  STrip.act fun _ h => ⟨⟨h.2, h.1.2⟩, h.2⟩

theorem KO.setErrIf (e : Option Err) : STrip env B rr (OQ e) (setErrIf e) (fun _ s => O s) := by
  cases e with
  | none => exact STrip.pure fun _ h => h.1
  | some e => exact (KO.setErrOQ _).conseq fun _ _ h => h.1

variable {rec : Render} (R : ∀ n, STrip env B rr O (rec n) OQ)
include R

theorem KO.contentLoop : (ns : List Node) → KO env B rr (contentLoop rec ns)
  | [] => .pure _
  | n :: ns => STrip.bind (R n) fun e => STrip.bind (KO.setErrOQ e) fun _ => (KO.contentLoop ns).pre fun _ h => h.1

theorem KO.conditionalLoop : (ns : List Node) → KO env B rr (conditionalLoop rec ns)
  | [] => .pure _
  | n :: ns => by
    refine STrip.bind (R n) fun e => STrip.bind (KO.setErrOQ e) fun _ => ?_
    cases e
    · exact (KO.conditionalLoop ns).pre fun _ h => h.1
    · exact STrip.pure fun _ h => h.1

theorem KO.collectionLoop : (ns : List Node) → KO env B rr (collectionLoop rec ns)
  | [] => .pure _
  | n :: ns => by
    unfold Aitch.collectionLoop
    split
    · exact KO.collectionLoop ns
    · refine STrip.bind (R n) fun e => STrip.bind (KO.setErrOQ e) fun _ => ?_
      cases e
      · exact (KO.collectionLoop ns).pre fun _ h => h.1
      · exact STrip.pure fun _ h => h.1

theorem KO.ignoreLoop : (ns : List (Option Node)) → KO env B rr (ignoreLoop rec ns)
  | [] => .pure _
  | none :: ns => KO.ignoreLoop ns
  | some n :: ns => by
    unfold Aitch.ignoreLoop
    split
    · exact KO.ignoreLoop ns
    · exact STrip.bind (R n) fun _ => (KO.ignoreLoop ns).pre fun _ h => h.1

theorem KO.documentLoop : (ns : List Node) → KO env B rr (documentLoop rec ns)
  | [] => .pure _
  | n :: ns => STrip.bind (R n) fun _ => (KO.documentLoop ns).pre fun _ h => h.1

theorem KO.iterNodes' : (ns : List Node) → STrip env B rr O (iterNodes rec ns) OQ
  | [] => STrip.pure fun _ h => ⟨h, by simp⟩
  | n :: ns => by
    refine STrip.bind (R n) fun e => ?_
    cases e with
    | none => exact (KO.iterNodes' ns).pre fun s h => h.1
    | some e => exact STrip.pure fun _ h => h

theorem KO.iterItems' (ns : List Node) (d : Option MapId) : (its : List Any) → STrip env B rr O (iterItems rec ns d its) OQ
  | [] => STrip.pure fun _ h => ⟨h, by simp⟩
  | it :: its => by
    refine STrip.bind (Q := fun _ => O) (STrip.act fun _ h => h) fun _ => STrip.bind (KO.iterNodes' R ns) fun e => ?_
    cases e with
    | none => exact (KO.iterItems' ns d its).pre fun s h => h.1
    | some e => exact STrip.pure fun _ h => h

omit R in
theorem KO.enter (c : Frame) : STrip env B rr (fun s => O s ∧ ∀ e, c.err = some e → Returned s.log e) (Do.enter c) fun _ => O :=
  STrip.act fun s h => ⟨h.2, fun f hf => by
    rcases List.mem_cons.1 hf with rfl | hf
    · exact h.1.1
    · exact h.1.2 f hf⟩

omit R in
theorem KO.leave (r : Option Err) : STrip env B rr (OQ r) Do.leave
    fun c s => OQ r s ∧ ∀ e, c.err = some e → Returned s.log e := by
  refine STrip.act fun s h => ?_
  simp only [Action.run]
  split
  · exact ⟨h, h.1.1⟩
  · rename_i f fs hp
    exact ⟨⟨⟨h.1.2 f (by rw [hp]; exact List.mem_cons_self ..), fun g hg => h.1.2 g (by rw [hp]; exact List.mem_cons_of_mem _ hg)⟩, h.2⟩, h.1.1⟩

include C RR

theorem KO.renderIterator' (ns : List Node) (fn : ItemSrc) : STrip env B rr O (renderIterator rec ns fn) OQ := by
  unfold Aitch.renderIterator
  refine STrip.bind (Q := fun c s => O s ∧ s.toCtx = c) (STrip.act fun s h => ⟨h, rfl⟩) fun c => ?_
  cases herr : c.frame.err with
  | some e => exact STrip.pure fun s h => ⟨h.1, fun x hx => h.1.1 x (by rw [← hx, ← herr, ← h.2])⟩
  | none =>
    refine STrip.bind ((KO.runItems C RR fn).pre fun _ h => h.1) fun items => ?_
    split
    · exact STrip.pure fun _ h => ⟨h, by simp⟩
    · refine STrip.bind (Q := fun c s => O s ∧ s.toCtx = c) (STrip.act fun s h => ⟨h, rfl⟩) fun c => ?_
      refine STrip.bind ((KO.enter _).pre fun s h => ⟨h.1, fun e he => h.1.1 e (by rw [← he, ← h.2])⟩) fun _ => ?_
      refine STrip.bind (KO.iterItems' R ns _ _) fun e => STrip.bind (KO.leave e) fun _ => ?_
      cases e with
      | none => exact STrip.pure fun _ h => h.1
      | some e => exact STrip.bind (Q := fun _ => OQ (some e)) (STrip.act fun _ h => ⟨⟨h.1.2, h.1.1.2⟩, h.1.2⟩) fun _ =>
          STrip.pure fun _ h => h

omit C RR in
theorem KO.runYield (ns : List Node) : (p : YieldBody) → (child : Frame) →
    STrip env B rr (fun s => (O s ∧ ∀ e, child.err = some e → Returned s.log e) ∧ HonestBody s p) (runYield rec ns p child)
      (fun _ => O)
  | .done, _ => STrip.pure fun _ h => h.1.1
  | .user upd k, child => by
    refine STrip.bind (Q := fun s s' => (O s' ∧ ∀ e, child.err = some e → Returned s'.log e) ∧ HonestBody s' (k s))
      (STrip.act fun s h => ?_) fun s => KO.runYield ns (k s) child
    cases h.2 with
    | user h1 h2 => exact ⟨⟨h.1.1.confine h1, h.1.2⟩, h2 _⟩
  | .write d k, child => by
    intro s r s' hs he
    cases hs.2 with
    | write hk =>
      suffices H : STrip env B rr (fun s => O s ∧ ∀ e, child.err = some e → Returned s.log e)
        (Stream.runYield rec ns (.write d k) child) (fun _ => O) from H s r s' hs.1 he
      refine STrip.bind (Q := fun r s => (O s ∧ ∀ e, child.err = some e → Returned s.log e) ∧
          ∀ x, r.2 = some x → Returned s.log x) (STrip.act ?_) fun r =>
        STrip.bind (m := Do.look) (Q := fun t s => (O s ∧ ∀ e, child.err = some e → Returned s.log e) ∧ HonestBody s (k r t))
          (STrip.act fun s h => ⟨h.1, hk r s h.2⟩) fun s => KO.runYield ns (k r s) child
      intro s hs
      have := KO.write' (env := env) (B := B) (rr := rr) d s _ _ hs.1 rfl
      exact ⟨⟨this.1, fun e he => returned_append (hs.2 e he)⟩, this.2⟩
  | .render n k, child => by
    intro s r s' hs he
    cases hs.2 with
    | render hk =>
      suffices H : STrip env B rr (fun s => O s ∧ ∀ e, child.err = some e → Returned s.log e)
        (Stream.runYield rec ns (.render n k) child) (fun _ => O) from H s r s' hs.1 he
      refine STrip.bind (Q := fun e s => (O s ∧ ∀ e, child.err = some e → Returned s.log e) ∧
          ∀ x, e = some x → Returned s.log x) ?_ fun r =>
        STrip.bind (m := Do.look) (Q := fun t s => (O s ∧ ∀ e, child.err = some e → Returned s.log e) ∧ HonestBody s (k r t))
          (STrip.act fun s h => ⟨h.1, hk r s h.2⟩) fun s => KO.runYield ns (k r s) child
      intro s r s' hs he
      have := R n s r s' hs.1 he
      obtain ⟨l, hl⟩ := exec_log he
      exact ⟨⟨this.1, fun e he => by rw [← hl]; exact returned_append (hs.2 e he)⟩, this.2⟩
  | .yield it k, child => by
    intro s r s' hs he
    cases hs.2 with
    | yield hk =>
      suffices H : STrip env B rr (fun s => O s ∧ ∀ e, child.err = some e → Returned s.log e)
        (Stream.runYield rec ns (.yield it k) child) (fun _ => O) from H s r s' hs.1 he
      refine STrip.bind (KO.enter _) fun _ => STrip.bind (Q := fun _ => O) (STrip.act fun _ h => h) fun _ =>
        STrip.bind (KO.iterNodes' R ns) fun e => STrip.bind (KO.leave e) fun c => ?_
      refine STrip.bind (Q := fun _ s => O s ∧ ∀ e, c.err = some e → Returned s.log e) ?_ fun _ =>
        STrip.bind (m := Do.look) (Q := fun t s => (O s ∧ ∀ e, c.err = some e → Returned s.log e) ∧ HonestBody s (k t))
          (STrip.act fun s h => ⟨h, hk s⟩) fun s => KO.runYield ns (k s) c
      cases e with
      | none => exact STrip.pure fun _ h => ⟨h.1.1, h.2⟩
      | some e => exact STrip.act fun _ h => ⟨⟨h.1.2, h.1.1.2⟩, h.2⟩

theorem KO.renderYield' (ns : List Node) (f : FnId) : STrip env B rr O (renderYield B rec ns f) OQ := by
  unfold Stream.renderYield
  refine STrip.bind (Q := fun c s => O s ∧ s.toCtx = c) (STrip.act fun s h => ⟨h, rfl⟩) fun c => ?_
  cases herr : c.frame.err with
  | some e => exact STrip.pure fun s h => ⟨h.1, fun x hx => h.1.1 x (by rw [← hx, ← herr, ← h.2])⟩
  | none =>
    refine STrip.bind (Q := fun t s => HonestBody s (B.yields f t) ∧ O s) (STrip.act fun s h => ⟨C.yields f s, h.1⟩) fun p => ?_
    refine STrip.bind (Q := fun _ => O) ?_ fun _ => KO.retErr'
    exact (KO.runYield R ns _ _).pre fun s hs => ⟨⟨hs.2, by simp⟩, hs.1⟩

theorem KO.runOp (op : ImpOp) (st : List Bytes) : KO env B rr (runOp rec op st) := by
  cases op with
  | writeString d => exact .bind (.ctxWrite _) fun _ => .pure _
  | writeRaw d => exact .bind (.ctxWrite _) fun _ => .pure _
  | writeNodes ns => exact .bind (.ignoreLoop R ns) fun _ => .pure _
  | start n v as => exact .bind (.startTag C RR n as) fun _ => .pure _
  | «end» =>
    cases st with
    | nil => exact .pure _
    | cons n st => exact .bind (.renderEndTag n) fun _ => .pure _
  | endAll => exact .bind (.endAll st) fun _ => .pure _

theorem KO.runImp' : (p : ImpProg) → (st : List Bytes) →
    STrip env B rr (fun s => O s ∧ HonestImp s p) (runImp rec p st) OQ
  | .ret e, _ => by
    refine STrip.pure fun s h => ⟨h.1, fun x hx => ?_⟩
    cases h.2 with
    | ret h2 => exact (h2 x hx).elim (h.1.1 x) id
  | .user upd k, st => by
    refine STrip.bind (Q := fun s s' => O s' ∧ HonestImp s' (k s)) (STrip.act fun s h => ?_) fun s => KO.runImp' (k s) st
    cases h.2 with
    | user h1 h2 => exact ⟨h.1.confine h1, h2 _⟩
  | .call op k, st => by
    intro s r s' hs he
    cases hs.2 with
    | call h2 =>
      exact STrip.bind (KO.runOp C RR R op st) (fun st => STrip.bind (Q := fun s s' => O s' ∧ HonestImp s' (k s))
        (STrip.act fun s h => ⟨h, h2 _⟩) fun s => KO.runImp' (k s) st) s r s' hs.1 he
  | .render n k, st => by
    intro s r s' hs he
    cases hs.2 with
    | render h2 =>
      exact STrip.bind (R n) (fun e => STrip.bind (Q := fun s s' => O s' ∧ HonestImp s' (k e s))
        (STrip.act fun s h => ⟨h.1, h2 _ _ h.2⟩) fun s => KO.runImp' (k e s) st) s r s' hs.1 he
  | .write d k, st => by
    intro s r s' hs he
    cases hs.2 with
    | write h2 =>
      exact STrip.bind (KO.write' d) (fun e => STrip.bind (Q := fun s s' => O s' ∧ HonestImp s' (k e s))
        (STrip.act fun s h => ⟨h.1, h2 _ _ h.2⟩) fun s => KO.runImp' (k e s) st) s r s' hs.1 he

theorem KO.renderStep' (n : Node) : STrip env B rr O (step B rec n) OQ := by
  cases n with
  | element h cs =>
    exact STrip.bind (KO.renderStartTag C RR h) fun _ => STrip.bind (KO.contentLoop R cs) fun _ =>
      STrip.bind (KO.renderEndTag _) fun _ => KO.retErr'
  | voidElement h => exact STrip.bind (KO.renderStartTag C RR h) fun _ => KO.retErr'
  | attr a => exact STrip.bind (KO.renderAttr C RR a) fun _ => KO.retErr'
  | text vs => exact STrip.bind (KO.renderValues C RR vs) fun _ => KO.retErr'
  | comment vs =>
    exact STrip.bind (KO.ctxWrite _) fun _ => STrip.bind (KO.renderValues C RR vs) fun _ =>
      STrip.bind (KO.ctxWrite _) fun _ => KO.retErr'
  | fragment vs => exact STrip.bind (KO.renderValues C RR vs) fun _ => KO.retErr'
  | pi n vs =>
    exact STrip.bind (KO.ctxWrite _) fun _ => STrip.bind (KO.ctxWrite _) fun _ => STrip.bind (KO.ctxWrite _) fun _ =>
      STrip.bind (KO.renderValues C RR vs) fun _ => STrip.bind (KO.ctxWrite _) fun _ => KO.retErr'
  | collection ns => exact STrip.bind (KO.collectionLoop R ns) fun _ => KO.retErr'
  | conditional ns as fn =>
    exact STrip.bind (KO.runCond C RR fn) fun _ => STrip.bind (KO.when (.conditionalLoop R ns)) fun _ => KO.retErr'
  | collector f =>
    exact STrip.bind (KO.collect C RR f) fun ns =>
      STrip.bind (KO.ignoreLoop R ns) fun _ => KO.retErr'
  | imperative f =>
    cases f with
    | none => exact STrip.pure fun _ h => ⟨h, by simp⟩
    | some f =>
      exact STrip.bind (Q := fun p s => O s ∧ HonestImp s p) (STrip.act fun s hs => ⟨hs, C.imp f s⟩) fun p =>
        KO.runImp' C RR R p []
  | iterator ns fn => exact KO.renderIterator' C RR R ns fn
  | yieldIterator ns f => exact KO.renderYield' C RR R ns f
  | document p cs => exact STrip.bind (KO.documentLoop R _) fun _ => KO.retErr'

end

theorem KO.nested {env : Env} {B : Bodies} {rr : Render} (C : Spec.Stream.Honest env B) (RR : ∀ n, Trip env O (rr n) OQ) :
    (fuel : Nat) → (n : Node) → STrip env B rr O (nested B fuel n) OQ
  | 0, _ => STrip.stuck
  | fuel + 1, n => KO.renderStep' C RR (KO.nested C RR fuel) n

theorem KO.renderWith {env : Env} {B : Bodies} (C : Spec.Stream.Honest env B) : (fuel : Nat) → (n : Node) →
    Trip env O (renderWith B fuel n) OQ
  | 0, _ => Trip.stuck
  | fuel + 1, n => KO.nested C (KO.renderWith C fuel) (fuel + 1) n

end Aitch.Stream

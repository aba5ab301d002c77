import Verif.Proofs.Errors
/-
`ctx.Error` and the returned error are the result of the last write (user functions that leave `ctx.Error` alone).
-/
set_option linter.unusedSectionVars false

namespace Aitch
open Spec

/-- `ctx.Error` is the result of the last write. -/
def L (s : St) : Prop := s.frame.err = lastErr s.log

/-- ... and so is the returned error. -/
def LQ (e : Option Err) (s : St) : Prop := L s ∧ e = s.frame.err

theorem lastErr_snoc (l : List WEvent) (e : WEvent) : lastErr (l ++ [e]) = e.err := by simp [lastErr]

section
variable {env : Env}

/-- `m` keeps `L`. -/
abbrev KL {α} (env : Env) (m : Prog α) : Prop := Trip env L m fun _ => L

theorem KL.pure {α} (a : α) : KL env (Pure.pure a : Prog α) := Trip.pure fun _ h => h

theorem KL.bind {α β} {m : Prog α} {f : α → Prog β} (hm : KL env m) (hf : ∀ a, KL env (f a)) : KL env (m >>= f) :=
  Trip.bind hm hf

theorem KL.when {b : Bool} {m : Prog Unit} (h : KL env m) : KL env (Prog.when b m) := by
  unfold Prog.when; split
  · exact h
  · exact .pure _

theorem KL.ctx : KL env Do.ctx := Trip.act fun _ h => h
theorem KL.order (ks) : KL env (Do.order ks) := Trip.act fun _ h => h
theorem KL.look : KL env Do.look := Trip.act fun _ h => h

theorem KL.ctxWrite (d : Bytes) : KL env (ctxWrite d) := by
  intro s r s' hs he
  rw [exec_ctxWrite] at he
  cases h : s.frame.err with
  | some e => rw [h] at he; cases he; exact hs
  | none =>
    rw [h] at he
    cases he
    simp [L, lastErr, St.setErr, St.wrote]

theorem KL.retErr' : Trip env L retErr LQ := by
  intro s r s' hs he
  rw [exec_retErr] at he
  cases he
  exact ⟨hs, rfl⟩

variable (C : Neutral env)

theorem KL.valueWrite (d : Bytes) : KL env (valueWrite d) := by
  intro s r s' hs he
  rw [exec_valueWrite] at he
  cases he
  simp [L, lastErr, St.setErr, St.wrote]

include C

omit C in
theorem KL.user {upd : St → St} (h : LeavesError upd) : KL env (Do.user upd) :=
  Trip.act fun s hs => (h s).trans hs

theorem KL.runDyn (d : Dyn) : KL env (runDyn d) := by
  cases d with
  | user f => exact Trip.act fun s hs => (C.dyn f s).trans hs
  | key k => refine .bind .ctx fun c => ?_; split <;> exact .pure _
  | cargo => exact .bind .ctx fun _ => .pure _

mutual
theorem KL.renderValue : (v : Value) → KL env (renderValue v)
  | .mk _ (some d) _ => .bind (.runDyn C d) fun _ => KL.valueWrite _
  | .mk v none [] => KL.valueWrite v
  | .mk _ none (c :: cs) => .bind (KL.renderValue c) fun _ => .bind (KL.renderConcats cs _) fun _ => .pure _
theorem KL.renderConcats : (vs : List Value) → (l : Nat) → KL env (renderConcats vs l)
  | [], _ => .pure _
  | c :: cs, _ => .bind (KL.renderValue c) fun _ => KL.renderConcats cs _
end

theorem KL.renderValues : (vs : List Value) → KL env (renderValues vs)
  | [] => .pure _
  | v :: vs => .bind (.renderValue C v) fun _ => KL.renderValues vs

theorem KL.renderDelimValues (d : Bytes) : (vs : List Value) → (b : Bool) → KL env (renderDelimValues d vs b)
  | [], _ => .pure _
  | v :: vs, _ => .bind (.when (.ctxWrite d)) fun _ => .bind (.renderValue C v) fun _ => KL.renderDelimValues d vs _

theorem KL.renderDelim (n d : Bytes) (vs : List Value) : KL env (renderDelim n d vs) :=
  .bind (.ctxWrite _) fun _ => .bind (.ctxWrite _) fun _ => .bind (.ctxWrite _) fun _ =>
    .bind (.renderDelimValues C d vs false) fun _ => .ctxWrite _

theorem KL.renderAttr (a : Attr) : KL env (renderAttr a) := by
  cases a with
  | plain n vs =>
    exact .bind (.ctxWrite _) fun _ => .bind (.ctxWrite _) fun _ => .bind (.ctxWrite _) fun _ =>
      .bind (.renderValues C vs) fun _ => .ctxWrite _
  | bool n => exact .bind (.ctxWrite _) fun _ => .ctxWrite _
  | delim n d r => exact .bind .ctx fun _ => .renderDelim C _ _ _

theorem KL.runCond (k : Cond) : KL env (runCond k) := by
  cases k with
  | user f => exact Trip.act fun s hs => (C.cond f s).trans hs
  | has k => refine .bind .ctx fun c => ?_; split <;> exact .pure _
  | hasNot k => refine .bind .ctx fun c => ?_; split <;> exact .pure _

theorem KL.evalConds : (ks : List Cond) → KL env (evalConds ks)
  | [] => .pure _
  | k :: ks => by
    refine .bind (.runCond C k) fun b => ?_
    split
    · exact KL.evalConds ks
    · exact .pure _

theorem KL.evaluate : (cas : List CondAttr) → (acc : List (Bytes × List Attr)) → KL env (evaluate cas acc)
  | [], _ => .pure _
  | _ :: as, _ => .bind (.evalConds C _) fun _ => KL.evaluate as _

theorem KL.renderChosen (a : Attr) (m : List Attr) (l : Attr) : KL env (renderChosen a m l) := by
  unfold Aitch.renderChosen
  split
  · exact .bind .ctx fun _ => .renderDelim C _ _ _
  · exact .renderAttr C l

theorem KL.renderStatics (h : ElemHead) (ev : List (Bytes × List Attr)) : (ns : List Bytes) →
    KL env (renderStatics h ev ns)
  | [] => .pure _
  | n :: ns => by
    refine .bind ?_ fun _ => KL.renderStatics h ev ns
    unfold renderStatic
    split
    · exact .pure _
    · split
      · exact .pure _
      · split
        · exact .renderChosen C _ _ _
        · exact .renderAttr C _

theorem KL.renderExtras (h : ElemHead) (ev : List (Bytes × List Attr)) : (ns : List Bytes) →
    KL env (renderExtras h ev ns)
  | [] => .pure _
  | n :: ns => by
    refine .bind ?_ fun _ => KL.renderExtras h ev ns
    unfold renderExtra
    split
    · exact .renderChosen C _ _ _
    · exact .pure _

theorem KL.renderAttrs : (as : List Attr) → KL env (renderAttrs as)
  | [] => .pure _
  | a :: as => .bind (.renderAttr C a) fun _ => KL.renderAttrs as

theorem KL.renderAttributes (h : ElemHead) : KL env (renderAttributes h) := by
  unfold Aitch.renderAttributes
  split
  · refine .bind (.evaluate C _ _) fun ev => ?_
    split
    · exact .bind (.order _) fun _ => .bind (.renderStatics C _ _ _) fun _ => .bind (.order _) fun _ =>
        .renderExtras C _ _ _
    · exact .renderAttrs C _
  · exact .renderAttrs C _

theorem KL.renderStartTag (h : ElemHead) : KL env (renderStartTag h) :=
  .bind (.ctxWrite _) fun _ => .bind (.ctxWrite _) fun _ => .bind (.renderAttributes C h) fun _ => .ctxWrite _

omit C in
theorem KL.renderEndTag (n : Bytes) : KL env (renderEndTag n) :=
  .bind (.ctxWrite _) fun _ => .bind (.ctxWrite _) fun _ => .ctxWrite _

theorem KL.startWrite : (l : List (Bytes × Option (List Value))) → KL env (startWrite l)
  | [] => .pure _
  | (n, vs) :: l => by
    refine .bind (.ctxWrite _) fun _ => .bind (.ctxWrite _) fun _ => .bind ?_ fun _ => KL.startWrite l
    cases vs with
    | none => exact .pure _
    | some vs => exact .bind (.ctxWrite _) fun _ => .bind (.renderValues C vs) fun _ => .ctxWrite _

theorem KL.startTag (n : Bytes) (as : List (Option Node)) : KL env (startTag n as) :=
  .bind (.ctxWrite _) fun _ => .bind (.ctxWrite _) fun _ => .bind .ctx fun _ => .bind (.startWrite C _) fun _ =>
    .ctxWrite _

omit C in
theorem KL.endAll : (l : List Bytes) → KL env (endAll l)
  | [] => .pure _
  | n :: l => .bind (.renderEndTag n) fun _ => .endAll l

theorem KL.runItems (src : ItemSrc) : KL env (runItems src) := by
  cases src with
  | user f => exact Trip.act fun s hs => (C.items f s).trans hs
  | key k => exact .bind .ctx fun _ => .pure _

omit C

/-- `ctx.Error = c.Render(ctx)` -/
theorem KL.setErrLQ (e : Option Err) : Trip env (LQ e) (Do.setErr e) (fun _ s => LQ e s) :=
  Trip.act fun _ h => ⟨h.2.trans h.1, rfl⟩

variable {rec : Render} (R : ∀ n, Direct n → Trip env L (rec n) LQ) (PR : ∀ n, KeepsParents (rec n))
include R

theorem KL.contentLoop : (ns : List Node) → DirectAll ns → KL env (contentLoop rec ns)
  | [], _ => .pure _
  | n :: ns, hn => Trip.bind (R n hn.1) fun e => Trip.bind (KL.setErrLQ e) fun _ =>
      (KL.contentLoop ns hn.2).pre fun _ h => h.1

theorem KL.conditionalLoop : (ns : List Node) → DirectAll ns → KL env (conditionalLoop rec ns)
  | [], _ => .pure _
  | n :: ns, hn => by
    refine Trip.bind (R n hn.1) fun e => Trip.bind (KL.setErrLQ e) fun _ => ?_
    cases e
    · exact (KL.conditionalLoop ns hn.2).pre fun _ h => h.1
    · exact Trip.pure fun _ h => h.1

theorem KL.collectionLoop : (ns : List Node) → DirectAll ns → KL env (collectionLoop rec ns)
  | [], _ => .pure _
  | n :: ns, hn => by
    unfold Aitch.collectionLoop
    split
    · exact KL.collectionLoop ns hn.2
    · refine Trip.bind (R n hn.1) fun e => Trip.bind (KL.setErrLQ e) fun _ => ?_
      cases e
      · exact (KL.collectionLoop ns hn.2).pre fun _ h => h.1
      · exact Trip.pure fun _ h => h.1

theorem KL.ignoreLoop : (ns : List (Option Node)) → (∀ n, some n ∈ ns → Direct n) → KL env (ignoreLoop rec ns)
  | [], _ => .pure _
  | none :: ns, hn => KL.ignoreLoop ns fun n h => hn n (by simp [h])
  | some n :: ns, hn => by
    unfold Aitch.ignoreLoop
    split
    · exact KL.ignoreLoop ns fun n h => hn n (by simp [h])
    · exact Trip.bind (R n (hn n (by simp))) fun _ =>
        (KL.ignoreLoop ns fun n h => hn n (by simp [h])).pre fun _ h => h.1

theorem KL.documentLoop : (ns : List Node) → DirectAll ns → KL env (documentLoop rec ns)
  | [], _ => .pure _
  | n :: ns, hn => Trip.bind (R n hn.1) fun _ => (KL.documentLoop ns hn.2).pre fun _ h => h.1

/-- Rendering the nodes of an item. -/
theorem KL.iterNodes' : (ns : List Node) → DirectAll ns →
    Trip env (fun s => L s ∧ s.frame.err = none) (iterNodes rec ns) LQ
  | [], _ => Trip.pure fun _ h => ⟨h.1, h.2.symm⟩
  | n :: ns, hn => by
    refine Trip.bind ((R n hn.1).pre fun _ h => h.1) fun e => ?_
    cases e with
    | none => exact (KL.iterNodes' ns hn.2).pre fun s h => ⟨h.1, h.2.symm⟩
    | some e => exact Trip.pure fun _ h => h

theorem KL.iterItems' (ns : List Node) (hn : DirectAll ns) (d : Option MapId) : (its : List Any) →
    Trip env (fun s => L s ∧ s.frame.err = none) (iterItems rec ns d its) LQ
  | [] => Trip.pure fun _ h => ⟨h.1, h.2.symm⟩
  | it :: its => by
    refine Trip.bind (Q := fun _ s => L s ∧ s.frame.err = none) (Trip.act fun _ h => h) fun _ =>
      Trip.bind (KL.iterNodes' R ns hn) fun e => ?_
    cases e with
    | none => exact (KL.iterItems' ns hn d its).pre fun s h => ⟨h.1, h.2.symm⟩
    | some e => exact Trip.pure fun _ h => h

include PR C

theorem KL.renderIterator' (ns : List Node) (hn : DirectAll ns) (fn : ItemSrc) :
    Trip env L (renderIterator rec ns fn) LQ := by
  intro s r s' hs he
  unfold Aitch.renderIterator at he
  rw [exec_bind] at he
  simp only [Do.ctx, exec, Action.run, Option.bind_some] at he
  cases herr : s.frame.err with
  | some e =>
    rw [herr] at he
    cases he
    exact ⟨hs, herr.symm⟩
  | none =>
    rw [herr] at he
    simp only at he
    rw [exec_bind] at he
    cases h1 : exec env (Aitch.runItems fn) s with
    | none => rw [h1] at he; cases he
    | some p =>
      obtain ⟨items, s1⟩ := p
      have hlog : s1.log = s.log := by
        cases fn with
        | user f => cases h1; rfl
        | key k => cases h1; rfl
      have hj1 : L s1 := KL.runItems C fn _ _ _ hs h1
      have hl : lastErr s1.log = none := by rw [hlog, ← herr]; exact hs.symm
      rw [h1] at he
      simp only [Option.bind_some] at he
      split at he
      · cases he
        exact ⟨hj1, hl.symm.trans hj1.symm⟩
      · rw [exec_bind] at he
        simp only [exec, Action.run, Option.bind_some] at he
        obtain ⟨e, t, h2, h3⟩ := exec_scope (KeepsParents.iterItems PR _ _ _) he
        have h4 : LQ e t := by
          refine KL.iterItems' R ns hn _ _ _ _ _ ?_ h2
          exact ⟨hj1, hj1.trans hl⟩
        have h5 : e = lastErr t.log := h4.2.trans h4.1
        cases e with
        | some e =>
          cases h3
          exact ⟨h5, rfl⟩
        | none =>
          cases h3
          have h6 : s1.frame.err = none := hj1.trans hl
          exact ⟨h6.trans h5, h6.symm⟩

omit PR

theorem KL.runOp (op : ImpOp) (st : List Bytes) (h : ∀ ns n, op = .writeNodes ns → some n ∈ ns → Direct n) :
    KL env (runOp rec op st) := by
  cases op with
  | writeString d => exact .bind (.ctxWrite _) fun _ => .pure _
  | writeRaw d => exact .bind (.ctxWrite _) fun _ => .pure _
  | writeNodes ns => exact .bind (.ignoreLoop R ns fun n hn => h ns n rfl hn) fun _ => .pure _
  | start n v as => exact .bind (.startTag C n as) fun _ => .pure _
  | «end» =>
    cases st with
    | nil => exact .pure _
    | cons n st => exact .bind (.renderEndTag n) fun _ => .pure _
  | endAll => exact .bind (.endAll st) fun _ => .pure _

theorem KL.runImp' : (p : ImpProg) → DirectCalls p → (st : List Bytes) →
    Trip env (fun s => L s ∧ ReturnsError s p) (runImp rec p st) LQ
  | .ret e, _, _ => by
    refine Trip.pure fun s h => ⟨h.1, ?_⟩
    cases h.2
    rfl
  | .user upd k, hp, st => by
    cases hp with
    | user hk =>
      refine Trip.bind (Q := fun s s' => L s' ∧ ReturnsError s' (k s)) (Trip.act fun s h => ?_) fun s =>
        KL.runImp' (k s) (hk s) st
      cases h.2 with
      | user h1 h2 => exact ⟨(h1 s).trans h.1, h2 _⟩
  | .call op k, hp, st => by
    cases hp with
    | call h1 hk =>
      intro s r s' hs he
      cases hs.2 with
      | call h2 =>
        exact Trip.bind (KL.runOp C R op st h1) (fun st => Trip.bind (Q := fun s s' => L s' ∧ ReturnsError s' (k s))
          (Trip.act fun s h => ⟨h, h2 _⟩) fun s => KL.runImp' (k s) (hk s) st) s r s' hs.1 he
  | .render n k, hp, st => by
    cases hp with
    | render h1 hk =>
      intro s r s' hs he
      cases hs.2 with
      | render h2 =>
        exact Trip.bind (R n h1) (fun e => Trip.bind (Q := fun s s' => L s' ∧ ReturnsError s' (k e s))
          (Trip.act fun s h => ⟨h.1, by rw [h.2]; exact h2 _⟩) fun s => KL.runImp' (k e s) (hk e s) st) s r s' hs.1 he
  | .write d k, _, _ => fun s r s' hs => by cases hs.2

include PR

theorem KL.renderStep' (N : DirectFns env) (n : Node) (hn : Direct n) : Trip env L (renderStep rec n) LQ := by
  cases n with
  | element h cs =>
    exact Trip.bind (KL.renderStartTag C h) fun _ => Trip.bind (KL.contentLoop R cs hn) fun _ =>
      Trip.bind (KL.renderEndTag _) fun _ => KL.retErr'
  | voidElement h => exact Trip.bind (KL.renderStartTag C h) fun _ => KL.retErr'
  | attr a => exact Trip.bind (KL.renderAttr C a) fun _ => KL.retErr'
  | text vs => exact Trip.bind (KL.renderValues C vs) fun _ => KL.retErr'
  | comment vs =>
    exact Trip.bind (KL.ctxWrite _) fun _ => Trip.bind (KL.renderValues C vs) fun _ =>
      Trip.bind (KL.ctxWrite _) fun _ => KL.retErr'
  | fragment vs => exact Trip.bind (KL.renderValues C vs) fun _ => KL.retErr'
  | pi n vs =>
    exact Trip.bind (KL.ctxWrite _) fun _ => Trip.bind (KL.ctxWrite _) fun _ => Trip.bind (KL.ctxWrite _) fun _ =>
      Trip.bind (KL.renderValues C vs) fun _ => Trip.bind (KL.ctxWrite _) fun _ => KL.retErr'
  | collection ns => exact Trip.bind (KL.collectionLoop R ns hn) fun _ => KL.retErr'
  | conditional ns as fn =>
    exact Trip.bind (KL.runCond C fn) fun _ => Trip.bind (KL.when (.conditionalLoop R ns hn)) fun _ => KL.retErr'
  | collector f =>
    refine Trip.bind (Q := fun ns s => L s ∧ ∀ n, some n ∈ ns → Direct n) (Trip.act fun s hs => ⟨(C.collect f s).trans hs, ?_⟩)
      fun ns => Trip.bind (Q := fun _ => L) ?_ fun _ => KL.retErr'
    · exact N.collect f s
    · intro s r s' hs he
      exact KL.ignoreLoop R ns hs.2 _ _ _ hs.1 he
  | imperative f =>
    cases f with
    | none => exact (hn rfl).elim
    | some f =>
      refine Trip.bind (Q := fun p s => (L s ∧ ReturnsError s p) ∧ DirectCalls p) (Trip.act fun s hs =>
        ⟨⟨hs, C.imp f s⟩, N.imp f s⟩) fun p => ?_
      intro s r s' hs he
      exact KL.runImp' C R p hs.2 [] _ _ _ hs.1 he
  | iterator ns fn => exact KL.renderIterator' C R PR ns hn fn
  | yieldIterator ns f => exact hn.elim
  | document p cs =>
    refine Trip.bind (KL.documentLoop R _ ?_) fun _ => KL.retErr'
    cases p with
    | none => exact hn
    | some p => exact hn

end

theorem KL.renderProg' {env : Env} (C : Neutral env) (N : DirectFns env) :
    (fuel : Nat) → (n : Node) → Direct n → Trip env L (renderProg fuel n) LQ
  | 0, _, _ => Trip.stuck
  | fuel + 1, n, hn => KL.renderStep' C (KL.renderProg' C N fuel) (KeepsParents.renderProg fuel) N n hn

end Aitch

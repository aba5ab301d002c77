import Verif.Proofs.Errors
/-
Every error in a context, and every returned error, was returned by a write (user functions that bring no errors).
-/
set_option linter.unusedSectionVars false

namespace Aitch
open Spec

/-- Errors in the contexts come from writes. -/
def O (s : St) : Prop := (∀ e, s.frame.err = some e → Returned s.log e) ∧ ∀ f ∈ s.parents, ∀ e, f.err = some e → Returned s.log e

/-- ... and so does the returned error. -/
def OQ (e : Option Err) (s : St) : Prop := O s ∧ ∀ x, e = some x → Returned s.log x

theorem returned_append {l l' : List WEvent} {e : Err} (h : Returned l e) : Returned (l ++ l') e := by
  obtain ⟨v, h1, h2⟩ := h
  exact ⟨v, List.mem_append_left _ h1, h2⟩

theorem O.wrote {env : Env} {s : St} {d : Bytes} (h : O s) :
    O ((s.wrote d (env.write s.log d)).setErr (env.write s.log d).2) :=
  ⟨fun _ he => ⟨_, List.mem_append_right _ (List.mem_singleton_self _), he⟩, fun f hf e he => returned_append (h.2 f hf e he)⟩

theorem O.confine {s s' : St} (h : O s) (hu : ∀ e, s'.frame.err = some e → s.frame.err = some e ∨ Returned s.log e) :
    O (s.confine s') :=
  ⟨fun e he => (hu e he).elim (h.1 e) id, h.2⟩

section
variable {env : Env}

/-- `m` keeps `O`. -/
abbrev KO {α} (env : Env) (m : Prog α) : Prop := Trip env O m fun _ => O

theorem KO.pure {α} (a : α) : KO env (Pure.pure a : Prog α) := Trip.pure fun _ h => h

theorem KO.bind {α β} {m : Prog α} {f : α → Prog β} (hm : KO env m) (hf : ∀ a, KO env (f a)) : KO env (m >>= f) :=
  Trip.bind hm hf

theorem KO.when {b : Bool} {m : Prog Unit} (h : KO env m) : KO env (Prog.when b m) := by
  unfold Prog.when; split
  · exact h
  · exact .pure _

theorem KO.ctx : KO env Do.ctx := Trip.act fun _ h => h
theorem KO.order (ks) : KO env (Do.order ks) := Trip.act fun _ h => h
theorem KO.look : KO env Do.look := Trip.act fun _ h => h

theorem KO.ctxWrite (d : Bytes) : KO env (ctxWrite d) := by
  intro s r s' hs he
  rw [exec_ctxWrite] at he
  cases h : s.frame.err with
  | some e => rw [h] at he; cases he; exact hs
  | none =>
    rw [h] at he
    cases he
    exact hs.wrote

theorem KO.write' (d : Bytes) :
    Trip env O (Do.write d) (fun r s => O s ∧ ∀ x, r.2 = some x → Returned s.log x) :=
  Trip.act fun _ h => ⟨⟨fun e he => returned_append (h.1 e he), fun f hf e he => returned_append (h.2 f hf e he)⟩,
    fun _ hx => ⟨_, List.mem_append_right _ (List.mem_singleton_self _), hx⟩⟩

theorem KO.retErr' : Trip env O retErr OQ := by
  intro s r s' hs he
  rw [exec_retErr] at he
  cases he
  exact ⟨hs, hs.1⟩

variable (C : Honest env)

theorem KO.valueWrite (d : Bytes) : KO env (valueWrite d) := by
  intro s r s' hs he
  rw [exec_valueWrite] at he
  cases he
  exact hs.wrote

include C

theorem KO.runDyn (d : Dyn) : KO env (runDyn d) := by
  cases d with
  | user f => exact Trip.act fun s hs => hs.confine (C.dyn f s)
  | key k => refine .bind .ctx fun c => ?_; split <;> exact .pure _
  | cargo => exact .bind .ctx fun _ => .pure _

mutual
theorem KO.renderValue : (v : Value) → KO env (renderValue v)
  | .mk _ (some d) _ => .bind (.runDyn C d) fun _ => KO.valueWrite _
  | .mk v none [] => KO.valueWrite v
  | .mk _ none (c :: cs) => .bind (KO.renderValue c) fun _ => .bind (KO.renderConcats cs _) fun _ => .pure _
theorem KO.renderConcats : (vs : List Value) → (l : Nat) → KO env (renderConcats vs l)
  | [], _ => .pure _
  | c :: cs, _ => .bind (KO.renderValue c) fun _ => KO.renderConcats cs _
end

theorem KO.renderValues : (vs : List Value) → KO env (renderValues vs)
  | [] => .pure _
  | v :: vs => .bind (.renderValue C v) fun _ => KO.renderValues vs

theorem KO.renderDelimValues (d : Bytes) : (vs : List Value) → (b : Bool) → KO env (renderDelimValues d vs b)
  | [], _ => .pure _
  | v :: vs, _ => .bind (.when (.ctxWrite d)) fun _ => .bind (.renderValue C v) fun _ => KO.renderDelimValues d vs _

theorem KO.renderDelim (n d : Bytes) (vs : List Value) : KO env (renderDelim n d vs) :=
  .bind (.ctxWrite _) fun _ => .bind (.ctxWrite _) fun _ => .bind (.ctxWrite _) fun _ =>
    .bind (.renderDelimValues C d vs false) fun _ => .ctxWrite _

theorem KO.renderAttr (a : Attr) : KO env (renderAttr a) := by
  cases a with
  | plain n vs =>
    exact .bind (.ctxWrite _) fun _ => .bind (.ctxWrite _) fun _ => .bind (.ctxWrite _) fun _ =>
      .bind (.renderValues C vs) fun _ => .ctxWrite _
  | bool n => exact .bind (.ctxWrite _) fun _ => .ctxWrite _
  | delim n d r => exact .bind .ctx fun _ => .renderDelim C _ _ _

theorem KO.runCond (k : Cond) : KO env (runCond k) := by
  cases k with
  | user f => exact Trip.act fun s hs => hs.confine (C.cond f s)
  | has k => refine .bind .ctx fun c => ?_; split <;> exact .pure _
  | hasNot k => refine .bind .ctx fun c => ?_; split <;> exact .pure _

theorem KO.evalConds : (ks : List Cond) → KO env (evalConds ks)
  | [] => .pure _
  | k :: ks => by
    refine .bind (.runCond C k) fun b => ?_
    split
    · exact KO.evalConds ks
    · exact .pure _

theorem KO.evaluate : (cas : List CondAttr) → (acc : List (Bytes × List Attr)) → KO env (evaluate cas acc)
  | [], _ => .pure _
  | _ :: as, _ => .bind (.evalConds C _) fun _ => KO.evaluate as _

theorem KO.renderChosen (a : Attr) (m : List Attr) (l : Attr) : KO env (renderChosen a m l) := by
  unfold Aitch.renderChosen
  split
  · exact .bind .ctx fun _ => .renderDelim C _ _ _
  · exact .renderAttr C l

theorem KO.renderStatics (h : ElemHead) (ev : List (Bytes × List Attr)) : (ns : List Bytes) →
    KO env (renderStatics h ev ns)
  | [] => .pure _
  | n :: ns => by
    refine .bind ?_ fun _ => KO.renderStatics h ev ns
    unfold renderStatic
    split
    · exact .pure _
    · split
      · exact .pure _
      · split
        · exact .renderChosen C _ _ _
        · exact .renderAttr C _

theorem KO.renderExtras (h : ElemHead) (ev : List (Bytes × List Attr)) : (ns : List Bytes) →
    KO env (renderExtras h ev ns)
  | [] => .pure _
  | n :: ns => by
    refine .bind ?_ fun _ => KO.renderExtras h ev ns
    unfold renderExtra
    split
    · exact .renderChosen C _ _ _
    · exact .pure _

theorem KO.renderAttrs : (as : List Attr) → KO env (renderAttrs as)
  | [] => .pure _
  | a :: as => .bind (.renderAttr C a) fun _ => KO.renderAttrs as

theorem KO.renderAttributes (h : ElemHead) : KO env (renderAttributes h) := by
  unfold Aitch.renderAttributes
  split
  · refine .bind (.evaluate C _ _) fun ev => ?_
    split
    · exact .bind (.order _) fun _ => .bind (.renderStatics C _ _ _) fun _ => .bind (.order _) fun _ =>
        .renderExtras C _ _ _
    · exact .renderAttrs C _
  · exact .renderAttrs C _

theorem KO.renderStartTag (h : ElemHead) : KO env (renderStartTag h) :=
  .bind (.ctxWrite _) fun _ => .bind (.ctxWrite _) fun _ => .bind (.renderAttributes C h) fun _ => .ctxWrite _

omit C in
theorem KO.renderEndTag (n : Bytes) : KO env (renderEndTag n) :=
  .bind (.ctxWrite _) fun _ => .bind (.ctxWrite _) fun _ => .ctxWrite _

theorem KO.startWrite : (l : List (Bytes × Option (List Value))) → KO env (startWrite l)
  | [] => .pure _
  | (n, vs) :: l => by
    refine .bind (.ctxWrite _) fun _ => .bind (.ctxWrite _) fun _ => .bind ?_ fun _ => KO.startWrite l
    cases vs with
    | none => exact .pure _
    | some vs => exact .bind (.ctxWrite _) fun _ => .bind (.renderValues C vs) fun _ => .ctxWrite _

theorem KO.startTag (n : Bytes) (as : List (Option Node)) : KO env (startTag n as) :=
  .bind (.ctxWrite _) fun _ => .bind (.ctxWrite _) fun _ => .bind .ctx fun _ => .bind (.startWrite C _) fun _ =>
    .ctxWrite _

omit C in
theorem KO.endAll : (l : List Bytes) → KO env (endAll l)
  | [] => .pure _
  | n :: l => .bind (.renderEndTag n) fun _ => .endAll l

theorem KO.runItems (src : ItemSrc) : KO env (runItems src) := by
  cases src with
  | user f => exact Trip.act fun s hs => hs.confine (C.items f s)
  | key k => exact .bind .ctx fun _ => .pure _

omit C

/-- `ctx.Error = c.Render(ctx)` -/
theorem KO.setErrOQ (e : Option Err) : Trip env (OQ e) (Do.setErr e) (fun _ s => OQ e s) :=
  Trip.act fun _ h => ⟨⟨h.2, h.1.2⟩, h.2⟩

theorem KO.setErrIf (e : Option Err) : Trip env (OQ e) (setErrIf e) (fun _ s => O s) := by
  cases e with
  | none => exact Trip.pure fun _ h => h.1
  | some e => exact (KO.setErrOQ _).conseq fun _ _ h => h.1

variable {rec : Render} (R : ∀ n, Trip env O (rec n) OQ)
include R

theorem KO.contentLoop : (ns : List Node) → KO env (contentLoop rec ns)
  | [] => .pure _
  | n :: ns => Trip.bind (R n) fun e => Trip.bind (KO.setErrOQ e) fun _ => (KO.contentLoop ns).pre fun _ h => h.1

theorem KO.conditionalLoop : (ns : List Node) → KO env (conditionalLoop rec ns)
  | [] => .pure _
  | n :: ns => by
    refine Trip.bind (R n) fun e => Trip.bind (KO.setErrOQ e) fun _ => ?_
    cases e
    · exact (KO.conditionalLoop ns).pre fun _ h => h.1
    · exact Trip.pure fun _ h => h.1

theorem KO.collectionLoop : (ns : List Node) → KO env (collectionLoop rec ns)
  | [] => .pure _
  | n :: ns => by
    unfold Aitch.collectionLoop
    split
    · exact KO.collectionLoop ns
    · refine Trip.bind (R n) fun e => Trip.bind (KO.setErrOQ e) fun _ => ?_
      cases e
      · exact (KO.collectionLoop ns).pre fun _ h => h.1
      · exact Trip.pure fun _ h => h.1

theorem KO.ignoreLoop : (ns : List (Option Node)) → KO env (ignoreLoop rec ns)
  | [] => .pure _
  | none :: ns => KO.ignoreLoop ns
  | some n :: ns => by
    unfold Aitch.ignoreLoop
    split
    · exact KO.ignoreLoop ns
    · exact Trip.bind (R n) fun _ => (KO.ignoreLoop ns).pre fun _ h => h.1

theorem KO.documentLoop : (ns : List Node) → KO env (documentLoop rec ns)
  | [] => .pure _
  | n :: ns => Trip.bind (R n) fun _ => (KO.documentLoop ns).pre fun _ h => h.1

theorem KO.iterNodes' : (ns : List Node) → Trip env O (iterNodes rec ns) OQ
  | [] => Trip.pure fun _ h => ⟨h, by simp⟩
  | n :: ns => by
    refine Trip.bind (R n) fun e => ?_
    cases e with
    | none => exact (KO.iterNodes' ns).pre fun s h => h.1
    | some e => exact Trip.pure fun _ h => h

theorem KO.iterItems' (ns : List Node) (d : Option MapId) : (its : List Any) → Trip env O (iterItems rec ns d its) OQ
  | [] => Trip.pure fun _ h => ⟨h, by simp⟩
  | it :: its => by
    refine Trip.bind (Q := fun _ => O) (Trip.act fun _ h => h) fun _ => Trip.bind (KO.iterNodes' R ns) fun e => ?_
    cases e with
    | none => exact (KO.iterItems' ns d its).pre fun s h => h.1
    | some e => exact Trip.pure fun _ h => h

omit R in
theorem KO.enter (c : Frame) : Trip env (fun s => O s ∧ ∀ e, c.err = some e → Returned s.log e) (Do.enter c) fun _ => O :=
  Trip.act fun s h => ⟨h.2, fun f hf => by
    rcases List.mem_cons.1 hf with rfl | hf
    · exact h.1.1
    · exact h.1.2 f hf⟩

omit R in
theorem KO.leave (r : Option Err) : Trip env (OQ r) Do.leave
    fun c s => OQ r s ∧ ∀ e, c.err = some e → Returned s.log e := by
  refine Trip.act fun s h => ?_
  simp only [Action.run]
  split
  · exact ⟨h, h.1.1⟩
  · rename_i f fs hp
    exact ⟨⟨⟨h.1.2 f (by rw [hp]; exact List.mem_cons_self ..), fun g hg => h.1.2 g (by rw [hp]; exact List.mem_cons_of_mem _ hg)⟩, h.2⟩, h.1.1⟩

include C

theorem KO.renderIterator' (ns : List Node) (fn : ItemSrc) : Trip env O (renderIterator rec ns fn) OQ := by
  unfold Aitch.renderIterator
  refine Trip.bind (Q := fun c s => O s ∧ s.toCtx = c) (Trip.act fun s h => ⟨h, rfl⟩) fun c => ?_
  cases herr : c.frame.err with
  | some e => exact Trip.pure fun s h => ⟨h.1, fun x hx => h.1.1 x (by rw [← hx, ← herr, ← h.2])⟩
  | none =>
    refine Trip.bind ((KO.runItems C fn).pre fun _ h => h.1) fun items => ?_
    split
    · exact Trip.pure fun _ h => ⟨h, by simp⟩
    · refine Trip.bind (Q := fun c s => O s ∧ s.toCtx = c) (Trip.act fun s h => ⟨h, rfl⟩) fun c => ?_
      refine Trip.bind ((KO.enter _).pre fun s h => ⟨h.1, fun e he => h.1.1 e (by rw [← he, ← h.2])⟩) fun _ => ?_
      refine Trip.bind (KO.iterItems' R ns _ _) fun e => Trip.bind (KO.leave e) fun _ => ?_
      cases e with
      | none => exact Trip.pure fun _ h => h.1
      | some e => exact Trip.bind (Q := fun _ => OQ (some e)) (Trip.act fun _ h => ⟨⟨h.1.2, h.1.1.2⟩, h.1.2⟩) fun _ =>
          Trip.pure fun _ h => h

omit C in
theorem KO.runYield (ns : List Node) : (p : YieldProg) → (child : Frame) →
    Trip env (fun s => (O s ∧ ∀ e, child.err = some e → Returned s.log e) ∧ HonestYield s p) (runYield rec ns p child)
      (fun _ => O)
  | .done, _ => Trip.pure fun _ h => h.1.1
  | .user upd k, child => by
    refine Trip.bind (Q := fun s s' => (O s' ∧ ∀ e, child.err = some e → Returned s'.log e) ∧ HonestYield s' (k s))
      (Trip.act fun s h => ?_) fun s => KO.runYield ns (k s) child
    cases h.2 with
    | user h1 h2 => exact ⟨⟨h.1.1.confine h1, h.1.2⟩, h2 _⟩
  | .write d k, child => by
    intro s r s' hs he
    cases hs.2 with
    | write hk =>
      suffices H : Trip env (fun s => O s ∧ ∀ e, child.err = some e → Returned s.log e)
        (Aitch.runYield rec ns (.write d k) child) (fun _ => O) from H s r s' hs.1 he
      refine Trip.bind (Q := fun r s => (O s ∧ ∀ e, child.err = some e → Returned s.log e) ∧
          ∀ x, r.2 = some x → Returned s.log x) (Trip.act ?_) fun r =>
        Trip.bind (m := Do.look) (Q := fun t s => (O s ∧ ∀ e, child.err = some e → Returned s.log e) ∧ HonestYield s (k r t))
          (Trip.act fun s h => ⟨h.1, hk r s h.2⟩) fun s => KO.runYield ns (k r s) child
      intro s hs
      have := KO.write' (env := env) d s _ _ hs.1 rfl
      exact ⟨⟨this.1, fun e he => returned_append (hs.2 e he)⟩, this.2⟩
  | .yield it k, child => by
    intro s r s' hs he
    cases hs.2 with
    | yield hk =>
      suffices H : Trip env (fun s => O s ∧ ∀ e, child.err = some e → Returned s.log e)
        (Aitch.runYield rec ns (.yield it k) child) (fun _ => O) from H s r s' hs.1 he
      refine Trip.bind (KO.enter _) fun _ => Trip.bind (Q := fun _ => O) (Trip.act fun _ h => h) fun _ =>
        Trip.bind (KO.iterNodes' R ns) fun e => Trip.bind (KO.leave e) fun c => ?_
      refine Trip.bind (Q := fun _ s => O s ∧ ∀ e, c.err = some e → Returned s.log e) ?_ fun _ =>
        Trip.bind (m := Do.look) (Q := fun t s => (O s ∧ ∀ e, c.err = some e → Returned s.log e) ∧ HonestYield s (k t))
          (Trip.act fun s h => ⟨h, hk s⟩) fun s => KO.runYield ns (k s) c
      cases e with
      | none => exact Trip.pure fun _ h => ⟨h.1.1, h.2⟩
      | some e => exact Trip.act fun _ h => ⟨⟨h.1.2, h.1.1.2⟩, h.2⟩

theorem KO.renderYield' (ns : List Node) (f : FnId) : Trip env O (renderYield rec ns f) OQ := by
  unfold Aitch.renderYield
  refine Trip.bind (Q := fun c s => O s ∧ s.toCtx = c) (Trip.act fun s h => ⟨h, rfl⟩) fun c => ?_
  cases herr : c.frame.err with
  | some e => exact Trip.pure fun s h => ⟨h.1, fun x hx => h.1.1 x (by rw [← hx, ← herr, ← h.2])⟩
  | none =>
    refine Trip.bind (Q := fun p s => HonestYield s p ∧ O s) (Trip.act fun s h => ⟨C.yields f s, h.1⟩) fun p => ?_
    refine Trip.bind (Q := fun _ => O) ?_ fun _ => KO.retErr'
    exact (KO.runYield R ns p _).pre fun s hs => ⟨⟨hs.2, by simp⟩, hs.1⟩

theorem KO.runOp (op : ImpOp) (st : List Bytes) : KO env (runOp rec op st) := by
  cases op with
  | writeString d => exact .bind (.ctxWrite _) fun _ => .pure _
  | writeRaw d => exact .bind (.ctxWrite _) fun _ => .pure _
  | writeNodes ns => exact .bind (.ignoreLoop R ns) fun _ => .pure _
  | start n v as => exact .bind (.startTag C n as) fun _ => .pure _
  | «end» =>
    cases st with
    | nil => exact .pure _
    | cons n st => exact .bind (.renderEndTag n) fun _ => .pure _
  | endAll => exact .bind (.endAll st) fun _ => .pure _

theorem KO.runImp' : (p : ImpProg) → (st : List Bytes) →
    Trip env (fun s => O s ∧ HonestImp s p) (runImp rec p st) OQ
  | .ret e, _ => by
    refine Trip.pure fun s h => ⟨h.1, fun x hx => ?_⟩
    cases h.2 with
    | ret h2 => exact (h2 x hx).elim (h.1.1 x) id
  | .user upd k, st => by
    refine Trip.bind (Q := fun s s' => O s' ∧ HonestImp s' (k s)) (Trip.act fun s h => ?_) fun s => KO.runImp' (k s) st
    cases h.2 with
    | user h1 h2 => exact ⟨h.1.confine h1, h2 _⟩
  | .call op k, st => by
    intro s r s' hs he
    cases hs.2 with
    | call h2 =>
      exact Trip.bind (KO.runOp C R op st) (fun st => Trip.bind (Q := fun s s' => O s' ∧ HonestImp s' (k s))
        (Trip.act fun s h => ⟨h, h2 _⟩) fun s => KO.runImp' (k s) st) s r s' hs.1 he
  | .render n k, st => by
    intro s r s' hs he
    cases hs.2 with
    | render h2 =>
      exact Trip.bind (R n) (fun e => Trip.bind (Q := fun s s' => O s' ∧ HonestImp s' (k e s))
        (Trip.act fun s h => ⟨h.1, h2 _ _ h.2⟩) fun s => KO.runImp' (k e s) st) s r s' hs.1 he
  | .write d k, st => by
    intro s r s' hs he
    cases hs.2 with
    | write h2 =>
      exact Trip.bind (KO.write' d) (fun e => Trip.bind (Q := fun s s' => O s' ∧ HonestImp s' (k e s))
        (Trip.act fun s h => ⟨h.1, h2 _ _ h.2⟩) fun s => KO.runImp' (k e s) st) s r s' hs.1 he

theorem KO.renderStep' (n : Node) : Trip env O (renderStep rec n) OQ := by
  cases n with
  | element h cs =>
    exact Trip.bind (KO.renderStartTag C h) fun _ => Trip.bind (KO.contentLoop R cs) fun _ =>
      Trip.bind (KO.renderEndTag _) fun _ => KO.retErr'
  | voidElement h => exact Trip.bind (KO.renderStartTag C h) fun _ => KO.retErr'
  | attr a => exact Trip.bind (KO.renderAttr C a) fun _ => KO.retErr'
  | text vs => exact Trip.bind (KO.renderValues C vs) fun _ => KO.retErr'
  | comment vs =>
    exact Trip.bind (KO.ctxWrite _) fun _ => Trip.bind (KO.renderValues C vs) fun _ =>
      Trip.bind (KO.ctxWrite _) fun _ => KO.retErr'
  | fragment vs => exact Trip.bind (KO.renderValues C vs) fun _ => KO.retErr'
  | pi n vs =>
    exact Trip.bind (KO.ctxWrite _) fun _ => Trip.bind (KO.ctxWrite _) fun _ => Trip.bind (KO.ctxWrite _) fun _ =>
      Trip.bind (KO.renderValues C vs) fun _ => Trip.bind (KO.ctxWrite _) fun _ => KO.retErr'
  | collection ns => exact Trip.bind (KO.collectionLoop R ns) fun _ => KO.retErr'
  | conditional ns as fn =>
    exact Trip.bind (KO.runCond C fn) fun _ => Trip.bind (KO.when (.conditionalLoop R ns)) fun _ => KO.retErr'
  | collector f =>
    exact Trip.bind (Q := fun _ => O) (Trip.act fun s hs => hs.confine (C.collect f s)) fun ns =>
      Trip.bind (KO.ignoreLoop R ns) fun _ => KO.retErr'
  | imperative f =>
    cases f with
    | none => exact Trip.pure fun _ h => ⟨h, by simp⟩
    | some f =>
      exact Trip.bind (Q := fun p s => O s ∧ HonestImp s p) (Trip.act fun s hs => ⟨hs, C.imp f s⟩) fun p =>
        KO.runImp' C R p []
  | iterator ns fn => exact KO.renderIterator' C R ns fn
  | yieldIterator ns f => exact KO.renderYield' C R ns f
  | document p cs => exact Trip.bind (KO.documentLoop R _) fun _ => KO.retErr'

end

theorem KO.renderProg' {env : Env} (C : Honest env) : (fuel : Nat) → (n : Node) → Trip env O (renderProg fuel n) OQ
  | 0, _ => Trip.stuck
  | fuel + 1, n => KO.renderStep' C (KO.renderProg' C fuel) n

/-! ### Writers that repeat their first error -/

theorem firstErr_append (l l' : List WEvent) : firstErr (l ++ l') = (firstErr l).or (firstErr l') := by
  simp [firstErr, List.findSome?_append]

theorem failed_iff_firstErr (l : List WEvent) : Failed l ↔ firstErr l ≠ none := by
  constructor
  · rintro ⟨w, hw, h⟩ hn
    rw [firstErr, List.findSome?_eq_none_iff] at hn
    exact h (hn w hw)
  · intro h
    obtain ⟨e, he⟩ := Option.ne_none_iff_exists'.1 h
    obtain ⟨w, hw, h2⟩ := List.exists_of_findSome?_eq_some he
    exact ⟨w, hw, by rw [h2]; simp⟩

theorem staysFailed_of_repeats {w : List WEvent → Bytes → Nat × Option Err} (h : Repeats w) : StaysFailed w := by
  intro log d hf
  obtain ⟨e, he⟩ := Option.ne_none_iff_exists'.1 ((failed_iff_firstErr log).1 hf)
  rw [h log d e he]
  simp

/-- All errors of the log are the first one. -/
def OneErr (l : List WEvent) : Prop := ∀ e, Returned l e → firstErr l = some e

theorem exec_oneErr {α} {env : Env} (h : Repeats env.write) {m : Prog α} {s s' : St} {r : α} (hs : OneErr s.log)
    (he : exec env m s = some (r, s')) : OneErr s'.log := by
  induction m generalizing s with
  | pure a => cases he; exact hs
  | stuck => cases he
  | step a k ih =>
    refine ih _ ?_ he
    cases a with
    | write d =>
      rintro e ⟨w, hw, hwe⟩
      rw [show (Action.run env (.write d) s).2.log = s.log ++ [⟨d, (env.write s.log d).1, (env.write s.log d).2⟩] from rfl]
        at hw ⊢
      rw [firstErr_append]
      rcases List.mem_append.1 hw with hw | hw
      · rw [hs e ⟨w, hw, hwe⟩]; rfl
      · simp only [List.mem_singleton] at hw
        subst hw
        simp only at hwe
        cases hf : firstErr s.log with
        | none => simp [firstErr, hwe]
        | some x => rw [h _ _ _ hf] at hwe; cases hwe; rfl
    | leave => simp only [Action.run]; split <;> exact hs
    | _ => exact hs

end Aitch

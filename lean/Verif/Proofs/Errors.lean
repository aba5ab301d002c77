import Verif.Proofs.Frame
/-
A failed write is remembered in `ctx.Error` (for careful user functions and writers that stay failed).
-/
set_option linter.unusedSectionVars false

namespace Aitch
open Spec

/-- A failed write shows in `ctx.Error`. -/
def J (s : St) : Prop := Failed s.log → s.frame.err ≠ none

/-- ... and in the returned error. -/
def RQ (e : Option Err) (s : St) : Prop := J s ∧ (Failed s.log → e ≠ none)

theorem exec_ctxWrite (env : Env) (d : Bytes) (s : St) : exec env (ctxWrite d) s =
    match s.frame.err with
    | none => some ((), (s.wrote d (env.write s.log d)).setErr (env.write s.log d).2)
    | some _ => some ((), s) := by
  unfold ctxWrite
  rw [exec_bind]
  simp only [Do.ctx, exec, Action.run, Option.bind_some]
  cases h : s.frame.err <;> rfl

theorem exec_valueWrite (env : Env) (d : Bytes) (s : St) : exec env (valueWrite d) s =
    some (decide ((env.write s.log d).1 > 0), (s.wrote d (env.write s.log d)).setErr (env.write s.log d).2) := rfl

theorem exec_retErr (env : Env) (s : St) : exec env retErr s = some (s.frame.err, s) := rfl

theorem failed_snoc {l : List WEvent} {e : WEvent} : Failed (l ++ [e]) ↔ Failed l ∨ e.err ≠ none := by
  constructor
  · rintro ⟨x, hx, h⟩
    rw [List.mem_append] at hx
    rcases hx with hx | hx
    · exact Or.inl ⟨x, hx, h⟩
    · simp at hx; subst hx; exact Or.inr h
  · rintro (h | h)
    · exact failed_append h
    · exact ⟨e, by simp, h⟩

section
variable {env : Env}

/-- `m` keeps `J`. -/
abbrev KJ {α} (env : Env) (m : Prog α) : Prop := Trip env J m fun _ => J

theorem KJ.pure {α} (a : α) : KJ env (Pure.pure a : Prog α) := Trip.pure fun _ h => h

theorem KJ.bind {α β} {m : Prog α} {f : α → Prog β} (hm : KJ env m) (hf : ∀ a, KJ env (f a)) : KJ env (m >>= f) :=
  Trip.bind hm hf

theorem KJ.when {b : Bool} {m : Prog Unit} (h : KJ env m) : KJ env (Prog.when b m) := by
  unfold Prog.when; split
  · exact h
  · exact .pure _

theorem KJ.ctx : KJ env Do.ctx := Trip.act fun _ h => h
theorem KJ.order (ks) : KJ env (Do.order ks) := Trip.act fun _ h => h
theorem KJ.look : KJ env Do.look := Trip.act fun _ h => h

theorem KJ.ctxWrite (d : Bytes) : KJ env (ctxWrite d) := by
  intro s r s' hs he
  rw [exec_ctxWrite] at he
  cases h : s.frame.err with
  | some e => rw [h] at he; cases he; exact hs
  | none =>
    rw [h] at he
    cases he
    intro hf
    rcases failed_snoc.1 hf with hf | hf
    · exact (hs hf h).elim
    · exact hf

theorem Trip.retErr : Trip env J retErr RQ := by
  intro s r s' hs he
  rw [exec_retErr] at he
  cases he
  exact ⟨hs, hs⟩

variable (S : StaysFailed env.write) (C : Careful env)
include S

theorem KJ.valueWrite (d : Bytes) : KJ env (valueWrite d) := by
  intro s r s' hs he
  rw [exec_valueWrite] at he
  cases he
  intro hf
  rcases failed_snoc.1 hf with hf | hf
  · exact S _ _ hf
  · exact hf

include C

omit S C in
theorem KJ.user {upd : St → St} (h : KeepsError upd) : KJ env (Do.user upd) :=
  Trip.act fun s hs hf => h s (hs hf)

omit S in
theorem KJ.runDyn (d : Dyn) : KJ env (runDyn d) := by
  cases d with
  | user f => exact Trip.act fun s hs hf => C.dyn f s (hs hf)
  | key k => refine .bind .ctx fun c => ?_; split <;> exact .pure _
  | cargo => exact .bind .ctx fun _ => .pure _

mutual
theorem KJ.renderValue : (v : Value) → KJ env (renderValue v)
  | .mk _ (some d) _ => .bind (.runDyn C d) fun _ => .valueWrite S _
  | .mk v none [] => .valueWrite S v
  | .mk _ none (c :: cs) => .bind (KJ.renderValue c) fun _ => .bind (KJ.renderConcats cs _) fun _ => .pure _
theorem KJ.renderConcats : (vs : List Value) → (l : Nat) → KJ env (renderConcats vs l)
  | [], _ => .pure _
  | c :: cs, _ => .bind (KJ.renderValue c) fun _ => KJ.renderConcats cs _
end

theorem KJ.renderValues : (vs : List Value) → KJ env (renderValues vs)
  | [] => .pure _
  | v :: vs => .bind (.renderValue S C v) fun _ => KJ.renderValues vs

theorem KJ.renderDelimValues (d : Bytes) : (vs : List Value) → (b : Bool) → KJ env (renderDelimValues d vs b)
  | [], _ => .pure _
  | v :: vs, _ => .bind (.when (.ctxWrite d)) fun _ => .bind (.renderValue S C v) fun _ => KJ.renderDelimValues d vs _

theorem KJ.renderDelim (n d : Bytes) (vs : List Value) : KJ env (renderDelim n d vs) :=
  .bind (.ctxWrite _) fun _ => .bind (.ctxWrite _) fun _ => .bind (.ctxWrite _) fun _ =>
    .bind (.renderDelimValues S C d vs false) fun _ => .ctxWrite _

theorem KJ.renderAttr (a : Attr) : KJ env (renderAttr a) := by
  cases a with
  | plain n vs =>
    exact .bind (.ctxWrite _) fun _ => .bind (.ctxWrite _) fun _ => .bind (.ctxWrite _) fun _ =>
      .bind (.renderValues S C vs) fun _ => .ctxWrite _
  | bool n => exact .bind (.ctxWrite _) fun _ => .ctxWrite _
  | delim n d r => exact .bind .ctx fun _ => .renderDelim S C _ _ _

omit S in
theorem KJ.runCond (k : Cond) : KJ env (runCond k) := by
  cases k with
  | user f => exact Trip.act fun s hs hf => C.cond f s (hs hf)
  | has k => refine .bind .ctx fun c => ?_; split <;> exact .pure _
  | hasNot k => refine .bind .ctx fun c => ?_; split <;> exact .pure _

omit S in
theorem KJ.evalConds : (ks : List Cond) → KJ env (evalConds ks)
  | [] => .pure _
  | k :: ks => by
    refine .bind (.runCond C k) fun b => ?_
    split
    · exact KJ.evalConds ks
    · exact .pure _

omit S in
theorem KJ.evaluate : (cas : List CondAttr) → (acc : List (Bytes × List Attr)) → KJ env (evaluate cas acc)
  | [], _ => .pure _
  | _ :: as, _ => .bind (.evalConds C _) fun _ => KJ.evaluate as _

theorem KJ.renderChosen (a : Attr) (m : List Attr) (l : Attr) : KJ env (renderChosen a m l) := by
  unfold Aitch.renderChosen
  split
  · exact .bind .ctx fun _ => .renderDelim S C _ _ _
  · exact .renderAttr S C l

theorem KJ.renderStatics (h : ElemHead) (ev : List (Bytes × List Attr)) : (ns : List Bytes) →
    KJ env (renderStatics h ev ns)
  | [] => .pure _
  | n :: ns => by
    refine .bind ?_ fun _ => KJ.renderStatics h ev ns
    unfold renderStatic
    split
    · exact .pure _
    · split
      · exact .pure _
      · split
        · exact .renderChosen S C _ _ _
        · exact .renderAttr S C _

theorem KJ.renderExtras (h : ElemHead) (ev : List (Bytes × List Attr)) : (ns : List Bytes) →
    KJ env (renderExtras h ev ns)
  | [] => .pure _
  | n :: ns => by
    refine .bind ?_ fun _ => KJ.renderExtras h ev ns
    unfold renderExtra
    split
    · exact .renderChosen S C _ _ _
    · exact .pure _

theorem KJ.renderAttrs : (as : List Attr) → KJ env (renderAttrs as)
  | [] => .pure _
  | a :: as => .bind (.renderAttr S C a) fun _ => KJ.renderAttrs as

theorem KJ.renderAttributes (h : ElemHead) : KJ env (renderAttributes h) := by
  unfold Aitch.renderAttributes
  split
  · refine .bind (.evaluate C _ _) fun ev => ?_
    split
    · exact .bind (.order _) fun _ => .bind (.renderStatics S C _ _ _) fun _ => .bind (.order _) fun _ =>
        .renderExtras S C _ _ _
    · exact .renderAttrs S C _
  · exact .renderAttrs S C _

theorem KJ.renderStartTag (h : ElemHead) : KJ env (renderStartTag h) :=
  .bind (.ctxWrite _) fun _ => .bind (.ctxWrite _) fun _ => .bind (.renderAttributes S C h) fun _ => .ctxWrite _

omit S C in
theorem KJ.renderEndTag (n : Bytes) : KJ env (renderEndTag n) :=
  .bind (.ctxWrite _) fun _ => .bind (.ctxWrite _) fun _ => .ctxWrite _

theorem KJ.startWrite : (l : List (Bytes × Option (List Value))) → KJ env (startWrite l)
  | [] => .pure _
  | (n, vs) :: l => by
    refine .bind (.ctxWrite _) fun _ => .bind (.ctxWrite _) fun _ => .bind ?_ fun _ => KJ.startWrite l
    cases vs with
    | none => exact .pure _
    | some vs => exact .bind (.ctxWrite _) fun _ => .bind (.renderValues S C vs) fun _ => .ctxWrite _

theorem KJ.startTag (n : Bytes) (as : List (Option Node)) : KJ env (startTag n as) :=
  .bind (.ctxWrite _) fun _ => .bind (.ctxWrite _) fun _ => .bind .ctx fun _ => .bind (.startWrite S C _) fun _ =>
    .ctxWrite _

omit S C in
theorem KJ.endAll : (l : List Bytes) → KJ env (endAll l)
  | [] => .pure _
  | n :: l => .bind (.renderEndTag n) fun _ => .endAll l

omit S in
theorem KJ.runItems (src : ItemSrc) : KJ env (runItems src) := by
  cases src with
  | user f => exact Trip.act fun s hs hf => C.items f s (hs hf)
  | key k => exact .bind .ctx fun _ => .pure _

omit S C

/-- `ctx.Error = c.Render(ctx)` -/
theorem Trip.setErrRQ (e : Option Err) : Trip env (RQ e) (Do.setErr e) (fun _ s => RQ e s) :=
  Trip.act fun _ h => ⟨fun hf => h.2 hf, h.2⟩

variable {rec : Render} (R : ∀ n, NoNilImp n → Trip env J (rec n) RQ) (PR : ∀ n, KeepsParents (rec n))
include R

theorem KJ.contentLoop : (ns : List Node) → NoNilImpAll ns → KJ env (contentLoop rec ns)
  | [], _ => .pure _
  | n :: ns, hn => Trip.bind (R n hn.1) fun e => Trip.bind (Trip.setErrRQ e) fun _ =>
      (KJ.contentLoop ns hn.2).pre fun _ h => h.1

theorem KJ.conditionalLoop : (ns : List Node) → NoNilImpAll ns → KJ env (conditionalLoop rec ns)
  | [], _ => .pure _
  | n :: ns, hn => by
    refine Trip.bind (R n hn.1) fun e => Trip.bind (Trip.setErrRQ e) fun _ => ?_
    cases e
    · exact (KJ.conditionalLoop ns hn.2).pre fun _ h => h.1
    · exact Trip.pure fun _ h => h.1

theorem KJ.collectionLoop : (ns : List Node) → NoNilImpAll ns → KJ env (collectionLoop rec ns)
  | [], _ => .pure _
  | n :: ns, hn => by
    unfold Aitch.collectionLoop
    split
    · exact KJ.collectionLoop ns hn.2
    · refine Trip.bind (R n hn.1) fun e => Trip.bind (Trip.setErrRQ e) fun _ => ?_
      cases e
      · exact (KJ.collectionLoop ns hn.2).pre fun _ h => h.1
      · exact Trip.pure fun _ h => h.1

theorem KJ.ignoreLoop : (ns : List (Option Node)) → (∀ n, some n ∈ ns → NoNilImp n) → KJ env (ignoreLoop rec ns)
  | [], _ => .pure _
  | none :: ns, hn => KJ.ignoreLoop ns fun n h => hn n (by simp [h])
  | some n :: ns, hn => by
    unfold Aitch.ignoreLoop
    split
    · exact KJ.ignoreLoop ns fun n h => hn n (by simp [h])
    · exact Trip.bind (R n (hn n (by simp))) fun _ =>
        (KJ.ignoreLoop ns fun n h => hn n (by simp [h])).pre fun _ h => h.1

theorem KJ.documentLoop : (ns : List Node) → NoNilImpAll ns → KJ env (documentLoop rec ns)
  | [], _ => .pure _
  | n :: ns, hn => Trip.bind (R n hn.1) fun _ => (KJ.documentLoop ns hn.2).pre fun _ h => h.1

/-- Rendering the nodes of an item: if the result is nil, the last node's result was nil, or there were no nodes. -/
theorem Trip.iterNodes : (ns : List Node) → NoNilImpAll ns → (b : Prop) →
    Trip env (fun s => J s ∧ (Failed s.log → b)) (iterNodes rec ns)
      (fun e s => J s ∧ (Failed s.log → e ≠ none ∨ b))
  | [], _, _ => Trip.pure fun _ h => ⟨h.1, fun hf => Or.inr (h.2 hf)⟩
  | n :: ns, hn, b => by
    refine Trip.bind ((R n hn.1).pre fun _ h => h.1) fun e => ?_
    cases e with
    | none =>
      exact (Trip.iterNodes ns hn.2 b).pre fun s h => ⟨h.1, fun hf => (h.2 hf rfl).elim⟩
    | some e => exact Trip.pure fun _ h => ⟨h.1, fun _ => Or.inl (by simp)⟩

theorem Trip.iterItems (ns : List Node) (hn : NoNilImpAll ns) (d : Option MapId) : (its : List Any) →
    Trip env (fun s => ¬ Failed s.log) (iterItems rec ns d its) (fun e s => Failed s.log → e ≠ none)
  | [] => Trip.pure fun _ h hf => (h hf).elim
  | it :: its => by
    refine Trip.bind (Q := fun _ s => ¬ Failed s.log) (Trip.act fun _ h => h) fun _ =>
      Trip.bind ((Trip.iterNodes R ns hn False).pre fun _ h => ⟨fun hf => (h hf).elim, h⟩) fun e => ?_
    cases e with
    | none => exact (Trip.iterItems ns hn d its).pre fun s h hf => by simpa using h.2 hf
    | some e => exact Trip.pure fun _ _ _ => by simp

include PR C

theorem Trip.renderIterator (ns : List Node) (hn : NoNilImpAll ns) (fn : ItemSrc) :
    Trip env J (renderIterator rec ns fn) RQ := by
  intro s r s' hs he
  unfold Aitch.renderIterator at he
  rw [exec_bind] at he
  simp only [Do.ctx, exec, Action.run, Option.bind_some] at he
  cases herr : s.frame.err with
  | some e =>
    rw [herr] at he
    cases he
    exact ⟨hs, fun _ => by simp⟩
  | none =>
    rw [herr] at he
    simp only at he
    have hnf : ¬ Failed s.log := fun hf => hs hf herr
    rw [exec_bind] at he
    cases h1 : exec env (runItems fn) s with
    | none => rw [h1] at he; cases he
    | some p =>
      obtain ⟨items, s1⟩ := p
      have hlog : s1.log = s.log := by
        cases fn with
        | user f => cases h1; rfl
        | key k => cases h1; rfl
      have hj1 : J s1 := KJ.runItems C fn _ _ _ hs h1
      rw [h1] at he
      simp only [Option.bind_some] at he
      split at he
      · cases he
        exact ⟨hj1, fun hf => (hnf (hlog ▸ hf)).elim⟩
      · rw [exec_bind] at he
        simp only [exec, Action.run, Option.bind_some] at he
        obtain ⟨e, t, h2, h3⟩ := exec_scope (KeepsParents.iterItems PR _ _ _) he
        have h4 := Trip.iterItems R ns hn _ _ _ _ _ (by simp only [St.entered]; rw [hlog]; exact hnf) h2
        cases e with
        | some e =>
          cases h3
          exact ⟨fun _ => by simp [St.setErr, Action.run], fun _ => by simp⟩
        | none =>
          cases h3
          have : ¬ Failed (s1.left t).log := fun hf => h4 hf rfl
          exact ⟨fun hf => (this hf).elim, fun hf => (this hf).elim⟩

omit C

theorem Trip.runYields (ns : List Node) (hn : NoNilImpAll ns) : (p : YieldProg) → (child : Frame) →
    (CarefulYield p → Trip env J (runYield rec ns p child) (fun _ s => J s)) ∧
    (NotesYield p → Trip env (fun _ => True) (runYield rec ns p child) (fun _ s => J s))
  | .done, _ => ⟨fun _ => Trip.pure fun _ h => h, nofun⟩
  | .user upd k, child => by
    refine ⟨fun hp => ?_, fun hp => ?_⟩
    · cases hp with
      | user h1 h2 => exact Trip.bind (KJ.user h1) fun s => (Trip.runYields ns hn (k s) child).1 (h2 s)
    · cases hp with
      | user h1 h2 =>
        exact Trip.bind (Q := fun _ => J) (Trip.act fun s _ _ => h1 s) fun s => (Trip.runYields ns hn (k s) child).1 (h2 s)
  | .write d k, child => by
    refine ⟨fun hp => ?_, nofun⟩
    cases hp with
    | write h1 h2 =>
      intro s r s' hs he
      have he : exec env (Aitch.runYield rec ns (k (env.write s.log d) (s.wrote d (env.write s.log d))) child)
        (s.wrote d (env.write s.log d)) = some (r, s') := he
      rcases hw : env.write s.log d with ⟨n, _ | e⟩
      · rw [hw] at he
        refine (Trip.runYields ns hn _ child).1 (h1 n _) _ r s' (fun h => ?_) he
        rcases failed_snoc.1 h with h | h
        · exact hs h
        · exact (h rfl).elim
      · rw [hw] at he
        exact (Trip.runYields ns hn _ child).2 (h2 n e _) _ r s' trivial he
  | .yield it k, child => by
    refine ⟨fun hp => ?_, nofun⟩
    cases hp with
    | yield hk =>
      rw [runYield_yield]
      intro s r s' hs he
      obtain ⟨e, t, h1, h2⟩ := exec_scope (.bind (.setItem _ _) fun _ => .iterNodes PR ns) he
      have h3 : Failed t.log → e ≠ none ∨ s.frame.err ≠ none := by
        by_cases hf : Failed s.log
        · exact fun _ => .inr (hs hf)
        · refine fun h => .inl ?_
          have := Trip.bind (I := fun t => J t ∧ (Failed t.log → False)) (m := Do.setItem it (itemData child.data it))
            (Q := fun _ t => J t ∧ (Failed t.log → False)) (Trip.act fun _ h => h)
            (fun _ => Trip.iterNodes R ns hn False) (s.entered child) e t ⟨fun h => (hf h).elim, hf⟩ h1
          exact (this.2 h).elim id False.elim
      refine Trip.bind (I := fun u => u = s.left t) (Q := fun _ => J) ?_
        (fun _ => Trip.bind (m := Do.look) KJ.look fun s => (Trip.runYields ns hn (k s) t.frame).1 (hk s)) _ _ _ rfl h2
      cases e with
      | none =>
        refine Trip.pure fun u hu => ?_
        subst hu
        exact fun hf => (h3 hf).elim (fun h => (h rfl).elim) id
      | some e => exact Trip.act fun u _ _ => by simp [Action.run, St.setErr]

include C

theorem Trip.renderYield (ns : List Node) (hn : NoNilImpAll ns) (f : FnId) :
    Trip env J (renderYield rec ns f) RQ := by
  unfold Aitch.renderYield
  refine Trip.bind (Q := fun c s => J s ∧ s.toCtx = c) (Trip.act fun s h => ⟨h, rfl⟩) fun c => ?_
  cases herr : c.frame.err with
  | some e => exact Trip.pure fun _ h => ⟨h.1, fun _ => by simp⟩
  | none =>
    refine Trip.bind (Q := fun p s => CarefulYield p ∧ J s) (Trip.act fun s h => ⟨C.yields f s, h.1⟩) fun p => ?_
    refine Trip.bind (Q := fun _ => J) ?_ fun _ => Trip.retErr
    intro s r s' hs he
    exact (Trip.runYields R PR ns hn p _).1 hs.1 _ _ _ hs.2 he

omit PR
include S

theorem KJ.runOp (op : ImpOp) (st : List Bytes) (h : ∀ ns n, op = .writeNodes ns → some n ∈ ns → NoNilImp n) :
    KJ env (runOp rec op st) := by
  cases op with
  | writeString d => exact .bind (.ctxWrite _) fun _ => .pure _
  | writeRaw d => exact .bind (.ctxWrite _) fun _ => .pure _
  | writeNodes ns => exact .bind (.ignoreLoop R ns fun n hn => h ns n rfl hn) fun _ => .pure _
  | start n v as => exact .bind (.startTag S C n as) fun _ => .pure _
  | «end» =>
    cases st with
    | nil => exact .pure _
    | cons n st => exact .bind (.renderEndTag n) fun _ => .pure _
  | endAll => exact .bind (.endAll st) fun _ => .pure _

theorem Trip.runImps : (p : ImpProg) → NoNilImpCalls p → (st : List Bytes) →
    Trip env (fun s => J s ∧ CarefulImp s p) (runImp rec p st) RQ ∧
    (NotesImp p → Trip env (fun _ => True) (runImp rec p st) RQ)
  | .ret e, _, _ => by
    refine ⟨Trip.pure fun s h => ⟨h.1, fun hf => ?_⟩, nofun⟩
    cases h.2 with
    | ret h2 => exact h2 (h.1 hf)
  | .user upd k, hp, st => by
    cases hp with
    | user hk =>
      refine ⟨?_, fun hq => ?_⟩
      · refine Trip.bind (Q := fun s s' => J s' ∧ CarefulImp s' (k s)) (Trip.act fun s h => ?_) fun s =>
          (Trip.runImps (k s) (hk s) st).1
        cases h.2 with
        | user h1 h2 => exact ⟨fun hf => h1 s (h.1 hf), h2 _⟩
      · cases hq with
        | user h1 h2 =>
          exact Trip.bind (Q := fun s s' => J s' ∧ CarefulImp s' (k s)) (Trip.act fun s _ => ⟨fun _ => h1 s, h2 _⟩) fun s =>
            (Trip.runImps (k s) (hk s) st).1
  | .call op k, hp, st => by
    cases hp with
    | call h1 hk =>
      refine ⟨?_, nofun⟩
      intro s r s' hs he
      cases hs.2 with
      | call h2 =>
        exact Trip.bind (KJ.runOp S C R op st h1) (fun st => Trip.bind (Q := fun s s' => J s' ∧ CarefulImp s' (k s))
          (Trip.act fun s h => ⟨h, h2 _⟩) fun s => (Trip.runImps (k s) (hk s) st).1) s r s' hs.1 he
  | .render n k, hp, st => by
    cases hp with
    | render h1 hk =>
      refine ⟨?_, nofun⟩
      intro s r s' hs he
      cases hs.2 with
      | render h2 =>
        exact Trip.bind (R n h1) (fun e => Trip.bind (Q := fun s s' => J s' ∧ CarefulImp s' (k e s))
          (Trip.act fun s h => ⟨h.1, h2 _ _⟩) fun s => (Trip.runImps (k e s) (hk e s) st).1) s r s' hs.1 he
  | .write d k, hp, st => by
    cases hp with
    | write hk =>
      refine ⟨?_, nofun⟩
      intro s r s' hs he
      have he : exec env (Aitch.runImp rec (k (env.write s.log d) (s.wrote d (env.write s.log d))) st)
        (s.wrote d (env.write s.log d)) = some (r, s') := he
      cases hs.2 with
      | write h1 h2 =>
        rcases hw : env.write s.log d with ⟨n, _ | e⟩
        · rw [hw] at he
          refine (Trip.runImps _ (hk _ _) st).1 _ r s' ⟨fun h => ?_, h1 n _⟩ he
          rcases failed_snoc.1 h with h | h
          · exact hs.1 h
          · exact (h rfl).elim
        · rw [hw] at he
          exact (Trip.runImps _ (hk _ _) st).2 (h2 n e _) _ r s' trivial he

include PR

theorem Trip.renderStep (N : NoNilImpFns env) (n : Node) (hn : NoNilImp n) : Trip env J (renderStep rec n) RQ := by
  cases n with
  | element h cs =>
    exact Trip.bind (KJ.renderStartTag S C h) fun _ => Trip.bind (KJ.contentLoop R cs hn) fun _ =>
      Trip.bind (KJ.renderEndTag _) fun _ => Trip.retErr
  | voidElement h => exact Trip.bind (KJ.renderStartTag S C h) fun _ => Trip.retErr
  | attr a => exact Trip.bind (KJ.renderAttr S C a) fun _ => Trip.retErr
  | text vs => exact Trip.bind (KJ.renderValues S C vs) fun _ => Trip.retErr
  | comment vs =>
    exact Trip.bind (KJ.ctxWrite _) fun _ => Trip.bind (KJ.renderValues S C vs) fun _ =>
      Trip.bind (KJ.ctxWrite _) fun _ => Trip.retErr
  | fragment vs => exact Trip.bind (KJ.renderValues S C vs) fun _ => Trip.retErr
  | pi n vs =>
    exact Trip.bind (KJ.ctxWrite _) fun _ => Trip.bind (KJ.ctxWrite _) fun _ => Trip.bind (KJ.ctxWrite _) fun _ =>
      Trip.bind (KJ.renderValues S C vs) fun _ => Trip.bind (KJ.ctxWrite _) fun _ => Trip.retErr
  | collection ns => exact Trip.bind (KJ.collectionLoop R ns hn) fun _ => Trip.retErr
  | conditional ns as fn =>
    exact Trip.bind (KJ.runCond C fn) fun _ => Trip.bind (KJ.when (.conditionalLoop R ns hn)) fun _ => Trip.retErr
  | collector f =>
    refine Trip.bind (Q := fun ns s => J s ∧ ∀ n, some n ∈ ns → NoNilImp n) (Trip.act fun s hs => ⟨fun hf => C.collect f s (hs hf), ?_⟩)
      fun ns => Trip.bind (Q := fun _ => J) ?_ fun _ => Trip.retErr
    · exact N.collect f s
    · intro s r s' hs he
      exact KJ.ignoreLoop R ns hs.2 _ _ _ hs.1 he
  | imperative f =>
    cases f with
    | none => exact (hn rfl).elim
    | some f =>
      refine Trip.bind (Q := fun p s => (J s ∧ CarefulImp s p) ∧ NoNilImpCalls p) (Trip.act fun s hs =>
        ⟨⟨hs, C.imp f s⟩, N.imp f s⟩) fun p => ?_
      intro s r s' hs he
      exact (Trip.runImps S C R p hs.2 []).1 _ _ _ hs.1 he
  | iterator ns fn => exact Trip.renderIterator C R PR ns hn fn
  | yieldIterator ns f => exact Trip.renderYield C R PR ns hn f
  | document p cs =>
    refine Trip.bind (KJ.documentLoop R _ ?_) fun _ => Trip.retErr
    cases p with
    | none => exact hn
    | some p => exact hn

end

theorem Trip.renderProg {env : Env} (S : StaysFailed env.write) (C : Careful env) (N : NoNilImpFns env) :
    (fuel : Nat) → (n : Node) → NoNilImp n → Trip env J (renderProg fuel n) RQ
  | 0, _, _ => Trip.stuck
  | fuel + 1, n, hn => Trip.renderStep S C (Trip.renderProg S C N fuel) (KeepsParents.renderProg fuel) N n hn

end Aitch

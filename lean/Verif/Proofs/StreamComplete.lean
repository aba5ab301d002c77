import Verif.Proofs.Stream
import Verif.Proofs.OrderComplete
/-
Completeness for functions that write: everything `Streams` allows is done by some run.
-/
namespace Aitch.Stream
open Aitch.Spec Aitch.Spec.Stream

/-- For some choice of orders, and enough fuel, the program started on tape `t` returns `r` and leaves `t'`. -/
def CanG {α : Type} (E : Tellers) (t : Tape) (M : Bodies → Nat → Nat → Prog α) (r : α) (t' : Tape) : Prop :=
  ∃ os f0, ∀ f ≥ f0, ∀ g ≥ f0, ∀ env B s, Alive env B E → tape s = t → Follows env s.tick os →
    ∃ s', exec env (M B f g) s = some (r, s') ∧ tape s' = t' ∧ s'.tick = s.tick + os.length

/-- The same for rendering code whose calls of user functions run their bodies. -/
def Can {α : Type} (E : Tellers) (t : Tape) (L : Render → Prog α) (r : α) (t' : Tape) : Prop :=
  CanG E t (fun B f g => inlined B (renderWith B g) (L (nested B f))) r t'

/-- The same for the body of a user function. -/
def CanR {α : Type} (E : Tellers) (t : Tape) (L : Render → Prog α) (r : α) (t' : Tape) : Prop :=
  CanG E t (fun B _ g => L (renderWith B g)) r t'

section
variable {E : Tellers} {t : Tape} {α β : Type}

theorem CanG.pure {a : α} : CanG E t (fun _ _ _ => Pure.pure a) a t :=
  ⟨[], 0, fun _ _ _ _ _ _ s _ hs _ => ⟨s, rfl, hs, by simp⟩⟩

theorem CanG.bind {M : Bodies → Nat → Nat → Prog α} {N : Bodies → Nat → Nat → α → Prog β} {a : α} {b : β} {t1 t2 : Tape}
    (hm : CanG E t M a t1) (hf : CanG E t1 (fun B f g => N B f g a) b t2) :
    CanG E t (fun B f g => M B f g >>= N B f g) b t2 := by
  obtain ⟨os1, f1, h1⟩ := hm
  obtain ⟨os2, f2, h2⟩ := hf
  refine ⟨os1 ++ os2, max f1 f2, fun f hf g hg env B s A hs hfo => ?_⟩
  obtain ⟨s1, e1, hc1, ht1⟩ := h1 f (by omega) g (by omega) env B s A hs fun i o hi => by
    refine hfo i o ?_
    rw [List.getElem?_append_left]
    · exact hi
    · exact (List.getElem?_eq_some_iff.1 hi).1
  obtain ⟨s2, e2, hc2, ht2⟩ := h2 f (by omega) g (by omega) env B s1 A hc1 fun i o hi ks hk => by
    rw [ht1, Nat.add_assoc]
    refine hfo (os1.length + i) o ?_ ks hk
    rw [List.getElem?_append_right (by omega)]
    simpa using hi
  refine ⟨s2, ?_, hc2, ?_⟩
  · rw [exec_bind, e1]; exact e2
  · rw [ht2, ht1, List.length_append]; omega

theorem Can.pure {a : α} : Can E t (fun _ => Pure.pure a) a t := CanG.pure

theorem Can.bind {L : Render → Prog α} {N : Render → α → Prog β} {a : α} {b : β} {t1 t2 : Tape}
    (hm : Can E t L a t1) (hf : Can E t1 (fun rec => N rec a) b t2) : Can E t (fun rec => L rec >>= N rec) b t2 := by
  unfold Can
  simp only [inlined_bind]
  exact CanG.bind hm hf

theorem CanR.bind {L : Render → Prog α} {N : Render → α → Prog β} {a : α} {b : β} {t1 t2 : Tape}
    (hm : CanR E t L a t1) (hf : CanR E t1 (fun rec => N rec a) b t2) : CanR E t (fun rec => L rec >>= N rec) b t2 :=
  CanG.bind hm hf

theorem Can.to {L : Render → Prog α} {r : α} {t1 t2 : Tape} (h : Can E t L r t1) (e : t1 = t2) : Can E t L r t2 :=
  e ▸ h

/-- One effect that needs no order. -/
theorem CanG.act {a : Action} {r : a.Resp} {t' : Tape}
    (h : ∀ env B s, Alive env B E → tape s = t →
      (a.run env s).1 = r ∧ tape (a.run env s).2 = t' ∧ (a.run env s).2.tick = s.tick) :
    CanG E t (fun _ _ _ => .step a .pure) r t' := by
  refine ⟨[], 0, fun f _ g _ env B s A hs _ => ?_⟩
  obtain ⟨h1, h2, h3⟩ := h env B s A hs
  exact ⟨(a.run env s).2, by simp [exec, h1], h2, by simp [h3]⟩

theorem canG_write (d : Bytes) : CanG E t (fun _ _ _ => Do.write d) (d.length, none) (t.put d) := by
  refine CanG.act fun env B s A hs => ?_
  subst hs
  simp only [Action.run, A.healthy s.log d]
  refine ⟨rfl, ?_, rfl⟩
  have := out_wrote s d
  simp only [tape, Tape.put, this]
  rfl

theorem canG_look {M : Bodies → Nat → Nat → Tape → Prog β} {r : β} {t' : Tape}
    (h : CanG E t (fun B f g => M B f g t) r t') :
    CanG E t (fun B f g => Do.look >>= fun s => M B f g (tape s)) r t' := by
  obtain ⟨os, f0, h⟩ := h
  exact ⟨os, f0, fun f hf g hg env B s A hs hfo => by subst hs; exact h f hf g hg env B s A rfl hfo⟩

theorem canG_user {upd : Tape → Ctx} {M : Bodies → Nat → Nat → Tape → Prog β} {r : β} {t' : Tape}
    (h : CanG E (t.act upd) (fun B f g => M B f g (t.act upd)) r t') :
    CanG E t (fun B f g => Do.user (fun s => { s with toCtx := upd (tape s) }) >>= fun s => M B f g (tape s)) r t' := by
  obtain ⟨os, f0, h⟩ := h
  refine ⟨os, f0, fun f hf g hg env B s A hs hfo => ?_⟩
  obtain ⟨s', h1, h2⟩ := h f hf g hg env B (s.confine { s with toCtx := upd (tape s) }) A (act_eq t upd s hs) hfo
  refine ⟨s', ?_, h2⟩
  rw [← act_eq t upd s hs] at h1
  exact h1

theorem Can.write (d : Bytes) : Can E t (fun _ => Do.write d) (d.length, none) (t.put d) := canG_write d

theorem Can.look {L : Render → Tape → Prog β} {r : β} {t' : Tape} (h : Can E t (fun rec => L rec t) r t') :
    Can E t (fun rec => Do.look >>= fun s => L rec (tape s)) r t' := by
  unfold Can
  simp only [inlined_bind]
  exact canG_look (M := fun B f g t => inlined B (renderWith B g) (L (nested B f) t)) h

theorem Can.user {upd : Tape → Ctx} {L : Render → Tape → Prog β} {r : β} {t' : Tape}
    (h : Can E (t.act upd) (fun rec => L rec (t.act upd)) r t') :
    Can E t (fun rec => Do.user (fun s => { s with toCtx := upd (tape s) }) >>= fun s => L rec (tape s)) r t' := by
  unfold Can
  simp only [inlined_bind]
  exact canG_user (M := fun B f g t => inlined B (renderWith B g) (L (nested B f) t)) h

theorem Can.ctx : Can E t (fun _ => Do.ctx) t.toCtx t :=
  CanG.act (a := .ctx) fun env B s A hs => by subst hs; exact ⟨rfl, rfl, rfl⟩

theorem Can.setErr (he : t.frame.err = none) : Can E t (fun _ => Do.setErr none) () t := by
  refine CanG.act (a := .setErr none) fun env B s A hs => ?_
  subst hs
  have he : s.frame.err = none := he
  refine ⟨rfl, ?_, rfl⟩
  simp only [Action.run, tape, St.setErr, St.out, ← he]

theorem Can.order {ks o : List Bytes} (h : o.Perm ks) : Can E t (fun _ => Do.order ks) o t := by
  refine ⟨[o], 0, fun f _ g _ env B s A hs hf => ?_⟩
  refine ⟨{ s with tick := s.tick + 1 }, ?_, hs, rfl⟩
  have := hf 0 o (by simp) ks h.symm
  simp only [Nat.add_zero] at this
  simp [Do.order, inlined, exec, Action.run, this]

theorem Can.enter (fr : Frame) : Can E t (fun _ => Do.enter fr) () (inside t fr) :=
  CanG.act (a := .enter fr) fun env B s A hs => by subst hs; exact ⟨rfl, rfl, rfl⟩

theorem Can.item {fr : Frame} (it : Any) (d : Option MapId) :
    Can E (inside t fr) (fun _ => Do.setItem it (match it with | .map m => some m | _ => d)) ()
      (t.item fr it (itemData d it)) := by
  have set : ∀ {t : Tape} (d : Option MapId), Can E t (fun _ => Do.setItem it d) ()
      { t with frame := { t.frame with cargo := it, data := d } } :=
    fun d => CanG.act (a := .setItem it d) fun env B s A hs => by subst hs; exact ⟨rfl, rfl, rfl⟩
  cases it <;> exact set _

theorem Can.leave {f : Frame} {fs : List Frame} (h : t.parents = f :: fs) :
    Can E t (fun _ => Do.leave) t.frame { t with frame := f, parents := fs } := by
  refine CanG.act (a := .leave) fun env B s A hs => ?_
  subst hs
  have hp : s.parents = f :: fs := h
  refine ⟨?_, ?_, ?_⟩ <;> simp [Action.run, tape, St.out, hp] <;> rfl

theorem Can.ctxWrite (he : t.frame.err = none) (d : Bytes) : Can E t (fun _ => ctxWrite d) () (t.put d) := by
  refine Can.bind (L := fun _ => Do.ctx) .ctx ?_
  simp only [he]
  exact Can.bind (L := fun _ => Do.write d) (.write d) (Can.setErr (t := t.put d) he)

theorem Can.retErr (he : t.frame.err = none) : Can E t (fun _ => retErr) none t := by
  refine Can.bind (L := fun _ => Do.ctx) .ctx ?_
  rw [← he]
  exact .pure

theorem Can.endTag (he : t.frame.err = none) (n : Bytes) : Can E t (fun _ => renderEndTag n) () (t.put (endBytes n)) :=
  .to (.bind (L := fun _ => Aitch.ctxWrite b%"</") (.ctxWrite he _) (.bind (L := fun _ => Aitch.ctxWrite n)
    (.ctxWrite (by exact he) _) (.ctxWrite (by exact he) _))) (by simp [put_put, endBytes])

theorem Can.endTags (he : t.frame.err = none) (stack : List Bytes) :
    Can E t (fun _ => endAll stack) () (t.put (stack.flatMap endBytes)) := by
  induction stack generalizing t with
  | nil => exact .to .pure (by simp [Tape.put])
  | cons n ns ih =>
    exact .to (.bind (L := fun _ => renderEndTag n) (.endTag he n) (ih (t := t.put (endBytes n)) he)) (by simp [put_put])

/-! Calls -/

theorem Can.call {a : Action} {p : Telling a.Resp} {r : a.Resp} {t' : Tape}
    (hB : ∀ env B rec s, Alive env B E → tape s = t → exec env (inlined B rec (.step a .pure)) s =
      exec env (p.body.run rec) s)
    (h : CanR E t (fun rec => p.body.run rec) r t') : Can E t (fun _ => .step a .pure) r t' := by
  obtain ⟨os, f0, h⟩ := h
  refine ⟨os, f0, fun f hf g hg env B s A hs hfo => ?_⟩
  rw [hB env B _ s A hs]
  exact h f hf g hg env B s A hs hfo

theorem exec_bind_pure (env : Env) (m : Prog α) (s : St) : exec env (m >>= fun a => .pure a) s = exec env m s := by
  rw [exec_bind]
  cases exec env m s <;> rfl

theorem Can.dyn {f : FnId} {w : Bytes} {t' : Tape} (h : CanR E t (fun rec => (E.dyn f t).body.run rec) w t') :
    Can E t (fun _ => Do.dyn f) w t' := by
  refine .call (a := .dyn f) (fun env B rec s A hs => ?_) h
  subst hs
  exact (exec_bind_pure env (FnProg.run rec (B.dyn f s)) s).trans
    (congrArg (fun b => exec env (FnProg.run rec b) s) (A.behaves.dyn f s))

theorem Can.cond {f : FnId} {b : Bool} {t' : Tape} (h : CanR E t (fun rec => (E.cond f t).body.run rec) b t') :
    Can E t (fun _ => Do.cond f) b t' := by
  refine .call (a := .cond f) (fun env B rec s A hs => ?_) h
  subst hs
  exact (exec_bind_pure env (FnProg.run rec (B.cond f s)) s).trans
    (congrArg (fun b => exec env (FnProg.run rec b) s) (A.behaves.cond f s))

theorem Can.collect {f : FnId} {ns : List (Option Node)} {t' : Tape}
    (h : CanR E t (fun rec => (E.collect f t).body.run rec) ns t') : Can E t (fun _ => Do.collect f) ns t' := by
  refine .call (a := .collect f) (fun env B rec s A hs => ?_) h
  subst hs
  exact (exec_bind_pure env (FnProg.run rec (B.collect f s)) s).trans
    (congrArg (fun b => exec env (FnProg.run rec b) s) (A.behaves.collect f s))

theorem Can.items {f : FnId} {its : List Any} {t' : Tape} (h : CanR E t (fun rec => (E.items f t).body.run rec) its t') :
    Can E t (fun _ => Do.items f) its t' := by
  refine .call (a := .items f) (fun env B rec s A hs => ?_) h
  subst hs
  exact (exec_bind_pure env (FnProg.run rec (B.items f s)) s).trans
    (congrArg (fun b => exec env (FnProg.run rec b) s) (A.behaves.items f s))

theorem Can.imp (f : FnId) : Can E t (fun _ => Do.imp f) (E.imp f t).body t :=
  CanG.act (a := .imp f) fun env B s A hs => by subst hs; exact ⟨A.behaves.imp f s, rfl, rfl⟩

/-- Rendering a node inside a function. -/
theorem CanR.node {n : Node} {t' : Tape} (h : Can E t (fun rec => rec n) none t') :
    CanR E t (fun rec => rec n) none t' := by
  obtain ⟨os, f0, h⟩ := h
  refine ⟨os, f0 + 1, fun f hf g hg => ?_⟩
  obtain ⟨g, rfl⟩ : ∃ k, g = k + 1 := ⟨g - 1, by omega⟩
  exact h (g + 1) (by omega) g (by omega)

theorem Can.step {n : Node} {t' : Tape} (hn : ∀ ns f, n ≠ .yieldIterator ns f)
    (h : Can E t (fun rec => renderStep rec n) none t') : Can E t (fun rec => rec n) none t' := by
  obtain ⟨os, f0, h⟩ := h
  refine ⟨os, f0 + 1, fun f hf g hg env B => ?_⟩
  obtain ⟨f, rfl⟩ : ∃ k, f = k + 1 := ⟨f - 1, by omega⟩
  have : nested B (f + 1) n = renderStep (nested B f) n := by
    cases n with
    | yieldIterator ns f => exact absurd rfl (hn ns f)
    | _ => rfl
  simp only [this]
  exact h f (by omega) g (by omega) env B

/-- Rendering an `IterateYield` node. -/
theorem Can.stepYield {ns : List Node} {f : FnId} {t' : Tape} (he : t.frame.err = none) (hm : Moves t t')
    (h : Can E t (fun rec => runYield rec ns (E.yields f t).body { err := none, data := none, cargo := .nil }) () t') :
    Can E t (fun rec => rec (.yieldIterator ns f)) none t' := by
  have h' : Can E t (fun rec => do
      runYield rec ns (E.yields f t).body { err := none, data := none, cargo := .nil }
      Aitch.retErr) none t' := .bind h (.retErr (hm.1 he))
  obtain ⟨os, f0, h⟩ := h'
  refine ⟨os, f0 + 1, fun fu hf g hg env B s A hs hfo => ?_⟩
  obtain ⟨fu, rfl⟩ : ∃ k, fu = k + 1 := ⟨fu - 1, by omega⟩
  obtain ⟨s', h1, h2, h3⟩ := h fu (by omega) g (by omega) env B s A hs hfo
  subst hs
  refine ⟨s', ?_, h2, h3⟩
  have he : s.frame.err = none := he
  rw [← A.behaves.yields] at h1
  rw [← h1]
  show exec env (inlined B (renderWith B g) (renderYield B (nested B fu) ns f)) s = _
  simp only [renderYield, Do.ctx, Do.look, inlined_bind, inlined, exec_bind, exec, Action.run, he, Option.bind_some]

/-! Values and attributes -/

theorem Can.valueWrite (he : t.frame.err = none) (d : Bytes) :
    Can E t (fun _ => valueWrite d) (decide (d ≠ [])) (t.put d) := by
  have : decide (d ≠ []) = decide (d.length > 0) := by
    cases d <;> simp
  rw [this]
  exact .bind (L := fun _ => Do.write d) (.write d) (.bind (L := fun _ => Do.setErr none)
    (Can.setErr (t := t.put d) he) .pure)

theorem Can.own {d : Dyn} (hd : ∀ f, d ≠ .user f) : Can E t (fun _ => runDyn d) (ownBytes t.toCtx d) t := by
  cases d with
  | user f => exact absurd rfl (hd f)
  | key k =>
    unfold runDyn
    refine .bind (L := fun _ => Do.ctx) .ctx ?_
    simp only [ownBytes]
    cases t.toCtx.lookup k <;> exact .pure
  | cargo => exact .bind (L := fun _ => Do.ctx) .ctx .pure

theorem Can.ownCond {k : Cond} (hk : ∀ f, k ≠ .user f) : Can E t (fun _ => runCond k) (ownHolds t.toCtx k) t := by
  cases k with
  | user f => exact absurd rfl (hk f)
  | has k =>
    unfold runCond
    refine .bind (L := fun _ => Do.ctx) .ctx ?_
    simp only [ownHolds]
    cases t.toCtx.lookup k with
    | none => exact .pure
    | some v =>
      cases v with
      | bool b => cases b <;> exact .pure
      | _ => exact .pure
  | hasNot k =>
    unfold runCond
    refine .bind (L := fun _ => Do.ctx) .ctx ?_
    simp only [ownHolds]
    cases t.toCtx.lookup k with
    | none => exact .pure
    | some v =>
      cases v with
      | bool b => cases b <;> exact .pure
      | _ => exact .pure

theorem Can.delimNext {d : Bytes} {v : Value} {vs : List Value} {b : Bool} {t' : Tape} (he : t.frame.err = none)
    (h : Can E (if b then t.put d else t) (fun _ => renderDelimValues d (v :: vs) false) () t') :
    Can E t (fun _ => renderDelimValues d (v :: vs) b) () t' := by
  cases b
  · exact h
  · exact .bind (L := fun _ => Aitch.ctxWrite d) (.ctxWrite he d) h

theorem Can.delim {n d : Bytes} {vs : List Value} {t1 : Tape} (he : t.frame.err = none)
    (hm : Moves (t.put (b%" " ++ n ++ b%"=\"")) t1)
    (h : Can E (t.put (b%" " ++ n ++ b%"=\"")) (fun _ => renderDelimValues d vs false) () t1) :
    Can E t (fun _ => renderDelim n d vs) () (t1.put b%"\"") := by
  refine .bind (L := fun _ => Aitch.ctxWrite b%" ") (.ctxWrite he _) (.bind (L := fun _ => Aitch.ctxWrite n)
    (.ctxWrite (by exact he) _) (.bind (L := fun _ => Aitch.ctxWrite b%"=\"") (.ctxWrite (by exact he) _)
    (.bind (L := fun _ => renderDelimValues d vs false) (a := ()) (t1 := t1) ?_ (.ctxWrite (hm.1 he) _))))
  simpa [put_put] using h

theorem Can.valued {n : Bytes} {vs : List Value} {t1 : Tape} (he : t.frame.err = none)
    (hm : Moves (t.put (b%" " ++ n ++ b%"=\"")) t1)
    (h : Can E (t.put (b%" " ++ n ++ b%"=\"")) (fun _ => renderValues vs) () t1) :
    Can E t (fun _ => renderPlain n vs) () (t1.put b%"\"") := by
  refine .bind (L := fun _ => Aitch.ctxWrite b%" ") (.ctxWrite he _) (.bind (L := fun _ => Aitch.ctxWrite n)
    (.ctxWrite (by exact he) _) (.bind (L := fun _ => Aitch.ctxWrite b%"=\"") (.ctxWrite (by exact he) _)
    (.bind (L := fun _ => renderValues vs) (a := ()) (t1 := t1) ?_ (.ctxWrite (hm.1 he) _))))
  simpa [put_put] using h

/-- The code for one attribute with the further declarations of its name. -/
def renderOne : Attr × List Attr → Prog Unit
  | (a, []) => renderAttr a
  | (a, e :: es) => renderChosen a (e :: es) ((e :: es).getLast (by simp))

/-- The code for several. -/
def renderSome : List (Attr × List Attr) → Prog Unit
  | [] => pure ()
  | p :: l => renderOne p >>= fun _ => renderSome l

/-- Every one of a list, one after the other. -/
inductive CanSome (E : Tellers) : List (Attr × List Attr) → Tape → Tape → Prop
  | nil {t : Tape} : CanSome E [] t t
  | cons {p : Attr × List Attr} {l : List (Attr × List Attr)} {t t1 t2 : Tape} : Can E t (fun _ => renderOne p) () t1 →
      CanSome E l t1 t2 → CanSome E (p :: l) t t2

theorem CanSome.split {l l' : List (Attr × List Attr)} {t' : Tape} (h : CanSome E (l ++ l') t t') :
    ∃ tm, CanSome E l t tm ∧ CanSome E l' tm t' := by
  induction l generalizing t with
  | nil => exact ⟨t, .nil, h⟩
  | cons p l ih =>
    cases h with
    | cons h hs =>
      obtain ⟨tm, h1, h2⟩ := ih hs
      exact ⟨tm, .cons h h1, h2⟩

theorem CanSome.all {l : List (Attr × List Attr)} {t' : Tape} (h : CanSome E l t t') :
    Can E t (fun _ => renderSome l) () t' := by
  induction h with
  | nil => exact .pure
  | cons h _ ih => exact .bind (L := fun _ => renderOne _) h ih

theorem renderStatics_eq {h : ElemHead} (wf : WFHead h) (act as : List Attr) (ha : ∀ a ∈ as, a ∈ h.attributes) :
    renderStatics h (groupInto [] act) (as.map Attr.name) = renderSome (as.map fun a => (a, named a.name act)) := by
  induction as with
  | nil => rfl
  | cons a as ih =>
    simp only [List.map_cons, renderStatics, renderSome, ih fun x hx => ha x (by simp [hx])]
    congr 1
    obtain ⟨i, hi, hg⟩ := wf_lookup wf (ha a (by simp))
    simp only [renderStatic, hi, hg, lookup_group]
    cases hn : named a.name act with
    | nil => rfl
    | cons e es =>
      have h3 : (e :: es).getLast?.getD a = (e :: es).getLast (by simp) := by
        rw [List.getLast?_eq_some_getLast (by simp)]; rfl
      simp only [reduceCtorEq, if_false, renderOne, h3]

theorem renderFirst_eq (e : Attr) (es : List Attr) :
    renderChosen e es ((e :: es).getLast (by simp)) = renderOne (e, es) := by
  cases es with
  | nil => cases e <;> simp [renderChosen, renderOne, renderAttr]
  | cons e' es => simp [renderOne]

theorem renderExtras_eq {h : ElemHead} (wf : WFHead h) (act : List Attr) (ns : List Bytes) :
    renderExtras h (groupInto [] act) ns = renderSome (ns.filterMap (extraOf h.attributes act)) := by
  induction ns with
  | nil => rfl
  | cons n ns ih =>
    simp only [renderExtras, renderExtra, ih]
    by_cases hn : n ∈ h.attributes.map Attr.name
    · obtain ⟨a, ha, rfl⟩ := List.mem_map.mp hn
      obtain ⟨i, hi, hg⟩ := wf_lookup wf ha
      rw [List.filterMap_cons_none (by rw [extraOf, if_pos hn])]
      simp only [hi]
      rfl
    · simp only [wf_lookup_none wf hn, lookup_group]
      cases hm : named n act with
      | nil =>
        rw [List.filterMap_cons_none (by simp [extraOf, hm])]
        rfl
      | cons e es =>
        rw [List.filterMap_cons_some (b := (e, es)) (by simp only [extraOf, if_neg hn, hm])]
        have h3 : (e :: es).getLast?.getD e = (e :: es).getLast (by simp) := by
          rw [List.getLast?_eq_some_getLast (by simp)]; rfl
        simp only [reduceCtorEq, if_false, h3, renderFirst_eq, renderSome]

/-! Nodes -/

/-- Every node of a list, one after the other. -/
inductive CanAll (E : Tellers) : List Node → Tape → Tape → Prop
  | nil {t : Tape} : CanAll E [] t t
  | cons {n : Node} {ns : List Node} {t t1 t2 : Tape} : Moves t t1 → Can E t (fun rec => rec n) none t1 →
      CanAll E ns t1 t2 → CanAll E (n :: ns) t t2

theorem CanAll.moves {ns : List Node} {t' : Tape} (h : CanAll E ns t t') : Moves t t' := by
  induction h with
  | nil => exact Moves.refl _
  | cons h _ _ ih => exact h.trans ih

theorem Can.contentLoop (he : t.frame.err = none) {ns : List Node} {t' : Tape} (h : CanAll E ns t t') :
    Can E t (fun rec => contentLoop rec ns) () t' := by
  induction h with
  | nil => exact .pure
  | cons hm h _ ih => exact .bind h (.bind (L := fun _ => Do.setErr none) (.setErr (hm.1 he)) (ih (hm.1 he)))

theorem Can.conditionalLoop (he : t.frame.err = none) {ns : List Node} {t' : Tape} (h : CanAll E ns t t') :
    Can E t (fun rec => conditionalLoop rec ns) () t' := by
  induction h with
  | nil => exact .pure
  | cons hm h _ ih => exact .bind h (.bind (L := fun _ => Do.setErr none) (.setErr (hm.1 he)) (ih (hm.1 he)))

theorem Can.collectionLoop (he : t.frame.err = none) (ns : List Node) {t' : Tape}
    (h : CanAll E (ns.filter fun n => !n.isAttr) t t') : Can E t (fun rec => collectionLoop rec ns) () t' := by
  induction ns generalizing t with
  | nil => cases h; exact .pure
  | cons n ns ih =>
    unfold Aitch.collectionLoop
    by_cases ha : n.isAttr = true
    · rw [List.filter_cons_of_neg (by simp [ha])] at h
      simp only [ha, if_true]
      exact ih he h
    · rw [List.filter_cons_of_pos (by simp [ha])] at h
      simp only [ha]
      cases h with
      | cons hm h hs =>
        exact .bind h (.bind (L := fun _ => Do.setErr none) (.setErr (hm.1 he)) (ih (hm.1 he) hs))

theorem Can.ignoreLoop (ns : List (Option Node)) {t' : Tape} (h : CanAll E (contentNodes ns) t t') :
    Can E t (fun rec => ignoreLoop rec ns) () t' := by
  induction ns generalizing t with
  | nil => cases h; exact .pure
  | cons o ns ih =>
    cases o with
    | none => exact ih h
    | some n =>
      unfold Aitch.ignoreLoop
      by_cases ha : n.isAttr = true
      · have : contentNodes (some n :: ns) = contentNodes ns := by simp [contentNodes, ha]
        rw [this] at h
        simp only [ha, if_true]
        exact ih h
      · have : contentNodes (some n :: ns) = n :: contentNodes ns := by simp [contentNodes, ha]
        rw [this] at h
        simp only [ha]
        cases h with
        | cons _ h hs => exact .bind h (ih hs)

theorem Can.documentLoop {ns : List Node} {t' : Tape} (h : CanAll E ns t t') :
    Can E t (fun rec => documentLoop rec ns) () t' := by
  induction h with
  | nil => exact .pure
  | cons _ h _ ih => exact .bind h ih

theorem Can.iterNodes {ns : List Node} {t' : Tape} (h : CanAll E ns t t') :
    Can E t (fun rec => iterNodes rec ns) none t' := by
  induction h with
  | nil => exact .pure
  | cons _ h _ ih => exact .bind h ih

theorem Can.oneItem {ns : List Node} {d : Option MapId} {it : Any} {its : List Any} {fr fr' : Frame} {t1 t2 : Tape}
    (h : CanAll E ns (t.item fr it (itemData d it)) t1)
    (hs : Can E (inside (t.back t1) t1.frame) (fun rec => iterItems rec ns d its) none (inside t2 fr')) :
    Can E (inside t fr) (fun rec => iterItems rec ns d (it :: its)) none (inside t2 fr') := by
  have hb := inside_back (t := t) (t2 := t1) h.moves.2
  rw [← hb] at hs
  unfold Aitch.iterItems
  refine .bind (L := fun _ => Do.setItem it _) (.item it d) ?_
  refine .bind (L := fun rec => Aitch.iterNodes rec ns) (.iterNodes h) ?_
  exact hs

theorem Can.iterator (he : t.frame.err = none) {ns : List Node} {fn : ItemSrc} {its : List Any} {t1 t' : Tape}
    {fr : Frame} (hm : Moves t t1) (hi : Can E t (fun _ => runItems fn) its t1) (hn : its = [] → t' = t1)
    (h : Can E (inside t1 { err := none, data := none, cargo := .nil })
      (fun rec => iterItems rec ns t1.frame.data its) none (inside t' fr)) :
    Can E t (fun rec => renderIterator rec ns fn) none t' := by
  unfold Aitch.renderIterator
  refine .bind (L := fun _ => Do.ctx) .ctx ?_
  simp only [he]
  refine .bind (L := fun _ => runItems fn) hi ?_
  cases its with
  | nil =>
    rw [hn rfl]
    exact .pure
  | cons it its =>
    refine .bind (L := fun _ => Do.ctx) .ctx ?_
    simp only [hm.1 he]
    refine .bind (L := fun _ => Do.enter _) (.enter _) (.bind h (.bind (L := fun _ => Do.leave)
      (.leave (f := t'.frame) (fs := t'.parents) rfl) ?_))
    exact .pure

theorem Can.yielded {ns : List Node} {it : Any} {k : Tape → Spec.Stream.Yielding} {fr : Frame} {t1 t2 : Tape}
    (h : CanAll E ns (t.item fr it (itemData fr.data it)) t1)
    (hs : Can E (t.back t1) (fun rec => runYield rec ns (k (t.back t1)).body t1.frame) () t2) :
    Can E t (fun rec => runYield rec ns (Spec.Stream.Yielding.yield it k).body fr) () t2 := by
  have hp : t1.parents = t.frame :: t.parents := h.moves.2
  unfold Spec.Stream.Yielding.body Stream.runYield
  refine .bind (L := fun _ => Do.enter fr) (.enter fr) ?_
  refine .bind (L := fun _ => Do.setItem it _) (.item it fr.data) ?_
  refine .bind (L := fun rec => Aitch.iterNodes rec ns) (.iterNodes h) ?_
  refine .bind (L := fun _ => Do.leave) (t1 := t.back t1) (.leave hp) ?_
  exact .look (L := fun rec t => runYield rec ns (k t).body t1.frame) hs

theorem Can.called {op : ImpOp} {k : Tape → Spec.Stream.Doing} {stack stack' : List Bytes} {t1 t2 : Tape}
    (h : Can E t (fun rec => runOp rec op stack) stack' t1)
    (hs : Can E t1 (fun rec => runImp rec (k t1).body stack') none t2) :
    Can E t (fun rec => runImp rec (Spec.Stream.Doing.call op k).body stack) none t2 := by
  unfold Spec.Stream.Doing.body Aitch.runImp
  exact .bind h (.look (L := fun rec t => runImp rec (k t).body stack') hs)

/-- A start tag. -/
theorem Can.tag {h : ElemHead} {t' : Tape} (he : t.frame.err = none)
    (hm : Moves t t') (hs : Can E (t.put (b%"<" ++ h.name)) (fun _ => renderAttributes h) () t') :
    Can E t (fun _ => renderStartTag h) () (t'.put b%">") := by
  refine .bind (L := fun _ => Aitch.ctxWrite b%"<") (.ctxWrite he _) (.bind (L := fun _ => Aitch.ctxWrite _)
    (.ctxWrite (by exact he) _) (.bind (L := fun _ => renderAttributes _) (a := ()) (t1 := t') ?_ (.ctxWrite (hm.1 he) _)))
  simpa [put_put] using hs

theorem Can.attributesFixed {h : ElemHead} {t1 t2 : Tape}
    (ha : Can E t (fun _ => evaluate h.conditionals []) (groupInto [] []) t1) (hnil : h.conditionals = [] → t1 = t)
    (hs : Can E t1 (fun _ => renderAttrs h.attributes) () t2) : Can E t (fun _ => renderAttributes h) () t2 := by
  unfold Aitch.renderAttributes
  by_cases hc : h.conditionals.length > 0
  · simp only [if_pos hc]
    refine .bind (L := fun _ => evaluate h.conditionals []) ha ?_
    simp only [groupInto, List.foldl_nil, List.length_nil, gt_iff_lt, Nat.lt_irrefl, if_false]
    exact hs
  · simp only [if_neg hc]
    have := hnil (by cases hx : h.conditionals with
      | nil => rfl
      | cons a as => rw [hx] at hc; simp at hc)
    rw [← this]
    exact hs

theorem Can.attributesSome {h : ElemHead} (wf : WFHead h) {act : List Attr} {l₁ l₂ : List (Attr × List Attr)} {t1 t2 : Tape}
    (hne : act ≠ []) (hnil : h.conditionals ≠ [])
    (ha : Can E t (fun _ => evaluate h.conditionals []) (groupInto [] act) t1)
    (h1 : l₁.Perm (h.attributes.map fun a => (a, named a.name act))) (h2 : l₂.Perm (extraDeclarations h.attributes act))
    (hs : CanSome E (l₁ ++ l₂) t1 t2) : Can E t (fun _ => renderAttributes h) () t2 := by
  unfold Aitch.renderAttributes
  have hc : h.conditionals.length > 0 := by
    cases hx : h.conditionals with
    | nil => exact absurd hx hnil
    | cons a as => simp
  simp only [if_pos hc]
  refine .bind (L := fun _ => evaluate h.conditionals []) ha ?_
  have hk := keys_group act
  have hlen : (groupInto [] act).length > 0 := by
    have : ((groupInto [] act).map (·.1)).length > 0 := by
      rw [hk]
      cases act with
      | nil => exact absurd rfl hne
      | cons a as => simp [distinct]
    simpa using this
  simp only [if_pos hlen]
  obtain ⟨as', hp1, rfl⟩ := exists_perm_map _ _ _ h1
  rw [extraDeclarations_eq] at h2
  obtain ⟨ns', hp2, rfl⟩ := exists_perm_filterMap _ _ _ h2
  refine .bind (L := fun _ => Do.order _) (Can.order (o := as'.map Attr.name) (by rw [wf_keys wf]; exact hp1.map _)) ?_
  rw [renderStatics_eq wf act as' fun a h => hp1.mem_iff.mp h]
  obtain ⟨tm, hs1, hs2⟩ := hs.split
  refine .bind (L := fun _ => renderSome _) hs1.all (.bind (L := fun _ => Do.order _)
    (Can.order (o := ns') (by rw [hk]; exact hp2)) ?_)
  rw [renderExtras_eq wf act ns']
  exact hs2.all

end

theorem renderValue_parts (v : Bytes) (x : Value) (xs : List Value) :
    renderValue (.mk v none (x :: xs)) = (renderConcats (x :: xs) 0 >>= fun l => pure (decide (l > 0))) := by
  simp only [renderValue, renderConcats]
  rw [bind_assoc]

section
variable {E : Tellers}

mutual
theorem can_tells (K : Spec.Stream.Calm E) : {α : Type} → {p : Telling α} → {t : Tape} → {a : α} → {t' : Tape} →
    Tells E p t a t' → (P : α → Prop) → t.frame.err = none → p.Calm P →
    Moves t t' ∧ P a ∧ CanR E t (fun rec => p.body.run rec) a t'
  | _, _, _, _, _, .ret, P, he, hp => ⟨Moves.refl _, hp, CanG.pure⟩
  | _, _, _, _, _, @Tells.act _ α a upd k t t' h, P, he, hp => by
    obtain ⟨h1, h2, h3⟩ := can_tells K h P (hp.1 _ he) (hp.2 _)
    exact ⟨(Moves.act hp.1 t).trans h1, h2, canG_user (M := fun B _ g t => (k t).body.run (renderWith B g)) h3⟩
  | _, _, _, _, _, @Tells.write _ α a d k t t' h, P, he, hp => by
    obtain ⟨h1, h2, h3⟩ := can_tells K h P he (hp _)
    exact ⟨(Moves.put t d).trans h1, h2, CanG.bind (canG_write d)
      (canG_look (M := fun B _ g t => (k t).body.run (renderWith B g)) h3)⟩
  | _, _, _, _, _, @Tells.render _ α a n k t t1 t' hn h, P, he, hp => by
    obtain ⟨hm, hc⟩ := can_node K hn he hp.1
    obtain ⟨h1, h2, h3⟩ := can_tells K h P (hm.1 he) (hp.2 _)
    exact ⟨hm.trans h1, h2, CanR.bind (CanR.node hc)
      (canG_look (M := fun B _ g t => (k t).body.run (renderWith B g)) h3)⟩
theorem can_value (K : Spec.Stream.Calm E) : {v : Value} → {t : Tape} → {b : Bool} → {t' : Tape} →
    StreamsValue E v t b t' → t.frame.err = none → Moves t t' ∧ Can E t (fun _ => renderValue v) b t'
  | _, _, _, _, @StreamsValue.fn _ v f vs t w t1 h, he => by
    obtain ⟨h1, -, h3⟩ := can_tells K h _ he (K.dyn f t)
    exact ⟨h1.trans (Moves.put _ _), .bind (L := fun _ => runDyn (.user f)) (.dyn h3) (.valueWrite (h1.1 he) w)⟩
  | _, _, _, _, @StreamsValue.own _ v d vs t hd, he =>
    ⟨Moves.put _ _, .bind (L := fun _ => runDyn d) (.own hd) (.valueWrite he _)⟩
  | _, _, _, _, @StreamsValue.static _ v t, he => ⟨Moves.put _ _, .valueWrite he v⟩
  | _, _, _, _, @StreamsValue.parts _ v x xs t b t1 h, he => by
    obtain ⟨h1, -, h2⟩ := can_values K h he
    obtain ⟨r, hr, h3⟩ := h2 0
    refine ⟨h1, ?_⟩
    rw [renderValue_parts]
    have hb : b = decide (r > 0) := by
      cases b <;> simp_all
    rw [hb]
    exact .bind (L := fun _ => renderConcats (x :: xs) 0) h3 .pure
theorem can_values (K : Spec.Stream.Calm E) : {vs : List Value} → {t : Tape} → {b : Bool} → {t' : Tape} →
    StreamsValues E vs t b t' → t.frame.err = none → Moves t t' ∧ Can E t (fun _ => renderValues vs) () t' ∧
      ∀ l, ∃ r, (r > 0 ↔ l > 0 ∨ b = true) ∧ Can E t (fun _ => renderConcats vs l) r t'
  | _, _, _, _, .nil, he => ⟨Moves.refl _, .pure, fun l => ⟨l, by simp, .pure⟩⟩
  | _, _, _, _, @StreamsValues.cons _ v vs t b t1 b' t2 h hs, he => by
    obtain ⟨h1, h2⟩ := can_value K h he
    obtain ⟨h3, h4, h5⟩ := can_values K hs (h1.1 he)
    refine ⟨h1.trans h3, .bind (L := fun _ => renderValue v) h2 h4, fun l => ?_⟩
    obtain ⟨r, hr, h6⟩ := h5 (if b then l + 1 else l)
    refine ⟨r, ?_, .bind (L := fun _ => renderValue v) h2 h6⟩
    rw [hr]
    cases b <;> cases b' <;> simp
theorem can_delim (K : Spec.Stream.Calm E) : {d : Bytes} → {vs : List Value} → {t t' : Tape} →
    StreamsDelim E d vs t t' → t.frame.err = none → Moves t t' ∧ Can E t (fun _ => renderDelimValues d vs false) () t'
  | _, _, _, _, .nil, he => ⟨Moves.refl _, .pure⟩
  | _, _, _, _, @StreamsDelim.last _ d v t b t1 h, he => by
    obtain ⟨h1, h2⟩ := can_value K h he
    exact ⟨h1, .bind (L := fun _ => renderValue v) h2 .pure⟩
  | _, _, _, _, @StreamsDelim.cons _ d v v' vs t b t1 t2 h hs, he => by
    obtain ⟨h1, h2⟩ := can_value K h he
    obtain ⟨h3, h4⟩ := can_delim K hs (by cases b <;> exact h1.1 he)
    refine ⟨h1.trans (Moves.trans ?_ h3), .bind (L := fun _ => renderValue v) h2 (.delimNext (h1.1 he) h4)⟩
    cases b
    · exact Moves.refl _
    · exact Moves.put _ _
theorem can_attr (K : Spec.Stream.Calm E) : {a : Attr} → {t t' : Tape} →
    StreamsAttr E a t t' → t.frame.err = none → Moves t t' ∧ Can E t (fun _ => renderAttr a) () t'
  | _, _, _, @StreamsAttr.plain _ n vs t b t1 h, he => by
    obtain ⟨h1, h2, -⟩ := can_values K h he
    exact ⟨(Moves.put _ _).trans (h1.trans (Moves.put _ _)), .valued he h1 h2⟩
  | _, _, _, @StreamsAttr.bool _ n t, he =>
    ⟨Moves.put _ _, .to (.bind (L := fun _ => ctxWrite b%" ") (.ctxWrite he _) (.ctxWrite (by exact he) _))
      (by simp [put_put])⟩
  | _, _, _, @StreamsAttr.delim _ n d r t t1 h, he => by
    obtain ⟨h1, h2⟩ := can_delim K h he
    exact ⟨(Moves.put _ _).trans (h1.trans (Moves.put _ _)), .bind (L := fun _ => Do.ctx) .ctx (.delim he h1 h2)⟩
theorem can_attrs (K : Spec.Stream.Calm E) : {as : List Attr} → {t t' : Tape} →
    StreamsAttrs E as t t' → t.frame.err = none → Moves t t' ∧ Can E t (fun _ => renderAttrs as) () t'
  | _, _, _, .nil, he => ⟨Moves.refl _, .pure⟩
  | _, _, _, @StreamsAttrs.cons _ a as t t1 t2 h hs, he => by
    obtain ⟨h1, h2⟩ := can_attr K h he
    obtain ⟨h3, h4⟩ := can_attrs K hs (h1.1 he)
    exact ⟨h1.trans h3, .bind (L := fun _ => renderAttr a) h2 h4⟩
theorem can_merged (K : Spec.Stream.Calm E) : {l : List (Attr × List Attr)} → {t t' : Tape} →
    StreamsMerged E l t t' → t.frame.err = none → Moves t t' ∧ CanSome E l t t'
  | _, _, _, .nil, he => ⟨Moves.refl _, .nil⟩
  | _, _, _, @StreamsMerged.alone _ a l t t1 t2 h hs, he => by
    obtain ⟨h1, h2⟩ := can_attr K h he
    obtain ⟨h3, h4⟩ := can_merged K hs (h1.1 he)
    exact ⟨h1.trans h3, .cons h2 h4⟩
  | _, _, _, @StreamsMerged.joined _ n d r e es l t t1 t2 h hs, he => by
    obtain ⟨h1, h2⟩ := can_delim K h he
    obtain ⟨h3, h4⟩ := can_merged K hs (h1.1 he)
    exact ⟨(Moves.put _ _).trans (h1.trans ((Moves.put _ _).trans h3)),
      .cons (.bind (L := fun _ => Do.ctx) .ctx (.delim he h1 h2)) h4⟩
  | _, _, _, @StreamsMerged.replaced _ a e es l t t1 t2 ha h hs, he => by
    obtain ⟨h1, h2⟩ := can_attr K h he
    obtain ⟨h3, h4⟩ := can_merged K hs (h1.1 he)
    refine ⟨h1.trans h3, .cons ?_ h4⟩
    cases a with
    | delim n d r => exact absurd rfl (ha n d r)
    | plain n vs => exact h2
    | bool n => exact h2
theorem can_cond (K : Spec.Stream.Calm E) : {k : Cond} → {t : Tape} → {b : Bool} → {t' : Tape} →
    StreamsCond E k t b t' → t.frame.err = none → Moves t t' ∧ Can E t (fun _ => runCond k) b t'
  | _, _, _, _, @StreamsCond.fn _ f t b t1 h, he => by
    obtain ⟨h1, -, h3⟩ := can_tells K h _ he (K.cond f t)
    exact ⟨h1, .cond h3⟩
  | _, _, _, _, @StreamsCond.own _ k t hk, he => ⟨Moves.refl _, .ownCond hk⟩
theorem can_conds (K : Spec.Stream.Calm E) : {ks : List Cond} → {t : Tape} → {b : Bool} → {t' : Tape} →
    StreamsConds E ks t b t' → t.frame.err = none → Moves t t' ∧ Can E t (fun _ => evalConds ks) b t'
  | _, _, _, _, .nil, he => ⟨Moves.refl _, .pure⟩
  | _, _, _, _, @StreamsConds.no _ k ks t t1 h, he => by
    obtain ⟨h1, h2⟩ := can_cond K h he
    exact ⟨h1, .bind (L := fun _ => runCond k) h2 .pure⟩
  | _, _, _, _, @StreamsConds.yes _ k ks t t1 b t2 h hs, he => by
    obtain ⟨h1, h2⟩ := can_cond K h he
    obtain ⟨h3, h4⟩ := can_conds K hs (h1.1 he)
    exact ⟨h1.trans h3, .bind (L := fun _ => runCond k) h2 h4⟩
theorem can_active (K : Spec.Stream.Calm E) : {cas : List CondAttr} → {t : Tape} → {act : List Attr} → {t' : Tape} →
    StreamsActive E cas t act t' → t.frame.err = none →
    Moves t t' ∧ (cas = [] → act = [] ∧ t' = t) ∧ ∀ acc, Can E t (fun _ => evaluate cas acc) (groupInto acc act) t'
  | _, _, _, _, .nil, he => ⟨Moves.refl _, fun _ => ⟨rfl, rfl⟩, fun _ => .pure⟩
  | _, _, _, _, @StreamsActive.cons _ a as t b t1 act t2 h hs, he => by
    obtain ⟨h1, h2⟩ := can_conds K h he
    obtain ⟨h3, -, h4⟩ := can_active K hs (h1.1 he)
    refine ⟨h1.trans h3, fun h => by simp at h, fun acc => ?_⟩
    cases b
    · exact .bind (L := fun _ => evalConds a.conditions) h2 (h4 _)
    · exact .bind (L := fun _ => evalConds a.conditions) h2 (h4 _)
theorem can_tag (K : Spec.Stream.Calm E) : {h : ElemHead} → {t t' : Tape} →
    StreamsTag E h t t' → t.frame.err = none → WFHead h → Moves t t' ∧ Can E t (fun _ => renderStartTag h) () t'
  | _, _, _, @StreamsTag.fixed _ h t t1 t2 ha hs, he, wf => by
    obtain ⟨h1, hn, h2⟩ := can_active K ha he
    obtain ⟨h3, h4⟩ := can_attrs K hs (h1.1 he)
    have hm := (Moves.put t (b%"<" ++ h.name)).trans (h1.trans h3)
    exact ⟨hm.trans (Moves.put _ _), .tag he hm (.attributesFixed (h2 []) (fun h => (hn h).2) h4)⟩
  | _, _, _, @StreamsTag.some _ h t act t1 l₁ l₂ t2 ha hne p1 p2 hs, he, wf => by
    obtain ⟨h1, hn, h2⟩ := can_active K ha he
    obtain ⟨h3, h4⟩ := can_merged K hs (h1.1 he)
    have hm := (Moves.put t (b%"<" ++ h.name)).trans (h1.trans h3)
    exact ⟨hm.trans (Moves.put _ _), .tag he hm (.attributesSome wf hne (fun h => hne (hn h).1) (h2 []) p1 p2 h4)⟩
theorem can_started (K : Spec.Stream.Calm E) : {l : List (Bytes × Option (List Value))} → {t t' : Tape} →
    StreamsStarted E l t t' → t.frame.err = none → Moves t t' ∧ Can E t (fun _ => startWrite l) () t'
  | _, _, _, .nil, he => ⟨Moves.refl _, .pure⟩
  | _, _, _, @StreamsStarted.bool _ n l t t1 h, he => by
    obtain ⟨h1, h2⟩ := can_started K h he
    refine ⟨(Moves.put _ _).trans h1, .bind (L := fun _ => ctxWrite b%" ") (.ctxWrite he _)
      (.bind (L := fun _ => ctxWrite n) (.ctxWrite (by exact he) _) ?_)⟩
    have h3 : Can E (t.put (b%" " ++ n)) (fun _ => startWriteValue none >>= fun _ => startWrite l) () t1 := h2
    simpa [put_put] using h3
  | _, _, _, @StreamsStarted.valued _ n vs l t b t1 t2 h hs, he => by
    obtain ⟨h1, h2, -⟩ := can_values K h he
    obtain ⟨h3, h4⟩ := can_started K hs (h1.1 he)
    refine ⟨(Moves.put _ _).trans (h1.trans ((Moves.put _ _).trans h3)), ?_⟩
    refine .bind (L := fun _ => ctxWrite b%" ") (.ctxWrite he _) (.bind (L := fun _ => ctxWrite n)
      (.ctxWrite (by exact he) _) (.bind (L := fun _ => startWriteValue (some vs)) (a := ()) ?_ h4))
    refine .bind (L := fun _ => ctxWrite b%"=\"") (.ctxWrite (by exact he) _) (.bind (L := fun _ => renderValues vs) (a := ())
      (t1 := t1) ?_ (.ctxWrite (h1.1 he) _))
    simpa [put_put] using h2
theorem can_node (K : Spec.Stream.Calm E) : {n : Node} → {t t' : Tape} → Streams E n t t' → t.frame.err = none → WF n →
    Moves t t' ∧ Can E t (fun rec => rec n) none t'
  | _, _, _, @Streams.element _ h cs t t1 t2 ht hs, he, wf => by
    obtain ⟨h1, h2⟩ := can_tag K ht he wf.1
    have hc := can_nodes K hs (h1.1 he) wf.2
    have he2 := hc.moves.1 (h1.1 he)
    exact ⟨h1.trans (hc.moves.trans (Moves.put _ _)), .step nofun (.bind (L := fun _ => renderStartTag h) h2
      (.bind (.contentLoop (h1.1 he) hc) (.bind (L := fun _ => renderEndTag h.name) (.endTag he2 _)
        (.retErr (by exact he2)))))⟩
  | _, _, _, @Streams.voidElement _ h t t1 ht, he, wf => by
    obtain ⟨h1, h2⟩ := can_tag K ht he wf
    exact ⟨h1, .step nofun (.bind (L := fun _ => renderStartTag h) h2 (.retErr (h1.1 he)))⟩
  | _, _, _, @Streams.attr _ a t t1 ha, he, wf => by
    obtain ⟨h1, h2⟩ := can_attr K ha he
    exact ⟨h1, .step nofun (.bind (L := fun _ => renderAttr a) h2 (.retErr (h1.1 he)))⟩
  | _, _, _, @Streams.text _ vs t b t1 h, he, wf => by
    obtain ⟨h1, h2, -⟩ := can_values K h he
    exact ⟨h1, .step nofun (.bind (L := fun _ => renderValues vs) h2 (.retErr (h1.1 he)))⟩
  | _, _, _, @Streams.comment _ vs t b t1 h, he, wf => by
    obtain ⟨h1, h2, -⟩ := can_values K h he
    exact ⟨(Moves.put _ _).trans (h1.trans (Moves.put _ _)), .step nofun (.bind (L := fun _ => ctxWrite b%"<!--") (.ctxWrite he _)
      (.bind (L := fun _ => renderValues vs) h2 (.bind (L := fun _ => ctxWrite b%"-->") (.ctxWrite (h1.1 he) _)
        (.retErr (by exact h1.1 he)))))⟩
  | _, _, _, @Streams.fragment _ vs t b t1 h, he, wf => by
    obtain ⟨h1, h2, -⟩ := can_values K h he
    exact ⟨h1, .step nofun (.bind (L := fun _ => renderValues vs) h2 (.retErr (h1.1 he)))⟩
  | _, _, _, @Streams.pi _ name vs t b t1 h, he, wf => by
    obtain ⟨h1, h2, -⟩ := can_values K h he
    refine ⟨(Moves.put _ _).trans (h1.trans (Moves.put _ _)), .step nofun (.bind (L := fun _ => ctxWrite b%"<!") (.ctxWrite he _)
      (.bind (L := fun _ => ctxWrite name) (.ctxWrite (by exact he) _) (.bind (L := fun _ => ctxWrite b%" ")
        (.ctxWrite (by exact he) _) (.bind (L := fun _ => renderValues vs) (a := ()) (t1 := t1) ?_
          (.bind (L := fun _ => ctxWrite b%">\n") (.ctxWrite (h1.1 he) _) (.retErr (by exact h1.1 he)))))))⟩
    simpa [put_put] using h2
  | _, _, _, @Streams.collection _ ns t t1 hs, he, wf => by
    have hc := can_nodes K hs he (wfAll_filter wf _)
    exact ⟨hc.moves, .step nofun (.bind (.collectionLoop he ns hc) (.retErr (hc.moves.1 he)))⟩
  | _, _, _, @Streams.conditionalOn _ ns as fn t t1 t2 hb hs, he, wf => by
    obtain ⟨h1, h2⟩ := can_cond K hb he
    have hc := can_nodes K hs (h1.1 he) wf
    exact ⟨h1.trans hc.moves, .step nofun (.bind (L := fun _ => runCond fn) h2
      (.bind (.conditionalLoop (h1.1 he) hc) (.retErr (hc.moves.1 (h1.1 he)))))⟩
  | _, _, _, @Streams.conditionalOff _ ns as fn t t1 hb, he, wf => by
    obtain ⟨h1, h2⟩ := can_cond K hb he
    exact ⟨h1, .step nofun (.bind (L := fun _ => runCond fn) h2
      (.bind (L := fun _ => pure ()) (a := ()) .pure (.retErr (h1.1 he))))⟩
  | _, _, _, @Streams.collector _ f t ns t1 t2 h hs, he, wf => by
    obtain ⟨h1, hw, h2⟩ := can_tells K h _ he (K.collect f t)
    have hc := can_nodes K hs (h1.1 he) (wfAll_contentNodes hw)
    exact ⟨h1.trans hc.moves, .step nofun (.bind (L := fun _ => Do.collect f) (.collect h2)
      (.bind (.ignoreLoop _ hc) (.retErr (hc.moves.1 (h1.1 he)))))⟩
  | _, _, _, .imperativeNil, he, wf => ⟨Moves.refl _, .step nofun .pure⟩
  | _, _, _, @Streams.imperative _ f t t1 h, he, wf => by
    obtain ⟨h1, h2⟩ := can_doing K h he (K.imp f t)
    exact ⟨h1, .step nofun (.bind (L := fun _ => Do.imp f) (.imp f) h2)⟩
  | _, _, _, @Streams.iterator _ ns fn t its t1 t2 fr hi hs, he, wf => by
    obtain ⟨h1, h2⟩ := can_items K hi he
    obtain ⟨h3, h4, h5⟩ := can_each K hs rfl wf
    exact ⟨h1.trans h3, .step nofun (.iterator he h1 h2 h4 h5)⟩
  | _, _, _, @Streams.yieldIterator _ ns f t t1 h, he, wf => by
    obtain ⟨h1, h2⟩ := can_yields K h he rfl wf (K.yields f t)
    exact ⟨h1, .stepYield he h1 h2⟩
  | _, _, _, @Streams.document _ p cs t t1 hs, he, wf => by
    have hc := can_nodes K hs he (by cases p <;> exact wf)
    exact ⟨hc.moves, .step nofun (.bind (.documentLoop hc) (.retErr (hc.moves.1 he)))⟩
theorem can_nodes (K : Spec.Stream.Calm E) : {ns : List Node} → {t t' : Tape} → StreamsAll E ns t t' →
    t.frame.err = none → WFAll ns → CanAll E ns t t'
  | _, _, _, .nil, _, _ => .nil
  | _, _, _, .cons h hs, he, wf =>
    .cons (can_node K h he wf.1).1 (can_node K h he wf.1).2 (can_nodes K hs ((can_node K h he wf.1).1.1 he) wf.2)
theorem can_items (K : Spec.Stream.Calm E) : {fn : ItemSrc} → {t : Tape} → {its : List Any} → {t' : Tape} →
    StreamsItems E fn t its t' → t.frame.err = none → Moves t t' ∧ Can E t (fun _ => runItems fn) its t'
  | _, _, _, _, @StreamsItems.fn _ f t its t1 h, he => by
    obtain ⟨h1, -, h2⟩ := can_tells K h _ he (K.items f t)
    exact ⟨h1, .items h2⟩
  | _, _, _, _, @StreamsItems.key _ k t, he => ⟨Moves.refl _, .bind (L := fun _ => Do.ctx) .ctx .pure⟩
theorem can_each (K : Spec.Stream.Calm E) : {ns : List Node} → {d : Option MapId} → {its : List Any} → {t : Tape} →
    {fr : Frame} → {t' : Tape} → {fr' : Frame} → StreamsEach E ns d its t fr t' fr' → fr.err = none → WFAll ns →
    Moves t t' ∧ (its = [] → t' = t) ∧ Can E (inside t fr) (fun rec => iterItems rec ns d its) none (inside t' fr')
  | _, _, _, _, _, _, _, .nil, _, _ => ⟨Moves.refl _, fun _ => rfl, .pure⟩
  | _, _, _, _, _, _, _, @StreamsEach.cons _ ns d it its t fr t1 t2 fr' h hs, he, wf => by
    have hc := can_nodes K h he wf
    obtain ⟨h1, -, h2⟩ := can_each K hs (hc.moves.1 he) wf
    exact ⟨Moves.trans ⟨fun h => h, rfl⟩ h1, fun h => by simp at h, .oneItem hc h2⟩
theorem can_yields (K : Spec.Stream.Calm E) : {ns : List Node} → {y : Spec.Stream.Yielding} → {t : Tape} → {fr : Frame} →
    {t' : Tape} → StreamsYields E ns y t fr t' → t.frame.err = none → fr.err = none → WFAll ns → y.Calm →
    Moves t t' ∧ Can E t (fun rec => runYield rec ns y.body fr) () t'
  | _, _, _, _, _, .done, _, _, _, _ => ⟨Moves.refl _, .pure⟩
  | _, _, _, _, _, @StreamsYields.yield _ ns it k t fr t1 t2 h hs, he, hf, wf, hy => by
    have hc := can_nodes K h hf wf
    obtain ⟨h1, h2⟩ := can_yields K hs he (hc.moves.1 hf) wf (hy _)
    exact ⟨Moves.trans ⟨fun h => h, rfl⟩ h1, .yielded hc h2⟩
  | _, _, _, _, _, @StreamsYields.act _ ns upd k t fr t1 h, he, hf, wf, hy => by
    obtain ⟨h1, h2⟩ := can_yields K h (hy.1 _ he) hf wf (hy.2 _)
    exact ⟨(Moves.act hy.1 t).trans h1, .user (L := fun rec t => runYield rec ns (k t).body fr) h2⟩
  | _, _, _, _, _, @StreamsYields.write _ ns d k t fr t1 h, he, hf, wf, hy => by
    obtain ⟨h1, h2⟩ := can_yields K h he hf wf (hy _)
    exact ⟨(Moves.put t d).trans h1, .bind (L := fun _ => Do.write d) (.write d)
      (.look (L := fun rec t => runYield rec ns (k t).body fr) h2)⟩
  | _, _, _, _, _, @StreamsYields.render _ ns n k t fr t1 t2 hn h, he, hf, wf, hy => by
    obtain ⟨hm, hc⟩ := can_node K hn he hy.1
    obtain ⟨h1, h2⟩ := can_yields K h (hm.1 he) hf wf (hy.2 _)
    exact ⟨hm.trans h1, .bind hc (.look (L := fun rec t => runYield rec ns (k t).body fr) h2)⟩
theorem can_doing (K : Spec.Stream.Calm E) : {p : Spec.Stream.Doing} → {stack : List Bytes} → {t t' : Tape} →
    StreamsDoing E p stack t t' → t.frame.err = none → p.Calm →
    Moves t t' ∧ Can E t (fun rec => runImp rec p.body stack) none t'
  | _, _, _, _, .done, _, _ => ⟨Moves.refl _, .pure⟩
  | _, _, _, _, @StreamsDoing.act _ upd k stack t t1 h, he, hp => by
    obtain ⟨h1, h2⟩ := can_doing K h (hp.1 _ he) (hp.2 _)
    exact ⟨(Moves.act hp.1 t).trans h1, .user (L := fun rec t => runImp rec (k t).body stack) h2⟩
  | _, _, _, _, @StreamsDoing.write _ d k stack t t1 h, he, hp => by
    obtain ⟨h1, h2⟩ := can_doing K h he (hp _)
    exact ⟨(Moves.put t d).trans h1, .bind (L := fun _ => Do.write d) (.write d)
      (.look (L := fun rec t => runImp rec (k t).body stack) h2)⟩
  | _, _, _, _, @StreamsDoing.render _ n k stack t t1 t2 hn h, he, hp => by
    obtain ⟨hm, hc⟩ := can_node K hn he hp.1
    obtain ⟨h1, h2⟩ := can_doing K h (hm.1 he) (hp.2 _)
    exact ⟨hm.trans h1, .bind hc (.look (L := fun rec t => runImp rec (k t).body stack) h2)⟩
  | _, _, _, _, @StreamsDoing.writeString _ d k stack t t1 h, he, hp => by
    obtain ⟨h1, h2⟩ := can_doing K h he (hp.2 _)
    exact ⟨(Moves.put t _).trans h1, .called (.bind (L := fun _ => ctxWrite _) (.ctxWrite he _) .pure) h2⟩
  | _, _, _, _, @StreamsDoing.writeRaw _ d k stack t t1 h, he, hp => by
    obtain ⟨h1, h2⟩ := can_doing K h he (hp.2 _)
    exact ⟨(Moves.put t _).trans h1, .called (.bind (L := fun _ => ctxWrite _) (.ctxWrite he _) .pure) h2⟩
  | _, _, _, _, @StreamsDoing.writeNodes _ ns k stack t t1 t2 hs h, he, hp => by
    have hc := can_nodes K hs he (wfAll_contentNodes fun n hn => hp.1 ns n rfl hn)
    obtain ⟨h1, h2⟩ := can_doing K h (hc.moves.1 he) (hp.2 _)
    exact ⟨hc.moves.trans h1, .called (.bind (.ignoreLoop _ hc) .pure) h2⟩
  | _, _, _, _, @StreamsDoing.start _ n isVoid attrs k stack t t1 t2 hs h, he, hp => by
    obtain ⟨h3, h4⟩ := can_started K hs he
    obtain ⟨h1, h2⟩ := can_doing K h (h3.1 he) (hp.2 _)
    refine ⟨(Moves.put t _).trans (h3.trans ((Moves.put _ _).trans h1)), .called (.bind (L := fun _ => startTag n attrs)
      (a := ()) ?_ .pure) h2⟩
    refine .bind (L := fun _ => ctxWrite b%"<") (.ctxWrite he _) (.bind (L := fun _ => ctxWrite n)
      (.ctxWrite (by exact he) _) (.bind (L := fun _ => Do.ctx) .ctx (.bind (L := fun _ => startWrite _) (a := ()) (t1 := t1) ?_
        (.ctxWrite (h3.1 he) _))))
    have h5 : Can E (t.put (b%"<" ++ n)) (fun _ => startWrite (startCollect (t.put (b%"<" ++ n)).dl attrs [])) () t1 := h4
    simpa [put_put] using h5
  | _, _, _, _, .endNone h, he, hp => by
    obtain ⟨h1, h2⟩ := can_doing K h he (hp.2 _)
    exact ⟨h1, .called .pure h2⟩
  | _, _, _, _, .endSome h, he, hp => by
    obtain ⟨h1, h2⟩ := can_doing K h he (hp.2 _)
    exact ⟨(Moves.put _ _).trans h1, .called (.bind (L := fun _ => renderEndTag _) (.endTag he _) .pure) h2⟩
  | _, _, _, _, @StreamsDoing.endAll _ k stack t t1 h, he, hp => by
    obtain ⟨h1, h2⟩ := can_doing K h he (hp.2 _)
    exact ⟨(Moves.put _ _).trans h1, .called (.bind (L := fun _ => Aitch.endAll stack) (.endTags he _) .pure) h2⟩
end

end

/-- User functions that do what is told by `E`. -/
def bodiesOf (E : Tellers) : Bodies where
  dyn f s := (E.dyn f (tape s)).body
  cond f s := (E.cond f (tape s)).body
  collect f s := (E.collect f (tape s)).body
  items f s := (E.items f (tape s)).body
  yields f s := (E.yields f (tape s)).body

/-- An environment with a healthy writer, functions `E`, and the given orders. -/
noncomputable def envOfTellers (E : Tellers) (os : List (List Bytes)) : Env where
  write _ d := (d.length, none)
  dyn _ s := ([], s)
  cond _ s := (false, s)
  collect _ s := ([], s)
  items _ s := ([], s)
  yields _ _ := .done
  imp f s := (E.imp f (tape s)).body
  order t ks := open Classical in if (os[t]?.getD ks).Perm ks then os[t]?.getD ks else ks
  order_perm t ks := by
    split
    · assumption
    · exact .refl _

theorem alive_envOfTellers {E : Tellers} (K : Spec.Stream.Calm E) (os : List (List Bytes)) :
    Alive (envOfTellers E os) (bodiesOf E) E where
  healthy _ _ := rfl
  behaves := ⟨fun _ _ => rfl, fun _ _ => rfl, fun _ _ => rfl, fun _ _ => rfl, fun _ _ => rfl, fun _ _ => rfl⟩
  calm := K

/-- A state with a given tape. -/
def stateOf (t : Tape) : St := (⟨t.toCtx, [], 0⟩ : St).wrote t.out (t.out.length, none)

theorem tape_stateOf (t : Tape) : tape (stateOf t) = t := by
  have := out_wrote (⟨t.toCtx, [], 0⟩ : St) t.out
  simp only [tape, stateOf, this]
  rfl

/-- Whatever `Streams` allows is done by some run. -/
theorem run_of_streams {E : Tellers} (K : Spec.Stream.Calm E) {n : Node} (wf : WF n) {t t' : Tape} (he : t.frame.err = none)
    (h : Streams E n t t') :
    ∃ env B, Alive env B E ∧ ∃ s s', tape s = t ∧ Ends env B n s none s' ∧ tape s' = t' := by
  obtain ⟨-, os, f0, h⟩ := can_node K h he wf
  obtain ⟨s', h1, h2, -⟩ := h (f0 + 1) (by omega) f0 (by omega) (envOfTellers E os) (bodiesOf E) (stateOf t)
    (alive_envOfTellers K os) (tape_stateOf t) (by
      intro i o hi ks hk
      have : (stateOf t).tick = 0 := rfl
      simp [envOfTellers, hi, hk.symm, this])
  exact ⟨_, _, alive_envOfTellers K os, stateOf t, s', tape_stateOf t, ⟨f0 + 1, by
    have : renderWith (bodiesOf E) (f0 + 1) n = inlined (bodiesOf E) (renderWith (bodiesOf E) f0) (nested (bodiesOf E) (f0 + 1) n) := rfl
    rw [this]
    exact h1⟩, h2⟩

end Aitch.Stream

import Verif.Proofs.Order
import Verif.Spec.Stream
/-
Rendering with functions that write follows the document order, on one tape.
-/
namespace Aitch.Stream
open Aitch.Spec Aitch.Spec.Stream

theorem bind_assoc {α β γ : Type} (m : Prog α) (f : α → Prog β) (g : β → Prog γ) :
    ((m >>= f) >>= g) = (m >>= fun a => f a >>= g) := by
  change (m.bind f).bind g = m.bind fun a => (f a).bind g
  induction m with
  | pure a => rfl
  | step a k ih => simp only [Prog.bind, ih]
  | stuck => rfl

theorem inlined_bind {α β : Type} (B : Bodies) (rec : Render) (m : Prog α) (f : α → Prog β) :
    inlined B rec (m >>= f) = inlined B rec m >>= fun a => inlined B rec (f a) := by
  change inlined B rec (m.bind f) = _
  induction m with
  | pure a => rfl
  | stuck => rfl
  | step a k ih =>
    cases a
    case dyn f =>
      simp only [Prog.bind, inlined, bind_assoc]
      exact congrArg (Do.look >>= ·) (funext fun s => congrArg (_ >>= ·) (funext fun r => ih r))
    case cond f =>
      simp only [Prog.bind, inlined, bind_assoc]
      exact congrArg (Do.look >>= ·) (funext fun s => congrArg (_ >>= ·) (funext fun r => ih r))
    case collect f =>
      simp only [Prog.bind, inlined, bind_assoc]
      exact congrArg (Do.look >>= ·) (funext fun s => congrArg (_ >>= ·) (funext fun r => ih r))
    case items f =>
      simp only [Prog.bind, inlined, bind_assoc]
      exact congrArg (Do.look >>= ·) (funext fun s => congrArg (_ >>= ·) (funext fun r => ih r))
    all_goals
      simp only [Prog.bind, inlined, ih]
      rfl

/-- If `m` started on tape `t` ends, its result and the tape satisfy `Q`. -/
def TR {α : Type} (env : Env) (t : Tape) (m : Prog α) (Q : α → Tape → Prop) : Prop :=
  ∀ s r s', tape s = t → exec env m s = some (r, s') → Q r (tape s')

section
variable {α β : Type} {env : Env} {t : Tape}

theorem TR.pure {a : α} {Q : α → Tape → Prop} (h : Q a t) : TR env t (Pure.pure a) Q := by
  intro s r s' hs he
  rw [exec_pure] at he
  simp only [Option.some.injEq, Prod.mk.injEq] at he
  obtain ⟨rfl, rfl⟩ := he
  exact hs ▸ h

theorem TR.bind {m : Prog α} {f : α → Prog β} {Q1 : α → Tape → Prop} {Q : β → Tape → Prop} (hm : TR env t m Q1)
    (hf : ∀ a t1, Q1 a t1 → TR env t1 (f a) Q) : TR env t (m >>= f) Q := by
  intro s r s' hs he
  rw [exec_bind] at he
  cases h1 : exec env m s with
  | none => rw [h1] at he; simp at he
  | some p =>
    obtain ⟨a, s1⟩ := p
    rw [h1] at he
    exact hf a _ (hm s a s1 hs h1) s1 r s' rfl he

theorem TR.conseq {m : Prog α} {Q Q' : α → Tape → Prop} (h : TR env t m Q) (hq : ∀ r t', Q r t' → Q' r t') :
    TR env t m Q' := fun s r s' hs he => hq _ _ (h s r s' hs he)

theorem TR.stuck {Q : α → Tape → Prop} : TR env t .stuck Q := by
  intro s r s' hs he; simp [exec] at he

/-- What was shown of programs without calls of user functions. -/
theorem TR.of_tr {m : Prog α} {Q : α → Ctx → Bytes → Prop} (h : Tr env t.toCtx m Q) :
    TR env t m fun r t' => ∃ w, t'.out = t.out ++ w ∧ Q r t'.toCtx w := by
  intro s r s' hs he
  obtain ⟨w, h1, h2⟩ := h s r s' (by rw [← hs]; rfl) he
  exact ⟨w, by rw [← hs]; exact h1, h2⟩

end

theorem act_eq (t : Tape) (upd : Tape → Ctx) (s : St) (hs : tape s = t) :
    tape (s.confine { s with toCtx := upd (tape s) }) = t.act upd := by
  subst hs
  rfl

section
variable {env : Env} {B : Bodies} {E : Tellers} {rec : Render} {t : Tape}

/-- Everything the theorems below assume. -/
structure Alive (env : Env) (B : Bodies) (E : Tellers) : Prop where
  healthy : Healthy env
  behaves : Behaves env B E
  calm : Calm E

theorem tr_write (H : Healthy env) (d : Bytes) :
    TR env t (Do.write d) fun r t' => r = (d.length, none) ∧ t' = t.put d := by
  intro s r s' hs he
  subst hs
  simp only [Do.write, exec, Action.run, H s.log d, Option.some.injEq, Prod.mk.injEq] at he
  obtain ⟨rfl, rfl⟩ := he
  refine ⟨rfl, ?_⟩
  have := out_wrote s d
  simp only [tape, Tape.put, this]
  rfl

theorem tr_look : TR env t Do.look fun s t' => tape s = t ∧ t' = t := by
  intro s r s' hs he
  simp only [Do.look, exec, Action.run, Option.some.injEq, Prod.mk.injEq] at he
  obtain ⟨rfl, rfl⟩ := he
  exact ⟨hs, hs⟩

theorem tr_user (upd : Tape → Ctx) :
    TR env t (Do.user fun s => { s with toCtx := upd (tape s) }) fun s t' => tape s = t.act upd ∧ t' = t.act upd := by
  intro s r s' hs he
  simp only [Do.user, exec, Action.run, Option.some.injEq, Prod.mk.injEq] at he
  obtain ⟨rfl, rfl⟩ := he
  exact ⟨act_eq t upd s hs, act_eq t upd s hs⟩

/-- From an error-free tape to an error-free one with the same parents. -/
def Moves (t t' : Tape) : Prop := Step t.toCtx t'.toCtx

theorem Moves.refl (t : Tape) : Moves t t := Step.refl _
theorem Moves.put (t : Tape) (w : Bytes) : Moves t (t.put w) := Step.refl _
theorem Moves.trans {a b c : Tape} (h : Moves a b) (h' : Moves b c) : Moves a c := Step.trans h h'
theorem Moves.act {upd : Tape → Ctx} (h : Quiet upd) (t : Tape) : Moves t (t.act upd) := ⟨h t, rfl⟩

/-- What is to be shown of the calls of `Render`. -/
def RecStreams (env : Env) (E : Tellers) (rec : Render) : Prop :=
  ∀ n (t : Tape), WF n → t.frame.err = none →
    TR env t (rec n) fun e t' => e = none ∧ Moves t t' ∧ Streams E n t t'

theorem tr_body (H : Healthy env) (R : RecStreams env E rec) {α : Type} {P : α → Prop} (p : Telling α) (hp : p.Calm P)
    (t : Tape) (he : t.frame.err = none) :
    TR env t (p.body.run rec) fun a t' => Moves t t' ∧ P a ∧ Tells E p t a t' := by
  induction p generalizing t with
  | ret a => exact TR.pure ⟨Moves.refl t, hp, .ret⟩
  | act upd k ih =>
    refine TR.bind (tr_user upd) ?_
    rintro s t1 ⟨hs, rfl⟩
    have hm := Moves.act hp.1 t
    simp only [hs]
    refine TR.conseq (ih _ (hp.2 _) _ (hm.1 he)) ?_
    rintro a t' ⟨h1, h2, h3⟩
    exact ⟨hm.trans h1, h2, .act h3⟩
  | write d k ih =>
    refine TR.bind (tr_write H d) ?_
    rintro r t1 ⟨rfl, rfl⟩
    refine TR.bind tr_look ?_
    rintro s t1 ⟨hs, rfl⟩
    simp only [hs]
    refine TR.conseq (ih _ (hp _) _ he) ?_
    rintro a t' ⟨h1, h2, h3⟩
    exact ⟨(Moves.put t d).trans h1, h2, .write h3⟩
  | render n k ih =>
    refine TR.bind (R n t hp.1 he) ?_
    rintro e t1 ⟨rfl, hm, ho⟩
    refine TR.bind tr_look ?_
    rintro s t2 ⟨hs, rfl⟩
    simp only [hs]
    refine TR.conseq (ih _ (hp.2 _) _ (hm.1 he)) ?_
    rintro a t' ⟨h1, h2, h3⟩
    exact ⟨hm.trans h1, h2, .render ho h3⟩

/-! Programs with calls of user functions. -/

/-- If `m` started on tape `t`, with its calls of user functions running their bodies, ends, its result and the tape
satisfy `Q`. -/
def TS {α : Type} (env : Env) (B : Bodies) (rec : Render) (t : Tape) (m : Prog α) (Q : α → Tape → Prop) : Prop :=
  TR env t (inlined B rec m) Q

variable {α β : Type}

theorem TS.pure {a : α} {Q : α → Tape → Prop} (h : Q a t) : TS env B rec t (Pure.pure a) Q := TR.pure h

theorem TS.bind {m : Prog α} {f : α → Prog β} {Q1 : α → Tape → Prop} {Q : β → Tape → Prop} (hm : TS env B rec t m Q1)
    (hf : ∀ a t1, Q1 a t1 → TS env B rec t1 (f a) Q) : TS env B rec t (m >>= f) Q := by
  unfold TS
  rw [inlined_bind]
  exact TR.bind hm hf

theorem TS.conseq {m : Prog α} {Q Q' : α → Tape → Prop} (h : TS env B rec t m Q) (hq : ∀ r t', Q r t' → Q' r t') :
    TS env B rec t m Q' := TR.conseq h hq

theorem TS.stuck {Q : α → Tape → Prop} : TS env B rec t .stuck Q := TR.stuck

/-- `m` returns `r` and leaves `t'`. -/
def DS {α : Type} (env : Env) (B : Bodies) (rec : Render) (t : Tape) (m : Prog α) (r : α) (t' : Tape) : Prop :=
  TS env B rec t m fun r' t1 => r' = r ∧ t1 = t'

theorem DS.then {m : Prog α} {f : α → Prog β} {a : α} {t1 : Tape} {Q : β → Tape → Prop} (hm : DS env B rec t m a t1)
    (hf : TS env B rec t1 (f a) Q) : TS env B rec t (m >>= f) Q := by
  refine TS.bind hm ?_
  rintro a' t' ⟨rfl, rfl⟩
  exact hf

theorem DS.pure {a : α} : DS env B rec t (Pure.pure a) a t := TS.pure ⟨rfl, rfl⟩

theorem DS.ctx : DS env B rec t Do.ctx t.toCtx t := by
  intro s r s' hs he
  simp only [Do.ctx, inlined, exec, Action.run, Option.some.injEq, Prod.mk.injEq] at he
  obtain ⟨rfl, rfl⟩ := he
  subst hs
  exact ⟨rfl, rfl⟩

theorem DS.write (H : Healthy env) (d : Bytes) : DS env B rec t (Do.write d) (d.length, none) (t.put d) :=
  tr_write H d

theorem TS.look : TS env B rec t Do.look fun s t' => tape s = t ∧ t' = t := tr_look

theorem TS.user (upd : Tape → Ctx) : TS env B rec t (Do.user fun s => { s with toCtx := upd (tape s) })
    fun s t' => tape s = t.act upd ∧ t' = t.act upd := tr_user upd

theorem DS.setErr {e : Option Err} (h : t.frame.err = e) : DS env B rec t (Do.setErr e) () t := by
  intro s r s' hs he
  simp only [Do.setErr, inlined, exec, Action.run, Option.some.injEq, Prod.mk.injEq] at he
  obtain ⟨-, rfl⟩ := he
  subst hs
  refine ⟨rfl, ?_⟩
  have h : s.frame.err = e := h
  simp only [tape, St.setErr, St.out, ← h]

theorem DS.ctxWrite (H : Healthy env) (he : t.frame.err = none) (d : Bytes) :
    DS env B rec t (ctxWrite d) () (t.put d) := by
  unfold Aitch.ctxWrite
  refine DS.then DS.ctx ?_
  simp only [he]
  exact DS.then (DS.write H d) (TS.conseq (DS.setErr (by exact he)) fun _ _ h => ⟨trivial, h.2⟩)

theorem TS.order (keys : List Bytes) :
    TS env B rec t (Do.order keys) fun names t' => names.Perm keys ∧ t' = t := by
  intro s r s' hs he
  simp only [Do.order, inlined, exec, Action.run, Option.some.injEq, Prod.mk.injEq] at he
  obtain ⟨rfl, rfl⟩ := he
  exact ⟨env.order_perm _ _, hs⟩

theorem DS.enter (fr : Frame) :
    DS env B rec t (Do.enter fr) () { t with frame := fr, parents := t.frame :: t.parents } := by
  intro s r s' hs he
  simp only [Do.enter, inlined, exec, Action.run, Option.some.injEq, Prod.mk.injEq] at he
  obtain ⟨-, rfl⟩ := he
  subst hs
  exact ⟨rfl, rfl⟩

theorem DS.setItem (it : Any) (d : Option MapId) :
    DS env B rec t (Do.setItem it d) () { t with frame := { t.frame with cargo := it, data := d } } := by
  intro s r s' hs he
  simp only [Do.setItem, inlined, exec, Action.run, Option.some.injEq, Prod.mk.injEq] at he
  obtain ⟨-, rfl⟩ := he
  subst hs
  exact ⟨rfl, rfl⟩

theorem DS.leave {f : Frame} {fs : List Frame} (hp : t.parents = f :: fs) :
    DS env B rec t Do.leave t.frame { t with frame := f, parents := fs } := by
  intro s r s' hs he
  subst hs
  have hp : s.parents = f :: fs := hp
  simp only [Do.leave, inlined, exec, Action.run, hp, Option.some.injEq, Prod.mk.injEq] at he
  obtain ⟨rfl, rfl⟩ := he
  exact ⟨rfl, rfl⟩

section
variable (A : Alive env B E) (R : RecStreams env E rec)
include A R

theorem ts_dyn (f : FnId) (he : t.frame.err = none) :
    TS env B rec t (Do.dyn f) fun w t' => Moves t t' ∧ Tells E (E.dyn f t) t w t' := by
  refine TR.bind tr_look ?_
  rintro s t1 ⟨hs, rfl⟩
  rw [A.behaves.dyn, hs]
  refine TR.bind (tr_body A.healthy R _ (A.calm.dyn f _) _ he) ?_
  rintro a t2 ⟨h1, _, h3⟩
  exact TR.pure ⟨h1, h3⟩

theorem ts_cond (f : FnId) (he : t.frame.err = none) :
    TS env B rec t (Do.cond f) fun b t' => Moves t t' ∧ Tells E (E.cond f t) t b t' := by
  refine TR.bind tr_look ?_
  rintro s t1 ⟨hs, rfl⟩
  rw [A.behaves.cond, hs]
  refine TR.bind (tr_body A.healthy R _ (A.calm.cond f _) _ he) ?_
  rintro a t2 ⟨h1, _, h3⟩
  exact TR.pure ⟨h1, h3⟩

theorem ts_collect (f : FnId) (he : t.frame.err = none) :
    TS env B rec t (Do.collect f) fun ns t' => Moves t t' ∧ (∀ n, some n ∈ ns → WF n) ∧
      Tells E (E.collect f t) t ns t' := by
  refine TR.bind tr_look ?_
  rintro s t1 ⟨hs, rfl⟩
  rw [A.behaves.collect, hs]
  refine TR.bind (tr_body A.healthy R _ (A.calm.collect f _) _ he) ?_
  rintro a t2 ⟨h1, h2, h3⟩
  exact TR.pure ⟨h1, h2, h3⟩

theorem ts_items (f : FnId) (he : t.frame.err = none) :
    TS env B rec t (Do.items f) fun its t' => Moves t t' ∧ Tells E (E.items f t) t its t' := by
  refine TR.bind tr_look ?_
  rintro s t1 ⟨hs, rfl⟩
  rw [A.behaves.items, hs]
  refine TR.bind (tr_body A.healthy R _ (A.calm.items f _) _ he) ?_
  rintro a t2 ⟨h1, _, h3⟩
  exact TR.pure ⟨h1, h3⟩

omit R in
theorem ts_imp (f : FnId) : DS env B rec t (Do.imp f) (E.imp f t).body t := by
  intro s r s' hs he
  simp only [Do.imp, inlined, exec, Action.run, Option.some.injEq, Prod.mk.injEq] at he
  obtain ⟨rfl, rfl⟩ := he
  subst hs
  exact ⟨A.behaves.imp f s, rfl⟩

/-! Values -/

omit R in
theorem ds_valueWrite (he : t.frame.err = none) (d : Bytes) :
    DS env B rec t (valueWrite d) (decide (d ≠ [])) (t.put d) := by
  unfold Aitch.valueWrite
  have : decide (d ≠ []) = decide (d.length > 0) := by
    cases d <;> simp
  rw [this]
  exact DS.then (DS.write A.healthy d) (DS.then (DS.setErr (by exact he)) DS.pure)

omit A R in
theorem ds_own {d : Dyn} (hd : ∀ f, d ≠ .user f) : DS env B rec t (runDyn d) (ownBytes t.toCtx d) t := by
  cases d with
  | user f => exact absurd rfl (hd f)
  | key k =>
    unfold runDyn
    refine DS.then DS.ctx ?_
    simp only [ownBytes]
    cases t.toCtx.lookup k <;> exact DS.pure
  | cargo => exact DS.then DS.ctx DS.pure

set_option linter.unusedSectionVars false in
mutual
theorem ts_renderValue : (v : Value) → (t : Tape) → t.frame.err = none →
    TS env B rec t (renderValue v) fun b t' => Moves t t' ∧ StreamsValue E v t b t'
  | .mk _ (some (.user f)) _, t, he => by
    simp only [renderValue]
    refine TS.bind (ts_dyn A R f he) ?_
    rintro w t1 ⟨hm, ho⟩
    refine TS.conseq (ds_valueWrite A (hm.1 he) w) ?_
    rintro b t2 ⟨rfl, rfl⟩
    exact ⟨hm.trans (Moves.put t1 w), .fn ho⟩
  | .mk _ (some (.key k)) _, t, he => by
    simp only [renderValue]
    refine DS.then (ds_own (by simp)) (TS.conseq (ds_valueWrite A he _) ?_)
    rintro b t2 ⟨rfl, rfl⟩
    exact ⟨Moves.put _ _, .own (by simp)⟩
  | .mk _ (some .cargo) _, t, he => by
    simp only [renderValue]
    refine DS.then (ds_own (by simp)) (TS.conseq (ds_valueWrite A he _) ?_)
    rintro b t2 ⟨rfl, rfl⟩
    exact ⟨Moves.put _ _, .own (by simp)⟩
  | .mk value none [], t, he => by
    simp only [renderValue]
    refine TS.conseq (ds_valueWrite A he _) ?_
    rintro b t2 ⟨rfl, rfl⟩
    exact ⟨Moves.put _ _, .static⟩
  | .mk value none (x :: xs), t, he => by
    simp only [renderValue]
    refine TS.bind (ts_renderValue x t he) ?_
    rintro b t1 ⟨hm, ho⟩
    refine TS.bind (ts_renderConcats xs t1 (hm.1 he) _) ?_
    rintro l t2 ⟨hm2, b', hl, hos⟩
    refine TS.pure ⟨hm.trans hm2, ?_⟩
    have : decide (l > 0) = (b || b') := by
      rw [Bool.eq_iff_iff]
      simp only [decide_eq_true_eq, hl, Bool.or_eq_true]
      cases b <;> simp
    rw [this]
    exact .parts (.cons ho hos)
theorem ts_renderConcats : (vs : List Value) → (t : Tape) → t.frame.err = none → (l : Nat) →
    TS env B rec t (renderConcats vs l) fun r t' => Moves t t' ∧ ∃ b, (r > 0 ↔ l > 0 ∨ b = true) ∧
      StreamsValues E vs t b t'
  | [], t, he, l => by
    simp only [renderConcats]
    exact TS.pure ⟨Moves.refl t, false, by simp, .nil⟩
  | x :: xs, t, he, l => by
    simp only [renderConcats]
    refine TS.bind (ts_renderValue x t he) ?_
    rintro b t1 ⟨hm, ho⟩
    refine TS.conseq (ts_renderConcats xs t1 (hm.1 he) _) ?_
    rintro r t2 ⟨hm2, b', hl, hos⟩
    refine ⟨hm.trans hm2, b || b', ?_, .cons ho hos⟩
    rw [hl]
    cases b <;> simp
end

theorem ts_renderValues (vs : List Value) (t : Tape) (he : t.frame.err = none) :
    TS env B rec t (renderValues vs) fun _ t' => Moves t t' ∧ ∃ b, StreamsValues E vs t b t' := by
  induction vs generalizing t with
  | nil => exact TS.pure ⟨Moves.refl t, false, .nil⟩
  | cons v vs ih =>
    simp only [renderValues]
    refine TS.bind (ts_renderValue A R v t he) ?_
    rintro b t1 ⟨hm, ho⟩
    refine TS.conseq (ih t1 (hm.1 he)) ?_
    rintro _ t2 ⟨hm2, b', hos⟩
    exact ⟨hm.trans hm2, _, .cons ho hos⟩

theorem ts_renderDelimValues (d : Bytes) (vs : List Value) (b : Bool) (t : Tape) (he : t.frame.err = none) :
    TS env B rec t (renderDelimValues d vs b) fun _ t' => Moves t t' ∧
      StreamsDelim E d vs (if b ∧ vs ≠ [] then t.put d else t) t' := by
  induction vs generalizing b t with
  | nil =>
    simp only [renderDelimValues, ne_eq, not_true_eq_false, and_false, if_false]
    exact TS.pure ⟨Moves.refl t, .nil⟩
  | cons v vs ih =>
    simp only [renderDelimValues]
    have hd : DS env B rec t (Prog.when b (Aitch.ctxWrite d)) () (if b ∧ v :: vs ≠ [] then t.put d else t) := by
      cases b
      · exact DS.pure
      · exact DS.ctxWrite A.healthy he d
    refine DS.then hd ?_
    generalize ht0 : (if b ∧ v :: vs ≠ [] then t.put d else t) = t0
    have hm0 : Moves t t0 := by
      rw [← ht0]
      split
      · exact Moves.put t d
      · exact Moves.refl t
    refine TS.bind (ts_renderValue A R v t0 (hm0.1 he)) ?_
    rintro b1 t1 ⟨hm, ho⟩
    have hm1 := hm0.trans hm
    refine TS.conseq (ih b1 t1 (hm1.1 he)) ?_
    rintro _ t2 ⟨hm2, hos⟩
    refine ⟨hm1.trans hm2, ?_⟩
    cases vs with
    | nil =>
      simp only [ne_eq, not_true_eq_false, and_false, if_false] at hos
      cases hos
      exact .last ho
    | cons v' vs => exact .cons ho (by simpa using hos)

/-! Attributes -/

omit A R in
theorem put_put (t : Tape) (a b : Bytes) : (t.put a).put b = t.put (a ++ b) := by
  simp [Tape.put]

theorem ts_renderDelim (n d : Bytes) (vs : List Value) (t : Tape) (he : t.frame.err = none) :
    TS env B rec t (renderDelim n d vs) fun _ t' => Moves t t' ∧ ∃ t1,
      StreamsDelim E d vs (t.put (b%" " ++ n ++ b%"=\"")) t1 ∧ t' = t1.put b%"\"" := by
  refine DS.then (DS.ctxWrite A.healthy (by exact he) _) (DS.then (DS.ctxWrite A.healthy (by exact he) _)
    (DS.then (DS.ctxWrite A.healthy (by exact he) _) (TS.bind (ts_renderDelimValues A R d vs false _ he) ?_)))
  rintro _ t1 ⟨hm, ho⟩
  refine TS.conseq (DS.ctxWrite A.healthy (by exact hm.1 he) _) ?_
  rintro _ t2 ⟨_, rfl⟩
  refine ⟨hm.trans (Moves.put _ _), t1, ?_, rfl⟩
  simpa [put_put] using ho

theorem ts_renderAttr (a : Attr) (t : Tape) (he : t.frame.err = none) :
    TS env B rec t (renderAttr a) fun _ t' => Moves t t' ∧ StreamsAttr E a t t' := by
  cases a with
  | plain n vs =>
    refine DS.then (DS.ctxWrite A.healthy (by exact he) _) (DS.then (DS.ctxWrite A.healthy (by exact he) _)
      (DS.then (DS.ctxWrite A.healthy (by exact he) _) (TS.bind (ts_renderValues A R vs _ he) ?_)))
    rintro _ t1 ⟨hm, b, ho⟩
    refine TS.conseq (DS.ctxWrite A.healthy (by exact hm.1 he) _) ?_
    rintro _ t2 ⟨_, rfl⟩
    refine ⟨hm.trans (Moves.put _ _), .plain (b := b) ?_⟩
    simpa [put_put] using ho
  | bool n =>
    refine DS.then (DS.ctxWrite A.healthy (by exact he) _) (TS.conseq (DS.ctxWrite A.healthy (by exact he) _) ?_)
    rintro _ t2 ⟨_, rfl⟩
    rw [put_put]
    exact ⟨Moves.put _ _, .bool⟩
  | delim n d r =>
    refine DS.then DS.ctx (TS.conseq (ts_renderDelim A R n d _ t he) ?_)
    rintro _ t2 ⟨hm, t1, ho, rfl⟩
    exact ⟨hm, .delim ho⟩

theorem ts_renderAttrs (as : List Attr) (t : Tape) (he : t.frame.err = none) :
    TS env B rec t (renderAttrs as) fun _ t' => Moves t t' ∧ StreamsAttrs E as t t' := by
  induction as generalizing t with
  | nil => exact TS.pure ⟨Moves.refl t, .nil⟩
  | cons a as ih =>
    refine TS.bind (ts_renderAttr A R a t he) ?_
    rintro _ t1 ⟨hm, ho⟩
    refine TS.conseq (ih t1 (hm.1 he)) ?_
    rintro _ t2 ⟨hm2, hos⟩
    exact ⟨hm.trans hm2, .cons ho hos⟩

/-- One attribute with the further declarations of its name. -/
def StreamsOne (E : Tellers) (p : Attr × List Attr) (t t' : Tape) : Prop :=
  ∀ l t2, StreamsMerged E l t' t2 → StreamsMerged E (p :: l) t t2

theorem ts_renderChosen (a e : Attr) (es : List Attr) (t : Tape) (he : t.frame.err = none) :
    TS env B rec t (renderChosen a (e :: es) ((e :: es).getLast (by simp))) fun _ t' => Moves t t' ∧
      StreamsOne E (a, e :: es) t t' := by
  cases a with
  | plain n vs =>
    refine TS.conseq (ts_renderAttr A R _ t he) ?_
    rintro _ t1 ⟨hm, ho⟩
    exact ⟨hm, fun l t2 h => .replaced (by simp) ho h⟩
  | bool n =>
    refine TS.conseq (ts_renderAttr A R _ t he) ?_
    rintro _ t1 ⟨hm, ho⟩
    exact ⟨hm, fun l t2 h => .replaced (by simp) ho h⟩
  | delim n d r =>
    refine DS.then DS.ctx (TS.conseq (ts_renderDelim A R n d _ t he) ?_)
    rintro _ t2 ⟨hm, t1, ho, rfl⟩
    exact ⟨hm, fun l t2 h => .joined ho h⟩

theorem ts_renderFirst (e : Attr) (es : List Attr) (t : Tape) (he : t.frame.err = none) :
    TS env B rec t (renderChosen e es ((e :: es).getLast (by simp))) fun _ t' => Moves t t' ∧
      StreamsOne E (e, es) t t' := by
  cases es with
  | nil =>
    have alone : TS env B rec t (renderAttr e) fun _ t' => Moves t t' ∧ StreamsOne E (e, []) t t' := by
      refine TS.conseq (ts_renderAttr A R e t he) ?_
      rintro _ t1 ⟨hm, ho⟩
      exact ⟨hm, fun l t2 h => .alone ho h⟩
    have h1 : renderChosen e [] ([e].getLast (by simp)) = renderAttr e := by
      cases e <;> simp [renderChosen, renderAttr]
    rw [h1]
    exact alone
  | cons e' es =>
    have := ts_renderChosen A R e e' es t he
    simpa using this

/-! Conditions -/

theorem ts_runCond (k : Cond) (t : Tape) (he : t.frame.err = none) :
    TS env B rec t (runCond k) fun b t' => Moves t t' ∧ StreamsCond E k t b t' := by
  have own : ∀ {k : Cond}, (∀ f, k ≠ .user f) → DS env B rec t (runCond k) (ownHolds t.toCtx k) t →
      TS env B rec t (runCond k) fun b t' => Moves t t' ∧ StreamsCond E k t b t' := by
    intro k hk h
    refine TS.conseq h ?_
    rintro b t' ⟨rfl, rfl⟩
    exact ⟨Moves.refl _, .own hk⟩
  cases k with
  | user f =>
    refine TS.conseq (ts_cond A R f he) ?_
    rintro b t' ⟨hm, ho⟩
    exact ⟨hm, .fn ho⟩
  | has k =>
    refine own (by simp) (DS.then DS.ctx ?_)
    simp only [ownHolds]
    rcases t.toCtx.lookup k with _ | v
    · exact DS.pure
    · cases v
      case bool b => cases b <;> exact DS.pure
      all_goals exact DS.pure
  | hasNot k =>
    refine own (by simp) (DS.then DS.ctx ?_)
    simp only [ownHolds]
    rcases t.toCtx.lookup k with _ | v
    · exact DS.pure
    · cases v
      case bool b => cases b <;> exact DS.pure
      all_goals exact DS.pure

theorem ts_evalConds (ks : List Cond) (t : Tape) (he : t.frame.err = none) :
    TS env B rec t (evalConds ks) fun b t' => Moves t t' ∧ StreamsConds E ks t b t' := by
  induction ks generalizing t with
  | nil => exact TS.pure ⟨Moves.refl t, .nil⟩
  | cons k ks ih =>
    refine TS.bind (ts_runCond A R k t he) ?_
    rintro b t1 ⟨hm, ho⟩
    cases b
    · exact TS.pure ⟨hm, .no ho⟩
    · refine TS.conseq (ih t1 (hm.1 he)) ?_
      rintro b t2 ⟨hm2, hos⟩
      exact ⟨hm.trans hm2, .yes ho hos⟩

theorem ts_evaluate (cas : List CondAttr) (acc : List (Bytes × List Attr)) (t : Tape) (he : t.frame.err = none) :
    TS env B rec t (evaluate cas acc) fun ev t' => Moves t t' ∧ ∃ act, ev = groupInto acc act ∧
      StreamsActive E cas t act t' := by
  induction cas generalizing acc t with
  | nil => exact TS.pure ⟨Moves.refl t, [], rfl, .nil⟩
  | cons ca cas ih =>
    refine TS.bind (ts_evalConds A R ca.conditions t he) ?_
    rintro b t1 ⟨hm, ho⟩
    refine TS.conseq (ih _ t1 (hm.1 he)) ?_
    rintro ev t2 ⟨hm2, act, rfl, hos⟩
    refine ⟨hm.trans hm2, _, ?_, .cons ho hos⟩
    cases b <;> rfl

theorem ts_renderStatic {h : ElemHead} (wf : WFHead h) (act : List Attr) {a : Attr} (ha : a ∈ h.attributes)
    (t : Tape) (he : t.frame.err = none) :
    TS env B rec t (renderStatic h (groupInto [] act) a.name) fun _ t' => Moves t t' ∧
      StreamsOne E (a, named a.name act) t t' := by
  obtain ⟨i, hi, hg⟩ := wf_lookup wf ha
  simp only [renderStatic, hi, hg, lookup_group]
  cases hn : named a.name act with
  | nil =>
    refine TS.conseq (ts_renderAttr A R a t he) ?_
    rintro _ t1 ⟨hm, ho⟩
    exact ⟨hm, fun l t2 h => .alone ho h⟩
  | cons e es =>
    have h3 : (e :: es).getLast?.getD a = (e :: es).getLast (by simp) := by
      rw [List.getLast?_eq_some_getLast (by simp)]; rfl
    have h2 := ts_renderChosen A R a e es t he
    rw [← h3] at h2
    exact h2

/-- Several attributes with the further declarations of their names. -/
def StreamsSome (E : Tellers) (l₁ : List (Attr × List Attr)) (t t' : Tape) : Prop :=
  ∀ l t2, StreamsMerged E l t' t2 → StreamsMerged E (l₁ ++ l) t t2

theorem ts_renderStatics {h : ElemHead} (wf : WFHead h) (act : List Attr)
    (as : List Attr) (ha : ∀ a ∈ as, a ∈ h.attributes) (t : Tape) (he : t.frame.err = none) :
    TS env B rec t (renderStatics h (groupInto [] act) (as.map Attr.name)) fun _ t' => Moves t t' ∧
      StreamsSome E (as.map fun a => (a, named a.name act)) t t' := by
  induction as generalizing t with
  | nil => exact TS.pure ⟨Moves.refl t, fun l t2 h => h⟩
  | cons a as ih =>
    simp only [List.map_cons, renderStatics]
    refine TS.bind (ts_renderStatic A R wf act (ha a (by simp)) t he) ?_
    rintro _ t1 ⟨hm, ho⟩
    refine TS.conseq (ih (fun x hx => ha x (by simp [hx])) t1 (hm.1 he)) ?_
    rintro _ t2 ⟨hm2, hos⟩
    exact ⟨hm.trans hm2, fun l t3 h => ho _ _ (hos _ _ h)⟩

theorem ts_renderExtras {h : ElemHead} (wf : WFHead h) (act : List Attr)
    (ns : List Bytes) (t : Tape) (he : t.frame.err = none) :
    TS env B rec t (renderExtras h (groupInto [] act) ns) fun _ t' => Moves t t' ∧
      StreamsSome E (ns.filterMap (extraOf h.attributes act)) t t' := by
  induction ns generalizing t with
  | nil => exact TS.pure ⟨Moves.refl t, fun l t2 h => h⟩
  | cons n ns ih =>
    simp only [renderExtras, renderExtra]
    by_cases hn : n ∈ h.attributes.map Attr.name
    · obtain ⟨a, ha, rfl⟩ := List.mem_map.mp hn
      obtain ⟨i, hi, hg⟩ := wf_lookup wf ha
      rw [List.filterMap_cons_none (by rw [extraOf, if_pos hn])]
      simp only [hi]
      exact DS.then DS.pure (ih t he)
    · simp only [wf_lookup_none wf hn, lookup_group]
      cases hm : named n act with
      | nil =>
        rw [List.filterMap_cons_none (by simp [extraOf, hm])]
        exact DS.then DS.pure (ih t he)
      | cons e es =>
        rw [List.filterMap_cons_some (b := (e, es)) (by simp only [extraOf, if_neg hn, hm])]
        have h3 : (e :: es).getLast?.getD e = (e :: es).getLast (by simp) := by
          rw [List.getLast?_eq_some_getLast (by simp)]; rfl
        have h2 := ts_renderFirst A R e es t he
        rw [← h3] at h2
        refine TS.bind h2 ?_
        rintro _ t1 ⟨hm1, ho⟩
        refine TS.conseq (ih t1 (hm1.1 he)) ?_
        rintro _ t2 ⟨hm2, hos⟩
        exact ⟨hm1.trans hm2, fun l t3 h => ho _ _ (hos _ _ h)⟩

/-- The attributes of a tag. -/
def StreamsHead (E : Tellers) (h : ElemHead) (t t' : Tape) : Prop :=
  (∃ t1, StreamsActive E h.conditionals t [] t1 ∧ StreamsAttrs E h.attributes t1 t') ∨
  ∃ act t1 l₁ l₂, StreamsActive E h.conditionals t act t1 ∧ act ≠ [] ∧
    l₁.Perm (h.attributes.map fun a => (a, named a.name act)) ∧ l₂.Perm (extraDeclarations h.attributes act) ∧
    StreamsMerged E (l₁ ++ l₂) t1 t'

theorem ts_renderAttributes {h : ElemHead} (wf : WFHead h) (t : Tape) (he : t.frame.err = none) :
    TS env B rec t (renderAttributes h) fun _ t' => Moves t t' ∧ StreamsHead E h t t' := by
  unfold Aitch.renderAttributes
  have plain : ∀ t1, Moves t t1 → StreamsActive E h.conditionals t [] t1 →
      TS env B rec t1 (renderAttrs h.attributes) fun _ t' => Moves t t' ∧ StreamsHead E h t t' := by
    intro t1 hm ha
    refine TS.conseq (ts_renderAttrs A R h.attributes t1 (hm.1 he)) ?_
    rintro _ t2 ⟨hm2, ho⟩
    exact ⟨hm.trans hm2, .inl ⟨t1, ha, ho⟩⟩
  by_cases hc : h.conditionals.length > 0
  · rw [if_pos hc]
    refine TS.bind (ts_evaluate A R h.conditionals [] t he) ?_
    rintro ev t1 ⟨hm, act, rfl, hact⟩
    have hk := keys_group act
    by_cases ha : act = []
    · subst ha
      simp only [groupInto, List.foldl_nil, List.length_nil, gt_iff_lt, Nat.lt_irrefl, if_false]
      exact plain t1 hm hact
    · have hlen : (groupInto [] act).length > 0 := by
        have : ((groupInto [] act).map (·.1)).length > 0 := by
          rw [hk]
          cases act with
          | nil => exact absurd rfl ha
          | cons a as => simp [distinct]
        simpa using this
      rw [if_pos hlen]
      refine TS.bind (TS.order _) ?_
      rintro names t2 ⟨hp, rfl⟩
      rw [wf_keys wf] at hp
      obtain ⟨as', has', rfl⟩ := exists_perm_map _ _ _ hp
      refine TS.bind (ts_renderStatics A R wf _ as' (fun a h => has'.mem_iff.mp h) t2 (hm.1 he)) ?_
      rintro _ t3 ⟨hm3, hos⟩
      refine TS.bind (TS.order _) ?_
      rintro names t4 ⟨hp2, rfl⟩
      rw [hk] at hp2
      refine TS.conseq (ts_renderExtras A R wf act names t4 ((hm.trans hm3).1 he)) ?_
      rintro _ t5 ⟨hm5, hos5⟩
      refine ⟨(hm.trans hm3).trans hm5, .inr ⟨act, t2, as'.map fun a => (a, named a.name act),
        names.filterMap (extraOf h.attributes act), hact, ha, has'.map _, ?_, ?_⟩⟩
      · rw [extraDeclarations_eq]
        exact hp2.filterMap _
      · have := hos _ _ (hos5 [] t5 .nil)
        simpa using this
  · rw [if_neg hc]
    have hnil : h.conditionals = [] := by
      cases hx : h.conditionals with
      | nil => rfl
      | cons a as => rw [hx] at hc; simp at hc
    exact plain t (Moves.refl t) (by rw [hnil]; exact .nil)

theorem ts_renderStartTag {h : ElemHead} (wf : WFHead h) (t : Tape) (he : t.frame.err = none) :
    TS env B rec t (renderStartTag h) fun _ t' => Moves t t' ∧ StreamsTag E h t t' := by
  refine DS.then (DS.ctxWrite A.healthy (by exact he) _) (DS.then (DS.ctxWrite A.healthy (by exact he) _)
    (TS.bind (ts_renderAttributes A R wf _ he) ?_))
  rintro _ t1 ⟨hm, ho⟩
  refine TS.conseq (DS.ctxWrite A.healthy (by exact hm.1 he) _) ?_
  rintro _ t2 ⟨_, rfl⟩
  rw [put_put] at ho
  refine ⟨hm.trans (Moves.put _ _), ?_⟩
  rcases ho with ⟨t1, h1, h2⟩ | ⟨act, t1, l₁, l₂, h1, h2, h3, h4, h5⟩
  · exact .fixed h1 h2
  · exact .some h1 h2 h3 h4 h5

omit R in
theorem ds_endTag (he : t.frame.err = none) (n : Bytes) :
    DS env B rec t (renderEndTag n) () (t.put (endBytes n)) := by
  refine DS.then (DS.ctxWrite A.healthy (by exact he) _) (DS.then (DS.ctxWrite A.healthy (by exact he) _)
    (TS.conseq (DS.ctxWrite A.healthy (by exact he) _) ?_))
  rintro _ t2 ⟨_, rfl⟩
  exact ⟨rfl, by simp [put_put, endBytes]⟩

omit R in
theorem ds_endTags (he : t.frame.err = none) (stack : List Bytes) :
    DS env B rec t (endAll stack) () (t.put (stack.flatMap endBytes)) := by
  induction stack generalizing t with
  | nil =>
    refine TS.pure ⟨rfl, ?_⟩
    simp [Tape.put]
  | cons n ns ih =>
    refine DS.then (ds_endTag A he n) (TS.conseq (ih he) ?_)
    rintro _ t2 ⟨_, rfl⟩
    exact ⟨rfl, by simp [put_put]⟩

end

/-! Nodes -/

/-- What is to be shown of the rendering of nested nodes. -/
def NestStreams (env : Env) (B : Bodies) (E : Tellers) (rec : Render) (nest : Render) : Prop :=
  ∀ n (t : Tape), WF n → t.frame.err = none →
    TS env B rec t (nest n) fun e t' => e = none ∧ Moves t t' ∧ Streams E n t t'

section
variable {nest : Render} (N : NestStreams env B E rec nest)
include N

theorem ts_content (ns : List Node) (hw : WFAll ns) (t : Tape) (he : t.frame.err = none) :
    TS env B rec t (contentLoop nest ns) fun _ t' => Moves t t' ∧ StreamsAll E ns t t' := by
  induction ns generalizing t with
  | nil => exact TS.pure ⟨Moves.refl t, .nil⟩
  | cons n ns ih =>
    refine TS.bind (N n t hw.1 he) ?_
    rintro e t1 ⟨rfl, hm, ho⟩
    refine DS.then (DS.setErr (hm.1 he)) (TS.conseq (ih hw.2 t1 (hm.1 he)) ?_)
    rintro _ t2 ⟨hm2, hos⟩
    exact ⟨hm.trans hm2, .cons ho hos⟩

theorem ts_conditional (ns : List Node) (hw : WFAll ns) (t : Tape) (he : t.frame.err = none) :
    TS env B rec t (conditionalLoop nest ns) fun _ t' => Moves t t' ∧ StreamsAll E ns t t' := by
  induction ns generalizing t with
  | nil => exact TS.pure ⟨Moves.refl t, .nil⟩
  | cons n ns ih =>
    refine TS.bind (N n t hw.1 he) ?_
    rintro e t1 ⟨rfl, hm, ho⟩
    refine DS.then (DS.setErr (hm.1 he)) (TS.conseq (ih hw.2 t1 (hm.1 he)) ?_)
    rintro _ t2 ⟨hm2, hos⟩
    exact ⟨hm.trans hm2, .cons ho hos⟩

theorem ts_collection (ns : List Node) (hw : WFAll ns) (t : Tape) (he : t.frame.err = none) :
    TS env B rec t (collectionLoop nest ns) fun _ t' => Moves t t' ∧
      StreamsAll E (ns.filter fun n => !n.isAttr) t t' := by
  induction ns generalizing t with
  | nil => exact TS.pure ⟨Moves.refl t, .nil⟩
  | cons n ns ih =>
    unfold Aitch.collectionLoop
    by_cases ha : n.isAttr = true
    · rw [if_pos ha, List.filter_cons_of_neg (by simp [ha])]
      exact ih hw.2 t he
    · rw [if_neg ha, List.filter_cons_of_pos (by simp [ha])]
      refine TS.bind (N n t hw.1 he) ?_
      rintro e t1 ⟨rfl, hm, ho⟩
      refine DS.then (DS.setErr (hm.1 he)) (TS.conseq (ih hw.2 t1 (hm.1 he)) ?_)
      rintro _ t2 ⟨hm2, hos⟩
      exact ⟨hm.trans hm2, .cons ho hos⟩

theorem ts_ignore (ns : List (Option Node)) (hw : ∀ n, some n ∈ ns → WF n) (t : Tape) (he : t.frame.err = none) :
    TS env B rec t (ignoreLoop nest ns) fun _ t' => Moves t t' ∧ StreamsAll E (contentNodes ns) t t' := by
  induction ns generalizing t with
  | nil => exact TS.pure ⟨Moves.refl t, .nil⟩
  | cons o ns ih =>
    have ih := ih fun n h => hw n (by simp [h])
    cases o with
    | none => exact ih t he
    | some n =>
      unfold Aitch.ignoreLoop
      by_cases ha : n.isAttr = true
      · rw [if_pos ha]
        have : contentNodes (some n :: ns) = contentNodes ns := by simp [contentNodes, ha]
        rw [this]
        exact ih t he
      · rw [if_neg ha]
        have : contentNodes (some n :: ns) = n :: contentNodes ns := by simp [contentNodes, ha]
        rw [this]
        refine TS.bind (N n t (hw n (by simp)) he) ?_
        rintro e t1 ⟨rfl, hm, ho⟩
        refine TS.conseq (ih t1 (hm.1 he)) ?_
        rintro _ t2 ⟨hm2, hos⟩
        exact ⟨hm.trans hm2, .cons ho hos⟩

theorem ts_document (ns : List Node) (hw : WFAll ns) (t : Tape) (he : t.frame.err = none) :
    TS env B rec t (documentLoop nest ns) fun _ t' => Moves t t' ∧ StreamsAll E ns t t' := by
  induction ns generalizing t with
  | nil => exact TS.pure ⟨Moves.refl t, .nil⟩
  | cons n ns ih =>
    refine TS.bind (N n t hw.1 he) ?_
    rintro e t1 ⟨rfl, hm, ho⟩
    refine TS.conseq (ih hw.2 t1 (hm.1 he)) ?_
    rintro _ t2 ⟨hm2, hos⟩
    exact ⟨hm.trans hm2, .cons ho hos⟩

theorem ts_nodes (ns : List Node) (hw : WFAll ns) (t : Tape) (he : t.frame.err = none) :
    TS env B rec t (iterNodes nest ns) fun e t' => e = none ∧ Moves t t' ∧ StreamsAll E ns t t' := by
  induction ns generalizing t with
  | nil => exact TS.pure ⟨rfl, Moves.refl t, .nil⟩
  | cons n ns ih =>
    refine TS.bind (N n t hw.1 he) ?_
    rintro e t1 ⟨rfl, hm, ho⟩
    refine TS.conseq (ih hw.2 t1 (hm.1 he)) ?_
    rintro e t2 ⟨rfl, hm2, hos⟩
    exact ⟨rfl, hm.trans hm2, .cons ho hos⟩

/-- The tape inside an iteration. -/
def inside (t : Tape) (fr : Frame) : Tape := { t with frame := fr, parents := t.frame :: t.parents }

omit N in
theorem inside_back {t t2 : Tape} (hp : t2.parents = t.frame :: t.parents) : t2 = inside (t.back t2) t2.frame := by
  obtain ⟨⟨⟩, out⟩ := t2
  simp only at hp
  simp [inside, Tape.back, backTo, hp]

omit N in
theorem ds_item {fr : Frame} (it : Any) (d : Option MapId) :
    DS env B rec (inside t fr) (Do.setItem it (match it with | .map m => some m | _ => d)) ()
      (t.item fr it (itemData d it)) := by
  cases it <;> exact DS.setItem _ _

theorem ts_each (ns : List Node) (hw : WFAll ns) (d : Option MapId) : (items : List Any) → (t : Tape) → (fr : Frame) →
    fr.err = none → TS env B rec (inside t fr) (iterItems nest ns d items) fun e t' => e = none ∧ ∃ t1 fr',
      t' = inside t1 fr' ∧ t1.frame = t.frame ∧ t1.parents = t.parents ∧ StreamsEach E ns d items t fr t1 fr'
  | [], t, fr, _ => TS.pure ⟨rfl, t, fr, rfl, rfl, rfl, .nil⟩
  | it :: its, t, fr, he => by
    unfold Aitch.iterItems
    refine DS.then (ds_item it d) ?_
    refine TS.bind (ts_nodes N ns hw _ he) ?_
    rintro e t2 ⟨rfl, hm, ho⟩
    have hb := inside_back (t := t) (t2 := t2) hm.2
    have hl := ts_each ns hw d its (t.back t2) t2.frame (hm.1 he)
    rw [← hb] at hl
    refine TS.conseq hl ?_
    rintro e t3 ⟨rfl, t4, fr', hb4, hf, hpa, hos⟩
    exact ⟨rfl, t4, fr', hb4, hf, hpa, .cons ho hos⟩

variable (A : Alive env B E) (R : RecStreams env E rec)

omit N in
include A R in
theorem ts_runItems (fn : ItemSrc) (t : Tape) (he : t.frame.err = none) :
    TS env B rec t (runItems fn) fun its t' => Moves t t' ∧ StreamsItems E fn t its t' := by
  cases fn with
  | user f =>
    refine TS.conseq (ts_items A R f he) ?_
    rintro its t' ⟨hm, ho⟩
    exact ⟨hm, .fn ho⟩
  | key k => exact DS.then DS.ctx (TS.pure ⟨Moves.refl t, .key⟩)

include A R in
theorem ts_iterator (ns : List Node) (hw : WFAll ns) (fn : ItemSrc) (t : Tape) (he : t.frame.err = none) :
    TS env B rec t (renderIterator nest ns fn) fun e t' => e = none ∧ Moves t t' ∧
      Streams E (.iterator ns fn) t t' := by
  unfold Aitch.renderIterator
  refine DS.then DS.ctx ?_
  simp only [he]
  refine TS.bind (ts_runItems A R fn t he) ?_
  rintro its t1 ⟨hm, hi⟩
  cases its with
  | nil => exact TS.pure ⟨rfl, hm, .iterator hi .nil⟩
  | cons it its =>
    have he' := hm.1 he
    refine DS.then DS.ctx ?_
    refine DS.then (DS.enter _) ?_
    refine TS.bind (ts_each N ns hw _ (it :: its) t1 _ he') ?_
    rintro e t2 ⟨rfl, t3, fr', rfl, hf, hpa, ho⟩
    refine DS.then (DS.leave (f := t3.frame) (fs := t3.parents) rfl) ?_
    refine TS.pure ⟨rfl, hm.trans ⟨fun h => ?_, hpa⟩, .iterator hi (fr := fr') ?_⟩
    · simp only; rw [hf]; exact h
    · rw [he'] at ho
      exact ho

include A in
theorem ts_yielding (ns : List Node) (hw : WFAll ns) (y : Spec.Stream.Yielding) (hy : y.Calm) (t : Tape) (he : t.frame.err = none)
    (fr : Frame) (hf : fr.err = none) :
    TS env B rec t (Stream.runYield nest ns y.body fr) fun _ t' => Moves t t' ∧ StreamsYields E ns y t fr t' := by
  induction y generalizing t fr with
  | done => exact TS.pure ⟨Moves.refl t, .done⟩
  | act upd k ih =>
    unfold Spec.Stream.Yielding.body Aitch.Stream.runYield
    refine TS.bind (TS.user upd) ?_
    rintro s t1 ⟨hs, rfl⟩
    have hm := Moves.act hy.1 t
    simp only [hs]
    refine TS.conseq (ih _ (hy.2 _) _ (hm.1 he) fr hf) ?_
    rintro _ t2 ⟨hm2, ho⟩
    exact ⟨hm.trans hm2, .act ho⟩
  | write d k ih =>
    unfold Spec.Stream.Yielding.body Aitch.Stream.runYield
    refine DS.then (DS.write A.healthy d) (TS.bind TS.look ?_)
    rintro s t1 ⟨hs, rfl⟩
    simp only [hs]
    refine TS.conseq (ih _ (hy _) (t.put d) he fr hf) ?_
    rintro _ t2 ⟨hm2, ho⟩
    exact ⟨(Moves.put _ _).trans hm2, .write ho⟩
  | render n k ih =>
    unfold Spec.Stream.Yielding.body Aitch.Stream.runYield
    refine TS.bind (N n t hy.1 he) ?_
    rintro e t1 ⟨-, hm, ho⟩
    refine TS.bind TS.look ?_
    rintro s t1 ⟨hs, rfl⟩
    simp only [hs]
    refine TS.conseq (ih _ (hy.2 _) _ (hm.1 he) fr hf) ?_
    rintro _ t2 ⟨hm2, hos⟩
    exact ⟨hm.trans hm2, .render ho hos⟩
  | yield it k ih =>
    unfold Spec.Stream.Yielding.body Aitch.Stream.runYield
    refine DS.then (DS.enter _) (DS.then (ds_item (t := t) it fr.data) ?_)
    refine TS.bind (ts_nodes N ns hw _ hf) ?_
    rintro e t2 ⟨rfl, hm, ho⟩
    refine DS.then (DS.leave (f := t.frame) (fs := t.parents) hm.2) ?_
    refine DS.then DS.pure (TS.bind TS.look ?_)
    rintro s t3 ⟨hs, rfl⟩
    simp only [hs]
    have he' : (t.back t2).frame.err = none := he
    refine TS.conseq (ih _ (hy _) (t.back t2) he' _ (hm.1 hf)) ?_
    rintro _ t4 ⟨hm4, hos⟩
    exact ⟨Moves.trans (b := t.back t2) ⟨fun _ => he', rfl⟩ hm4, .yield ho hos⟩

include A R in
omit N in
theorem ts_startWrite (l : List (Bytes × Option (List Value))) (t : Tape) (he : t.frame.err = none) :
    TS env B rec t (startWrite l) fun _ t' => Moves t t' ∧ StreamsStarted E l t t' := by
  induction l generalizing t with
  | nil => exact TS.pure ⟨Moves.refl t, .nil⟩
  | cons p l ih =>
    obtain ⟨n, vs⟩ := p
    unfold Aitch.startWrite
    refine DS.then (DS.ctxWrite A.healthy (by exact he) _) (DS.then (DS.ctxWrite A.healthy (by exact he) _) ?_)
    cases vs with
    | none =>
      refine DS.then DS.pure (TS.conseq (ih _ he) ?_)
      rintro _ t1 ⟨hm, ho⟩
      rw [put_put] at ho
      exact ⟨hm, .bool ho⟩
    | some vs =>
      refine TS.bind (Q1 := fun _ t' => Moves t t' ∧ ∃ t1 b,
        StreamsValues E vs (t.put (b%" " ++ n ++ b%"=\"")) b t1 ∧ t' = t1.put b%"\"") ?_ ?_
      · refine DS.then (DS.ctxWrite A.healthy (by exact he) _) (TS.bind (ts_renderValues A R vs _ he) ?_)
        rintro _ t1 ⟨hm, b, ho⟩
        refine TS.conseq (DS.ctxWrite A.healthy (by exact hm.1 he) _) ?_
        rintro _ t2 ⟨_, rfl⟩
        exact ⟨hm.trans (Moves.put _ _), t1, b, by simpa [put_put] using ho, rfl⟩
      · rintro _ t1 ⟨hm, t2, b, ho, rfl⟩
        refine TS.conseq (ih _ (hm.1 he)) ?_
        rintro _ t3 ⟨hm3, hos⟩
        exact ⟨hm.trans hm3, .valued ho hos⟩

include A R in
theorem ts_doing (p : Spec.Stream.Doing) (hp : p.Calm) (stack : List Bytes) (t : Tape) (he : t.frame.err = none) :
    TS env B rec t (runImp nest p.body stack) fun e t' => e = none ∧ Moves t t' ∧ StreamsDoing E p stack t t' := by
  induction p generalizing stack t with
  | done => exact TS.pure ⟨rfl, Moves.refl t, .done⟩
  | act upd k ih =>
    unfold Spec.Stream.Doing.body Aitch.runImp
    refine TS.bind (TS.user upd) ?_
    rintro s t1 ⟨hs, rfl⟩
    have hm := Moves.act hp.1 t
    simp only [hs]
    refine TS.conseq (ih _ (hp.2 _) stack _ (hm.1 he)) ?_
    rintro e t2 ⟨rfl, hm2, ho⟩
    exact ⟨rfl, hm.trans hm2, .act ho⟩
  | write d k ih =>
    unfold Spec.Stream.Doing.body Aitch.runImp
    refine DS.then (DS.write A.healthy d) (TS.bind TS.look ?_)
    rintro s t1 ⟨hs, rfl⟩
    simp only [hs]
    refine TS.conseq (ih _ (hp _) stack (t.put d) he) ?_
    rintro e t2 ⟨rfl, hm2, ho⟩
    exact ⟨rfl, (Moves.put _ _).trans hm2, .write ho⟩
  | render n k ih =>
    unfold Spec.Stream.Doing.body Aitch.runImp
    refine TS.bind (N n t hp.1 he) ?_
    rintro e t1 ⟨rfl, hm, ho⟩
    refine TS.bind TS.look ?_
    rintro s t2 ⟨hs, rfl⟩
    simp only [hs]
    refine TS.conseq (ih _ (hp.2 _) stack _ (hm.1 he)) ?_
    rintro e t3 ⟨rfl, hm2, hos⟩
    exact ⟨rfl, hm.trans hm2, .render ho hos⟩
  | call op k ih =>
    unfold Spec.Stream.Doing.body Aitch.runImp
    have rest : ∀ (stack' : List Bytes) (t1 : Tape), Moves t t1 →
        (∀ t2, StreamsDoing E (k t1) stack' t1 t2 → StreamsDoing E (.call op k) stack t t2) →
        TS env B rec t1 (do let s ← Do.look; Aitch.runImp nest (k (tape s)).body stack')
          fun e t' => e = none ∧ Moves t t' ∧ StreamsDoing E (.call op k) stack t t' := by
      intro stack' t1 hm hout
      refine TS.bind TS.look ?_
      rintro s t2 ⟨hs, rfl⟩
      rw [hs]
      refine TS.conseq (ih _ (hp.2 _) stack' t2 (hm.1 he)) ?_
      rintro e t3 ⟨rfl, hm3, ho⟩
      exact ⟨rfl, hm.trans hm3, hout _ ho⟩
    cases op with
    | writeString d =>
      exact DS.then (DS.then (DS.ctxWrite A.healthy (by exact he) _) DS.pure)
        (rest _ _ (Moves.put _ _) fun t2 h => .writeString h)
    | writeRaw d =>
      exact DS.then (DS.then (DS.ctxWrite A.healthy (by exact he) _) DS.pure)
        (rest _ _ (Moves.put _ _) fun t2 h => .writeRaw h)
    | writeNodes ns =>
      refine TS.bind (Q1 := fun st t' => st = stack ∧ Moves t t' ∧ StreamsAll E (contentNodes ns) t t') ?_ ?_
      · refine TS.bind (ts_ignore N ns (fun n h => hp.1 ns n rfl h) t he) ?_
        rintro _ t1 ⟨hm, ho⟩
        exact TS.pure ⟨rfl, hm, ho⟩
      · rintro st t1 ⟨rfl, hm, ho⟩
        exact rest _ _ hm fun t2 h => .writeNodes ho h
    | start n isVoid attrs =>
      refine TS.bind (Q1 := fun st t' => st = (if isVoid then stack else n :: stack) ∧ Moves t t' ∧ ∃ t1,
        StreamsStarted E (startCollect t.dl attrs []) (t.put (b%"<" ++ n)) t1 ∧ t' = t1.put b%">") ?_ ?_
      · refine TS.bind (Q1 := fun _ t' => Moves t t' ∧ ∃ t1,
          StreamsStarted E (startCollect t.dl attrs []) (t.put (b%"<" ++ n)) t1 ∧ t' = t1.put b%">") ?_ ?_
        · refine DS.then (DS.ctxWrite A.healthy (by exact he) _) (DS.then (DS.ctxWrite A.healthy (by exact he) _) (DS.then DS.ctx ?_))
          refine TS.bind (ts_startWrite A R _ _ he) ?_
          rintro _ t1 ⟨hm, ho⟩
          refine TS.conseq (DS.ctxWrite A.healthy (by exact hm.1 he) _) ?_
          rintro _ t2 ⟨_, rfl⟩
          rw [put_put] at ho
          exact ⟨hm.trans (Moves.put _ _), t1, ho, rfl⟩
        · rintro _ t1 h
          exact TS.pure ⟨rfl, h⟩
      · rintro st t1 ⟨rfl, hm, t2, ho, rfl⟩
        exact rest _ _ hm fun t3 h => .start ho h
    | «end» =>
      cases stack with
      | nil => exact DS.then DS.pure (rest _ _ (Moves.refl t) fun t2 h => .endNone h)
      | cons n st =>
        exact DS.then (DS.then (ds_endTag A he n) DS.pure) (rest _ _ (Moves.put _ _) fun t2 h => .endSome h)
    | endAll =>
      exact DS.then (DS.then (ds_endTags A he stack) DS.pure) (rest _ _ (Moves.put _ _) fun t2 h => .endAll h)

include A R in
theorem nestStreams_step : NestStreams env B E rec (step B nest) := by
  intro n t hw he
  have ret : ∀ {n : Node} {t1 : Tape}, Moves t t1 → Streams E n t t1 →
      TS env B rec t1 retErr fun e t' => e = none ∧ Moves t t' ∧ Streams E n t t' := by
    intro n t1 hm ho
    exact DS.then DS.ctx (TS.pure ⟨hm.1 he, hm, ho⟩)
  have W := fun (d : Bytes) (t1 : Tape) (h : t1.frame.err = none) =>
    DS.ctxWrite (env := env) (B := B) (rec := rec) (t := t1) A.healthy h d
  cases n with
  | element h contents =>
    obtain ⟨hh, hc⟩ : WFHead h ∧ WFAll contents := by simpa [WF] using hw
    unfold Aitch.Stream.step Aitch.renderStep
    refine TS.bind (ts_renderStartTag A R hh t he) ?_
    rintro _ t1 ⟨hm, hp⟩
    refine TS.bind (ts_content N contents hc t1 (hm.1 he)) ?_
    rintro _ t2 ⟨hm2, hos⟩
    have hm3 := hm.trans hm2
    exact DS.then (ds_endTag A (hm3.1 he) _) (ret (hm3.trans (Moves.put _ _)) (.element hp hos))
  | voidElement h =>
    have hh : WFHead h := by simpa [WF] using hw
    unfold Aitch.Stream.step Aitch.renderStep
    refine TS.bind (ts_renderStartTag A R hh t he) ?_
    rintro _ t1 ⟨hm, hp⟩
    exact ret hm (.voidElement hp)
  | attr a =>
    unfold Aitch.Stream.step Aitch.renderStep
    refine TS.bind (ts_renderAttr A R a t he) ?_
    rintro _ t1 ⟨hm, hp⟩
    exact ret hm (.attr hp)
  | text vs =>
    unfold Aitch.Stream.step Aitch.renderStep
    refine TS.bind (ts_renderValues A R vs t he) ?_
    rintro _ t1 ⟨hm, b, hp⟩
    exact ret hm (.text hp)
  | fragment vs =>
    unfold Aitch.Stream.step Aitch.renderStep
    refine TS.bind (ts_renderValues A R vs t he) ?_
    rintro _ t1 ⟨hm, b, hp⟩
    exact ret hm (.fragment hp)
  | comment vs =>
    unfold Aitch.Stream.step Aitch.renderStep
    refine DS.then (W _ _ he) (TS.bind (ts_renderValues A R vs _ he) ?_)
    rintro _ t1 ⟨hm, b, hp⟩
    exact DS.then (W _ _ (hm.1 he)) (ret (hm.trans (Moves.put _ _)) (.comment hp))
  | pi name vs =>
    unfold Aitch.Stream.step Aitch.renderStep
    refine DS.then (W _ _ he) (DS.then (W _ _ he) (DS.then (W _ _ he) (TS.bind (ts_renderValues A R vs _ he) ?_)))
    rintro _ t1 ⟨hm, b, hp⟩
    simp only [put_put] at hp
    exact DS.then (W _ _ (hm.1 he)) (ret (hm.trans (Moves.put _ _)) (.pi (by simpa using hp)))
  | collection ns =>
    unfold Aitch.Stream.step Aitch.renderStep
    refine TS.bind (ts_collection N ns (by simpa [WF] using hw) t he) ?_
    rintro _ t1 ⟨hm, ho⟩
    exact ret hm (.collection ho)
  | conditional ns as fn =>
    unfold Aitch.Stream.step Aitch.renderStep
    refine TS.bind (ts_runCond A R fn t he) ?_
    rintro b t1 ⟨hm, hb⟩
    cases b
    · exact DS.then DS.pure (ret hm (.conditionalOff hb))
    · refine TS.bind (ts_conditional N ns (by simpa [WF] using hw) t1 (hm.1 he)) ?_
      rintro _ t2 ⟨hm2, ho⟩
      exact ret (hm.trans hm2) (.conditionalOn hb ho)
  | collector f =>
    unfold Aitch.Stream.step Aitch.renderStep
    refine TS.bind (ts_collect A R f he) ?_
    rintro ns t1 ⟨hm, hns, hc⟩
    refine TS.bind (ts_ignore N ns hns t1 (hm.1 he)) ?_
    rintro _ t2 ⟨hm2, ho⟩
    exact ret (hm.trans hm2) (.collector hc ho)
  | imperative o =>
    cases o with
    | none => exact TS.pure ⟨rfl, Moves.refl t, .imperativeNil⟩
    | some f =>
      unfold Aitch.Stream.step Aitch.renderStep
      refine DS.then (ts_imp A f) (TS.conseq (ts_doing N A R _ (A.calm.imp f t) [] t he) ?_)
      rintro e t' ⟨h1, h2, h3⟩
      exact ⟨h1, h2, .imperative h3⟩
  | iterator ns fn => exact ts_iterator N A R ns (by simpa [WF] using hw) fn t he
  | yieldIterator ns f =>
    unfold Aitch.Stream.step Aitch.Stream.renderYield
    refine DS.then DS.ctx ?_
    simp only [he]
    refine TS.bind TS.look ?_
    rintro s t ⟨hs, rfl⟩
    rw [A.behaves.yields, hs]
    refine TS.bind (ts_yielding N A ns (by simpa [WF] using hw) _ (A.calm.yields f t) t he _ rfl) ?_
    rintro _ t1 ⟨hm, ho⟩
    exact ret hm (.yieldIterator ho)
  | document prologue contents =>
    have hp : WFAll (prologue.toList ++ contents) := by
      cases prologue with
      | none => simpa [WF] using hw
      | some p => simpa [WF, WFAll] using hw
    unfold Aitch.Stream.step Aitch.renderStep
    refine TS.bind (ts_document N _ hp t he) ?_
    rintro _ t1 ⟨hm, ho⟩
    exact ret hm (.document ho)

end

theorem nestStreams (A : Alive env B E) (R : RecStreams env E rec) (fuel : Nat) :
    NestStreams env B E rec (nested B fuel) := by
  induction fuel with
  | zero => intro n t _ _; exact TS.stuck
  | succ fuel ih => exact nestStreams_step ih A R

theorem recStreams (A : Alive env B E) (fuel : Nat) : RecStreams env E (renderWith B fuel) := by
  induction fuel with
  | zero => intro n t _ _; exact TR.stuck
  | succ fuel ih => exact nestStreams A ih (fuel + 1)

end

end Aitch.Stream

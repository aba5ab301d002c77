import Verif.Spec.Out
/-
A small program logic for rendering programs under a healthy writer and pure user functions.
-/
namespace Aitch
open Spec

theorem exec_pure {α} (env : Env) (a : α) (s : St) : exec env (pure a : Prog α) s = some (a, s) := rfl

theorem exec_bind {α β} (env : Env) (m : Prog α) (f : α → Prog β) (s : St) :
    exec env (m >>= f) s = (exec env m s).bind fun p => exec env (f p.1) p.2 := by
  change exec env (m.bind f) s = _
  induction m generalizing s with
  | pure a => rfl
  | step a k ih => simp only [Prog.bind, exec]; exact ih _ _
  | stuck => rfl

/-- If `m` started in context `c` ends, it has written bytes `w` and result and context satisfy `Q`. -/
def Tr {α} (env : Env) (c : Ctx) (m : Prog α) (Q : α → Ctx → Bytes → Prop) : Prop :=
  ∀ s r s', s.toCtx = c → exec env m s = some (r, s') → ∃ w, s'.out = s.out ++ w ∧ Q r s'.toCtx w

theorem Tr.pure {α} {env : Env} {c : Ctx} {a : α} {Q : α → Ctx → Bytes → Prop} (h : Q a c []) :
    Tr env c (Pure.pure a) Q := by
  intro s r s' hs he
  rw [exec_pure] at he
  simp only [Option.some.injEq, Prod.mk.injEq] at he
  obtain ⟨rfl, rfl⟩ := he
  exact ⟨[], by simp, hs ▸ h⟩

theorem Tr.bind {α β} {env : Env} {c : Ctx} {m : Prog α} {f : α → Prog β} {Q1 : α → Ctx → Bytes → Prop}
    {Q : β → Ctx → Bytes → Prop} (hm : Tr env c m Q1)
    (hf : ∀ a c1 w1, Q1 a c1 w1 → Tr env c1 (f a) (fun r c2 w2 => Q r c2 (w1 ++ w2))) :
    Tr env c (m >>= f) Q := by
  intro s r s' hs he
  rw [exec_bind] at he
  cases h1 : exec env m s with
  | none => rw [h1] at he; simp at he
  | some p =>
    obtain ⟨a, s1⟩ := p
    rw [h1] at he
    obtain ⟨w1, ho1, hq1⟩ := hm s a s1 hs h1
    obtain ⟨w2, ho2, hq2⟩ := hf a s1.toCtx w1 hq1 s1 r s' rfl he
    exact ⟨w1 ++ w2, by rw [ho2, ho1, List.append_assoc], hq2⟩

theorem Tr.conseq {α} {env : Env} {c : Ctx} {m : Prog α} {Q Q' : α → Ctx → Bytes → Prop}
    (h : Tr env c m Q) (hq : ∀ r c' w, Q r c' w → Q' r c' w) : Tr env c m Q' := by
  intro s r s' hs he
  obtain ⟨w, ho, hw⟩ := h s r s' hs he
  exact ⟨w, ho, hq _ _ _ hw⟩

theorem Tr.stuck {α} {env : Env} {c : Ctx} {Q : α → Ctx → Bytes → Prop} : Tr env c .stuck Q := by
  intro s r s' hs he; simp [exec] at he

/-- A single effect. -/
theorem Tr.step {α} {env : Env} {c : Ctx} {a : Action} {k : a.Resp → Prog α} {Q : α → Ctx → Bytes → Prop}
    (h : ∀ s, s.toCtx = c → ∃ w, (a.run env s).2.out = s.out ++ w ∧
      Tr env (a.run env s).2.toCtx (k (a.run env s).1) (fun r c' w' => Q r c' (w ++ w'))) :
    Tr env c (.step a k) Q := by
  intro s r s' hs he
  obtain ⟨w, ho, hk⟩ := h s hs
  obtain ⟨w', ho', hq⟩ := hk _ r s' rfl he
  exact ⟨w ++ w', by rw [ho', ho, List.append_assoc], hq⟩

/-- `m` started in `c` writes `w`, returns `r` and keeps the context. -/
def E {α} (env : Env) (c : Ctx) (m : Prog α) (r : α) (w : Bytes) : Prop :=
  Tr env c m (fun r' c' w' => r' = r ∧ c' = c ∧ w' = w)

theorem E.pure {α} {env : Env} {c : Ctx} {a : α} : E env c (Pure.pure a) a [] := Tr.pure ⟨rfl, rfl, rfl⟩

theorem E.bind {α β} {env : Env} {c : Ctx} {m : Prog α} {f : α → Prog β} {a : α} {r : β} {w1 w2 : Bytes}
    (hm : E env c m a w1) (hf : E env c (f a) r w2) : E env c (m >>= f) r (w1 ++ w2) := by
  refine Tr.bind hm ?_
  rintro a' c' w' ⟨rfl, rfl, rfl⟩
  exact hf.conseq fun r c' w ⟨h1, h2, h3⟩ => ⟨h1, h2, by rw [h3]⟩

/-- Sequencing after a deterministic part. -/
theorem E.bindTr {α β} {env : Env} {c : Ctx} {m : Prog α} {f : α → Prog β} {a : α} {w1 : Bytes}
    {Q : β → Ctx → Bytes → Prop}
    (hm : E env c m a w1) (hf : Tr env c (f a) (fun r c' w => Q r c' (w1 ++ w))) : Tr env c (m >>= f) Q := by
  refine Tr.bind hm ?_
  rintro a' c' w' ⟨rfl, rfl, rfl⟩
  exact hf

theorem E.of_eq {α} {env : Env} {c : Ctx} {m : Prog α} {r : α} {w w' : Bytes} (h : E env c m r w) (e : w = w') :
    E env c m r w' := e ▸ h

/-- The hypotheses of the specification on the environment. -/
structure Good (env : Env) (P : Fns) : Prop where
  healthy : Healthy env
  computes : Computes env P

theorem confine_self (s : St) : s.confine s = s := rfl

section
variable {env : Env} {P : Fns} {c : Ctx}

theorem E.ctx : E env c Do.ctx c [] := by
  refine Tr.step fun s hs => ⟨[], by simp [Action.run], Tr.pure ?_⟩
  simp [Action.run, hs]

theorem out_wrote (s : St) (d : Bytes) : (s.wrote d (d.length, none)).out = s.out ++ d := by
  simp [St.out, accepted, St.wrote]

theorem Tr.write (H : Healthy env) (d : Bytes) :
    E env c (Do.write d) (d.length, none) d := by
  refine Tr.step fun s hs => ⟨d, ?_, Tr.pure ?_⟩
  · simp only [Action.run]; rw [H s.log d]; exact out_wrote s d
  · simp only [Action.run, St.wrote, List.append_nil]; exact ⟨H s.log d, hs, trivial⟩

theorem Tr.setErr (e : Option Err) :
    Tr env c (Do.setErr e) (fun _ c' w => c' = { c with frame := { c.frame with err := e } } ∧ w = []) := by
  refine Tr.step fun s hs => ⟨[], ?_, Tr.pure ⟨?_, rfl⟩⟩
  · simp [Action.run, St.setErr, St.out]
  · simp only [Action.run, St.setErr, ← hs]

theorem E.setErr {e : Option Err} (h : c.frame.err = e) : E env c (Do.setErr e) () [] := by
  refine (Tr.setErr e).conseq ?_
  rintro ⟨⟩ c' w ⟨h1, h2⟩
  refine ⟨rfl, ?_, h2⟩
  rw [h1, ← h]

theorem E.dyn (G : Good env P) (f : FnId) : E env c (Do.dyn f) (P.dyn f c) [] := by
  refine Tr.step fun s hs => ⟨[], ?_, Tr.pure ?_⟩ <;> simp [Action.run, G.computes.dyn, confine_self, hs]

theorem E.cond (G : Good env P) (f : FnId) : E env c (Do.cond f) (P.cond f c) [] := by
  refine Tr.step fun s hs => ⟨[], ?_, Tr.pure ?_⟩ <;> simp [Action.run, G.computes.cond, confine_self, hs]

theorem E.collect (G : Good env P) (f : FnId) : E env c (Do.collect f) (P.collect f c) [] := by
  refine Tr.step fun s hs => ⟨[], ?_, Tr.pure ?_⟩ <;> simp [Action.run, G.computes.collect, confine_self, hs]

theorem E.items (G : Good env P) (f : FnId) : E env c (Do.items f) (P.items f c) [] := by
  refine Tr.step fun s hs => ⟨[], ?_, Tr.pure ?_⟩ <;> simp [Action.run, G.computes.items, confine_self, hs]

theorem E.yields (G : Good env P) (f : FnId) : E env c (Do.yields f) (yieldsOf (P.yields f c)) [] := by
  refine Tr.step fun s hs => ⟨[], ?_, Tr.pure ?_⟩ <;> simp [Action.run, G.computes.yields, hs]

theorem Tr.imp (G : Good env P) (f : FnId) :
    Tr env c (Do.imp f) (fun p c' w => MakesCalls p (P.imp f c) ∧ c' = c ∧ w = []) := by
  refine Tr.step fun s hs => ⟨[], ?_, Tr.pure ⟨?_, ?_, ?_⟩⟩
  · simp [Action.run]
  · simpa [Action.run, hs] using G.computes.imp f s
  · simpa [Action.run] using hs
  · simp

theorem Tr.look : Tr env c Do.look (fun s c' w => s.toCtx = c ∧ c' = c ∧ w = []) := by
  refine Tr.step fun s hs => ⟨[], ?_, Tr.pure ?_⟩ <;> simp [Action.run, hs]

theorem Tr.order (ks : List Bytes) : Tr env c (Do.order ks) (fun r c' w => r.Perm ks ∧ c' = c ∧ w = []) := by
  refine Tr.step fun s hs => ⟨[], ?_, Tr.pure ?_⟩
  · simp [Action.run, St.out]
  · simp [Action.run, env.order_perm, hs]

theorem Tr.enter (child : Frame) :
    Tr env c (Do.enter child)
      (fun _ c' w => c' = { c with frame := child, parents := c.frame :: c.parents } ∧ w = []) := by
  refine Tr.step fun s hs => ⟨[], ?_, Tr.pure ?_⟩
  · simp [Action.run, St.out]
  · simp [Action.run, ← hs]

theorem Tr.setItem (it : Any) (d : Option MapId) :
    Tr env c (Do.setItem it d)
      (fun _ c' w => c' = { c with frame := { c.frame with cargo := it, data := d } } ∧ w = []) := by
  refine Tr.step fun s hs => ⟨[], ?_, Tr.pure ?_⟩
  · simp [Action.run, St.out]
  · simp [Action.run, ← hs]

theorem Tr.leave {f : Frame} {fs : List Frame} (h : c.parents = f :: fs) :
    Tr env c Do.leave
      (fun r c' w => r = c.frame ∧ c' = { c with frame := f, parents := fs } ∧ w = []) := by
  refine Tr.step fun s hs => ?_
  have hp : s.parents = f :: fs := by rw [hs]; exact h
  refine ⟨[], ?_, Tr.pure ?_⟩
  · simp [Action.run, St.out, hp]
  · simp [Action.run, hp, ← hs]

theorem E.ctxWrite (H : Healthy env) (he : c.frame.err = none) (d : Bytes) : E env c (ctxWrite d) () d := by
  unfold Aitch.ctxWrite
  have h1 : E env c (Do.write d >>= fun r => Do.setErr r.2) () (d ++ []) :=
    E.bind (Tr.write H d) (E.setErr he)
  have : E env c (match c.frame.err with
    | none => do let r ← Do.write d; Do.setErr r.2
    | some _ => Pure.pure ()) () (d ++ []) := by rw [he]; exact h1
  exact E.of_eq (E.bind E.ctx this) (by simp)

theorem E.retErr : E env c retErr c.frame.err [] := by
  unfold Aitch.retErr
  exact E.bind E.ctx E.pure

end

end Aitch

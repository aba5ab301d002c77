import Verif.Proofs.Complete
import Verif.Proofs.Fuel
/-
Nodes that call no user functions.
-/
namespace Aitch
open Spec

theorem exec_congr {I : Ctx → Prop} {p : Action → Prop} {α : Type} {m : Prog α} {env env' : Env} (h : Only I p m)
    (K : Keeps env I p) (he : ∀ a s, p a → a.run env s = a.run env' s) (s : St) (hs : I s.toCtx) :
    exec env m s = exec env' m s := by
  induction h generalizing s with
  | pure a => rfl
  | step a k hp _ ih =>
    simp only [exec]
    rw [ih _ (respOK env a s hs) _ (K a s hp hs), he a s hp]

/-- Effects other than calls of user functions. -/
def NoCall : Action → Prop
  | .dyn _ | .cond _ | .collect _ | .items _ | .yields _ | .imp _ | .user _ => False
  | _ => True

/-- The memory holds the delimited attributes `dl`. -/
def HasDl (dl : Nat → List Value) (c : Ctx) : Prop := c.dl = dl

theorem keeps_noCall (env : Env) (dl : Nat → List Value) : Keeps env (HasDl dl) NoCall := by
  intro a s hp hs
  cases a with
  | leave => simp only [Action.run]; split <;> exact hs
  | dyn | cond | collect | items | yields | imp | user => exact hp.elim
  | _ => exact hs

theorem allows_noCall (dl : Nat → List Value) :
    Allows (HasDl dl) NoCall (fun _ => False) (fun r => ValuesUse (fun _ => False) (dl r)) where
  ctx := trivial
  write _ := trivial
  setErr _ := trivial
  heap c hc r hr := by cases hc; exact hr
  fns _ h _ := h.elim
  yields _ h := h.elim
  order _ := trivial
  enter _ := trivial
  setItem _ _ := trivial
  leave := trivial
  look _ h := h.elim
  user _ _ h := h.elim

theorem only_of_callbackFree {dl : Nat → List Value} {n : Node} (h : CallbackFree dl n) :
    Only (HasDl dl) NoCall (renderProg (depth n) n) := .renderProg (allows_noCall dl) _ n h (Nat.le_refl _)

/-- `env` with other user functions. -/
def withFns (env : Env) (P : Fns) : Env where
  write := env.write
  dyn f s := (P.dyn f s.toCtx, s)
  cond f s := (P.cond f s.toCtx, s)
  collect f s := (P.collect f s.toCtx, s)
  items f s := (P.items f s.toCtx, s)
  yields f s := yieldsOf (P.yields f s.toCtx)
  imp f s := impOf (P.imp f s.toCtx)
  order := env.order
  order_perm := env.order_perm

theorem runs_iff {env : Env} {n : Node} {s s' : St} {e : Option Err} {fuel : Nat} {r : Option Err × St}
    (h : render env fuel n s = some r) : Runs env n s e s' ↔ (e, s') = r := by
  constructor
  · rintro ⟨f, hf⟩; exact render_unique hf h
  · rintro rfl; exact ⟨fuel, h⟩

/-- A callback-free node's render ends, and does not depend on the user functions. -/
theorem callbackFree_runs {env : Env} (P : Fns) {n : Node} {s : St} (h : CallbackFree s.dl n) :
    ∃ e s', Runs env n s e s' ∧ Runs (withFns env P) n s e s' := by
  have ho := only_of_callbackFree h
  obtain ⟨e, s', h1, -⟩ := ho.exec (keeps_noCall env s.dl) s rfl
  refine ⟨e, s', ⟨_, h1⟩, ⟨depth n, ?_⟩⟩
  unfold render
  rw [← h1]
  refine (exec_congr ho (keeps_noCall env s.dl) ?_ s rfl).symm
  intro a s hp
  cases a with
  | dyn | cond | collect | items | yields | imp | user => exact hp.elim
  | _ => rfl

/-- Functions that return nothing. -/
def noFns : Fns := ⟨fun _ _ => [], fun _ _ => false, fun _ _ => [], fun _ _ => [], fun _ _ => [], fun _ _ => []⟩

theorem wfFns_noFns : WFFns noFns := ⟨fun _ _ _ h => by simp [noFns] at h, fun _ _ _ _ h => by simp [noFns] at h⟩

/-- Refinement for callback-free nodes: the writer has to be healthy, the user functions may be anything. -/
theorem callbackFree_refines {env : Env} (H : Healthy env) {P : Fns} (F : WFFns P) {n : Node} (wf : WF n) {s : St}
    (hc : CallbackFree s.dl n) (he : s.frame.err = none) :
    ∃ s' w, Runs env n s none s' ∧ s'.toCtx = s.toCtx ∧ Out P s.toCtx n w ∧ s'.out = s.out ++ w := by
  obtain ⟨e, s', h1, f, h2⟩ := callbackFree_runs (env := env) P hc
  have G : Good (withFns env P) P := ⟨H, ⟨fun _ _ => rfl, fun _ _ => rfl, fun _ _ => rfl, fun _ _ => rfl,
    fun _ _ => rfl, fun _ _ => makesCalls_impOf _⟩⟩
  obtain ⟨rfl, h3, w, h4, h5⟩ := render_refines G F wf he h2
  exact ⟨s', w, h1, h3, h4, h5⟩

theorem runs_unique {env : Env} {n : Node} {s s₁ s₂ : St} {e₁ e₂ : Option Err} (h₁ : Runs env n s e₁ s₁)
    (h₂ : Runs env n s e₂ s₂) : e₁ = e₂ ∧ s₁ = s₂ := by
  obtain ⟨_, h₁⟩ := h₁
  obtain ⟨_, h₂⟩ := h₂
  simpa using render_unique h₁ h₂

end Aitch

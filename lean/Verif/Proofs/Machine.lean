import Verif.Proofs.Uniform
import Verif.Proofs.Fuel
/-
Goroutines that render at the same time do what they would do alone.
-/
namespace Aitch
open Spec

/-- An effect that leaves the shared memory alone, whose response and own state do not depend on it (up to `R`). -/
def Respects (R : Shared → Shared → Prop) (I : Ctx → Prop) (N : Node → Prop) (env : Env) (a : Action) : Prop :=
  (∀ s s', Sim R s s' → RespRel R a (a.run env s).1 (a.run env s').1 ∧ Sim R (a.run env s).2 (a.run env s').2 ∧
    R s.shared (a.run env s).2.shared) ∧
  ∀ s, I s.toCtx → RespUni R I N a (a.run env s).1

section
variable {R : Shared → Shared → Prop} (hR : Equivalence R) {env : Env} {ρ : Nat → Prop}

theorem joinSt_own_shared (s : St) : joinSt s.own s.shared = s := rfl

theorem sim_own {s s' : St} (h : s.own = s'.own) :
    s.frame = s'.frame ∧ s.parents = s'.parents ∧ s.log = s'.log ∧ s.tick = s'.tick := by
  simpa [St.own] using h

include hR

theorem quietCall_sim {α : Type} {f : St → α × St} (h : QuietCall R f) {s s' : St} (hs : Sim R s s') :
    Sim R (s.confine (f s).2) (s'.confine (f s').2) ∧ R s.shared (s.confine (f s).2).shared := by
  obtain ⟨h1, h2, h3, h4⟩ := sim_own hs.1
  refine ⟨⟨?_, ?_⟩, h.keeps s⟩
  · simp [St.own, St.confine, (h.same s s' hs).2, h2, h3, h4]
  · exact hR.trans (hR.symm (h.keeps s)) (hR.trans hs.2 (h.keeps s'))

theorem respects_fn {I : Ctx → Prop} {N : Node → Prop} {a : Action} (h : QuietFn R N env a) : Respects R I N env a := by
  cases a with
  | dyn f => exact ⟨fun s s' hs => ⟨(QuietCall.same h s s' hs).1, (quietCall_sim hR h hs).1, (quietCall_sim hR h hs).2⟩,
      fun _ _ => trivial⟩
  | cond f => exact ⟨fun s s' hs => ⟨(QuietCall.same h s s' hs).1, (quietCall_sim hR h hs).1, (quietCall_sim hR h hs).2⟩,
      fun _ _ => trivial⟩
  | items f => exact ⟨fun s s' hs => ⟨(QuietCall.same h s s' hs).1, (quietCall_sim hR h hs).1, (quietCall_sim hR h hs).2⟩,
      fun _ _ => trivial⟩
  | yields f => exact ⟨fun s s' hs => ⟨h.1 s s' hs, hs, hR.refl _⟩, fun s _ => h.2 s⟩
  | collect f =>
    exact ⟨fun s s' hs => ⟨(h.1.same s s' hs).1, (quietCall_sim hR h.1 hs).1, (quietCall_sim hR h.1 hs).2⟩, fun s _ => h.2 s⟩
  | imp f => exact ⟨fun s s' hs => ⟨h.1 s s' hs, hs, hR.refl _⟩, fun s _ => h.2 s⟩
  | _ => exact h.elim

theorem uniTree (hmem : ∀ sh sh', R sh sh' → SameFor ρ sh sh') {q : Action → Prop} (hq : QuietFns R env q ρ) :
    UniTree R (fun c => HeapUses q ρ c.dl) (Respects R (fun c => HeapUses q ρ c.dl) (NodeCalls q ρ) env) q ρ where
  ctx := by
    refine ⟨fun s s' hs => ?_, fun s h => h⟩
    obtain ⟨h1, h2, h3, h4⟩ := sim_own hs.1
    exact ⟨⟨h1, h2, hs.2⟩, hs, hR.refl _⟩
  write d := by
    refine ⟨fun s s' hs => ?_, fun _ _ => trivial⟩
    obtain ⟨h1, h2, h3, h4⟩ := sim_own hs.1
    refine ⟨?_, ⟨?_, hs.2⟩, hR.refl _⟩
    · simp only [RespRel, Action.run, h3]; rfl
    · simp [Action.run, St.own, St.wrote, h1, h2, h3, h4]
  setErr e := by
    refine ⟨fun s s' hs => ?_, fun _ _ => trivial⟩
    obtain ⟨h1, h2, h3, h4⟩ := sim_own hs.1
    exact ⟨rfl, ⟨by simp [Action.run, St.own, St.setErr, h1, h2, h3, h4], hs.2⟩, hR.refl _⟩
  heap c h := h
  fns a h _ := respects_fn hR (hq a h)
  maps sh sh' h := (hmem sh sh' h).1
  dl sh sh' h := (hmem sh sh' h).2
  order ks := by
    refine ⟨fun s s' hs => ?_, fun _ _ => trivial⟩
    obtain ⟨h1, h2, h3, h4⟩ := sim_own hs.1
    exact ⟨by simp only [RespRel, Action.run, h4]; rfl, ⟨by simp [Action.run, St.own, h1, h2, h3, h4], hs.2⟩, hR.refl _⟩
  enter f := by
    refine ⟨fun s s' hs => ?_, fun _ _ => trivial⟩
    obtain ⟨h1, h2, h3, h4⟩ := sim_own hs.1
    exact ⟨rfl, ⟨by simp [Action.run, St.own, h1, h2, h3, h4], hs.2⟩, hR.refl _⟩
  setItem i d := by
    refine ⟨fun s s' hs => ?_, fun _ _ => trivial⟩
    obtain ⟨h1, h2, h3, h4⟩ := sim_own hs.1
    exact ⟨rfl, ⟨by simp [Action.run, St.own, h1, h2, h3, h4], hs.2⟩, hR.refl _⟩
  leave := by
    refine ⟨fun s s' hs => ?_, fun _ _ => trivial⟩
    obtain ⟨h1, h2, h3, h4⟩ := sim_own hs.1
    simp only [Action.run]
    rw [← h2]
    cases hp : s.parents with
    | nil => exact ⟨h1, hs, hR.refl _⟩
    | cons f fs => exact ⟨h1, ⟨by simp [St.own, h3, h4], hs.2⟩, hR.refl _⟩
  look := ⟨fun s s' hs => ⟨hs, hs, hR.refl _⟩, fun _ _ => trivial⟩
  user u hu := ⟨fun s s' hs => ⟨(quietCall_sim hR hu hs).1, (quietCall_sim hR hu hs).1, (quietCall_sim hR hu hs).2⟩, fun _ _ => trivial⟩

end

/-- How many effects a program performs. -/
def execSteps {α : Type} (env : Env) : Prog α → St → Nat
  | .pure _, _ => 0
  | .step a k, s => 1 + execSteps env (k (a.run env s).1) (a.run env s).2
  | .stuck, _ => 0

section
variable {ι : Type} [DecidableEq ι] {R : Shared → Shared → Prop} {nodes : ι → Node} {envs : ι → Env} {fuel : ι → Nat}
  {own : ι → Local} {sh : Shared} {I : ι → Ctx → Prop}
  {N : ι → Node → Prop}

/-- After `k` turns goroutine `i` is where it would be alone after `k` effects. -/
structure Alone (R : Shared → Shared → Prop) (I : Ctx → Prop) (N : Node → Prop) (env : Env) (prog : Prog (Option Err)) (s₀ : St) (k : Nat)
    (t : Thread) (sh : Shared) : Prop where
  same : t.env = env
  uni : Uni R I N (Respects R I N env) t.prog
  ex : ∃ s, s.own = t.own ∧ R s.shared sh ∧ exec env t.prog s = exec env prog s₀ ∧ I s.toCtx ∧
    (execSteps env t.prog s + k = execSteps env prog s₀ ∨ execSteps env prog s₀ < k ∧ execSteps env t.prog s = 0)

theorem Alone.other {I : Ctx → Prop} {N : Node → Prop} {env : Env} {prog : Prog (Option Err)} {s₀ : St} {k : Nat} {t : Thread}
    {sh sh' : Shared} (hR : Equivalence R) (h : Alone R I N env prog s₀ k t sh) (h' : R sh sh') :
    Alone R I N env prog s₀ k t sh' := by
  obtain ⟨h1, h2, s, h3, h4, h5⟩ := h
  exact ⟨h1, h2, s, h3, hR.trans h4 h', h5⟩

theorem Alone.step {I : Ctx → Prop} {N : Node → Prop} {env : Env} {prog : Prog (Option Err)} {s₀ : St} {k : Nat} {t : Thread}
    {sh : Shared} (hR : Equivalence R) (hI : ∀ s s' : St, R s.shared s'.shared → I s.toCtx → I s'.toCtx)
    (h : Alone R I N env prog s₀ k t sh) :
    Alone R I N env prog s₀ (k + 1) (t.step sh).1 (t.step sh).2 ∧ R sh (t.step sh).2 := by
  obtain ⟨h1, h2, s, h3, h4, h5, h6, h7⟩ := h
  obtain ⟨tenv, tprog, town⟩ := t
  simp only at h1 h2 h3 h5 h7
  subst h1
  cases h2 with
  | pure a =>
    refine ⟨⟨rfl, .pure a, s, h3, h4, h5, h6, ?_⟩, hR.refl _⟩
    have h0 : execSteps tenv (Prog.pure a) s = 0 := rfl
    change execSteps tenv (Prog.pure a) s + (k + 1) = _ ∨ _ < k + 1 ∧ execSteps tenv (Prog.pure a) s = 0
    omega
  | stuck =>
    refine ⟨⟨rfl, .stuck, s, h3, h4, h5, h6, ?_⟩, hR.refl _⟩
    have h0 : execSteps tenv (Prog.stuck : Prog (Option Err)) s = 0 := rfl
    change execSteps tenv (Prog.stuck : Prog (Option Err)) s + (k + 1) = _ ∨
      _ < k + 1 ∧ execSteps tenv (Prog.stuck : Prog (Option Err)) s = 0
    omega
  | step a c hp he hu =>
    have hs : Sim R s (joinSt town sh) := ⟨h3, h4⟩
    obtain ⟨r1, r2, r3⟩ := hp.1 s _ hs
    have hI' : I (joinSt town sh).toCtx := hI s _ h4 h6
    have hk := he _ _ r1
    refine ⟨⟨rfl, hu _ (hp.2 _ hI'), (a.run tenv s).2, ?_, ?_, ?_, ?_, ?_⟩, ?_⟩
    · exact r2.1
    · exact r2.2
    · change exec tenv (c (a.run tenv (joinSt town sh)).1) _ = _
      rw [← hk, ← h5]; rfl
    · exact hI s _ r3 h6
    · have e : execSteps tenv (Prog.step a c) s = 1 + execSteps tenv (c (a.run tenv s).1) (a.run tenv s).2 := rfl
      rw [e, hk] at h7
      change execSteps tenv (c (a.run tenv (joinSt town sh)).1) _ + (k + 1) = _ ∨
        _ < k + 1 ∧ execSteps tenv (c (a.run tenv (joinSt town sh)).1) _ = 0
      omega
    · exact (hp.1 (joinSt town sh) (joinSt town sh) ⟨rfl, hR.refl _⟩).2.2

/-- The invariant of all moves. -/
theorem alone_run (hR : Equivalence R) (hI : ∀ i, ∀ s s' : St, R s.shared s'.shared → I i s.toCtx → I i s'.toCtx)
    {progs : ι → Prog (Option Err)} {s₀ : ι → St} (moves : List (Move ι)) (hm : ∀ m ∈ moves, Harmless R m)
    (m : Machine ι) (k : ι → Nat)
    (h : ∀ i, Alone R (I i) (N i) (envs i) (progs i) (s₀ i) (k i) (m.threads i) m.shared) :
    (∀ i, Alone R (I i) (N i) (envs i) (progs i) (s₀ i) (k i + turns i moves) ((m.run moves).threads i) (m.run moves).shared) ∧
      R m.shared (m.run moves).shared := by
  induction moves generalizing m k with
  | nil => exact ⟨h, hR.refl _⟩
  | cons a as ih =>
    have hm' : ∀ m ∈ as, Harmless R m := fun x hx => hm x (.tail _ hx)
    cases a with
    | other upd =>
      have hu : R m.shared (upd m.shared) := hm _ (.head _) _
      obtain ⟨h1, h2⟩ := ih hm' (m.move (.other upd)) k fun i => (h i).other hR hu
      exact ⟨h1, hR.trans hu h2⟩
    | run j =>
      obtain ⟨hj, hjR⟩ := (h j).step hR (hI j)
      obtain ⟨h1, h2⟩ := ih hm' (m.move (.run j)) (fun i => k i + if j = i then 1 else 0) (by
        intro i
        simp only [Machine.move]
        by_cases hij : i = j
        · subst hij; simpa using hj
        · rw [if_neg hij, if_neg (fun e => hij e.symm)]
          exact (h i).other hR hjR)
      refine ⟨fun i => ?_, hR.trans hjR h2⟩
      have := h1 i
      rw [Nat.add_assoc] at this
      exact this

end

end Aitch

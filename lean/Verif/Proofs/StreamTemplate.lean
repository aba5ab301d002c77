import Verif.Spec.StreamTemplate
import Verif.Proofs.Template
import Verif.Proofs.Panic
import Verif.Props.Stream
/-
Executing templates whose nodes have functions that write and render.
-/
namespace Aitch.Stream
open Spec Spec.Stream

theorem partsRun_of_exec {env : Env} {B : Bodies} {fuel : Nat} (ps : List Part) {s s' : St} {e : Option Err}
    (h : exec env (execParts (renderWith B fuel) ps) s = some (e, s')) : PartsRun env B ps s e s' := by
  induction ps generalizing s with
  | nil => cases h; exact .done
  | cons p ps ih =>
    cases p with
    | text t =>
      simp only [execParts, exec_bind, exec_write, Option.bind_some] at h
      cases hr : (env.write s.log t).2 with
      | none => simp only [hr] at h; exact .text ⟨hr.symm, rfl⟩ (ih h)
      | some e1 => simp only [hr, exec_pure] at h; cases h; exact .textFails ⟨hr.symm, rfl⟩
    | call n pl =>
      simp only [execParts, exec_bind] at h
      cases hn : exec env (renderWith B fuel n) s with
      | none => simp [hn] at h
      | some p =>
        obtain ⟨e1, s1⟩ := p
        simp only [hn, Option.bind_some] at h
        cases e1 with
        | some e1 => simp only [exec_pure] at h; cases h; exact .nodeFails ⟨fuel, hn⟩
        | none =>
          simp only [exec_bind, exec_write, Option.bind_some] at h
          cases hr : (env.write s1.log (escapeEmpty (contextFunc n) pl)).2 with
          | none => simp only [hr] at h; exact .node ⟨fuel, hn⟩ (leaves_iff.2 rfl) ⟨hr.symm, rfl⟩ (ih h)
          | some e1 =>
            simp only [hr, exec_pure] at h; cases h; exact .restFails ⟨fuel, hn⟩ (leaves_iff.2 rfl) ⟨hr.symm, rfl⟩

theorem exec_of_partsRun {env : Env} {B : Bodies} {ps : List Part} {s s' : St} {e : Option Err}
    (h : PartsRun env B ps s e s') : ∃ fuel, exec env (execParts (renderWith B fuel) ps) s = some (e, s') := by
  induction h with
  | done => exact ⟨0, rfl⟩
  | text hw _ ih =>
    obtain ⟨f, ih⟩ := ih
    obtain ⟨h1, rfl⟩ := hw
    refine ⟨f, ?_⟩
    simp only [execParts, exec_bind, exec_write, Option.bind_some, ← h1]; exact ih
  | textFails hw =>
    obtain ⟨h1, rfl⟩ := hw
    refine ⟨0, ?_⟩
    simp only [execParts, exec_bind, exec_write, Option.bind_some, ← h1]; rfl
  | @node n p w ps s s1 s2 e s' hn hl hw _ ih =>
    obtain ⟨f, ih⟩ := ih
    cases leaves_iff.1 hl
    obtain ⟨g, hn⟩ := hn
    obtain ⟨h1, rfl⟩ := hw
    have hn' := (le_renderWith B (Nat.le_max_right f g) n).exec hn
    have ih' := (Le.execParts (fun n => le_renderWith B (Nat.le_max_left f g) n) ps).exec ih
    refine ⟨max f g, ?_⟩
    simp only [execParts, exec_bind, hn', exec_write, Option.bind_some, ← h1]; exact ih'
  | nodeFails hn =>
    obtain ⟨g, hn⟩ := hn
    refine ⟨g, ?_⟩
    simp only [execParts, exec_bind, show exec _ (renderWith B g _) _ = _ from hn, Option.bind_some]; rfl
  | restFails hn hl hw =>
    cases leaves_iff.1 hl
    obtain ⟨g, hn⟩ := hn
    obtain ⟨h1, rfl⟩ := hw
    refine ⟨g, ?_⟩
    simp only [execParts, exec_bind, show exec _ (renderWith B g _) _ = _ from hn, exec_write, Option.bind_some, ← h1]
    rfl

theorem executing_iff {env : Env} {B : Bodies} {t : List Part} {d : Option MapId} {cargo : Any} {s s' : St} {e : Option Err} :
    Executing env B t d cargo s e s' ↔ PartsRun env B t (startedWith s d cargo) e s' :=
  ⟨fun ⟨_, h⟩ => partsRun_of_exec t h, exec_of_partsRun⟩

theorem partsRun_append {env : Env} {B : Bodies} {ps qs : List Part} {s s1 s' : St} {e : Option Err}
    (h1 : PartsRun env B ps s none s1) (h2 : PartsRun env B qs s1 e s') : PartsRun env B (ps ++ qs) s e s' := by
  generalize he : (none : Option Err) = r at h1
  induction h1 with
  | done => exact h2
  | text hw _ ih => exact .text hw (ih h2 he)
  | node hn hl hw _ ih => exact .node hn hl hw (ih h2 he)
  | textFails => cases he
  | nodeFails => cases he
  | restFails => cases he

theorem tape_wrote {env : Env} (H : Healthy env) (s : St) (d : Bytes) :
    tape (s.wrote d (env.write s.log d)) = (tape s).put d := by
  rw [H s.log d]
  have := out_wrote s d
  simp only [tape, Tape.put, this]
  rfl

/-! Panics. -/

section
variable {env : Env} {p : Panics} {B : Bodies} {pe : Err}

theorem partsPanics_fuel {f f' : Nat} (hf : f ≤ f') (t : List Part) {s : St} {o : Outcome (Option Err)}
    (h : partsPanics env p B pe f t s = some o) : partsPanics env p B pe f' t s = some o := by
  induction t generalizing s with
  | nil => exact h
  | cons x ps ih =>
    cases x with
    | text d =>
      simp only [partsPanics] at h ⊢
      cases h1 : execPanics env p (Do.write d) s with
      | none => rw [h1] at h; cases h
      | some o₁ =>
        rw [h1] at h
        cases o₁ with
        | panicked s₁ => exact h
        | returned r s₁ =>
          simp only at h ⊢
          cases h2 : r.2 with
          | some e => rw [h2] at h; exact h
          | none => rw [h2] at h; exact ih h
    | call n place =>
      simp only [partsPanics] at h ⊢
      cases h1 : execPanics env p (renderWith B f n) s with
      | none => rw [h1] at h; cases h
      | some o₁ =>
        rw [(le_renderWith B hf n).execPanics h1]
        rw [h1] at h
        cases o₁ with
        | panicked s₁ => exact h
        | returned e s₁ =>
          cases e with
          | some e => exact h
          | none =>
            simp only at h ⊢
            cases h3 : execPanics env p (Do.write (escapeEmpty (contextFunc n) place)) s₁ with
            | none => rw [h3] at h; cases h
            | some o₂ =>
              rw [h3] at h
              cases o₂ with
              | panicked s₂ => exact h
              | returned r s₂ =>
                simp only at h ⊢
                cases h2 : r.2 with
                | some e => rw [h2] at h; exact h
                | none => rw [h2] at h; exact ih h

/-- How a template ends whose functions or writer may panic, compared to its execution without panics. -/
theorem partsPanics_log {f : Nat} (t : List Part) {s s₂ : St} {e₂ : Option Err} {o : Outcome (Option Err)}
    (h : partsPanics env p B pe f t s = some o) (h₂ : exec env (execParts (renderWith B f) t) s = some (e₂, s₂)) :
    CutOff pe e₂ s₂ o := by
  induction t generalizing s with
  | nil => cases h; cases h₂; exact .inl ⟨rfl, rfl⟩
  | cons x ps ih =>
    cases x with
    | text d =>
      simp only [partsPanics] at h
      simp only [execParts] at h₂
      rw [exec_bind] at h₂
      have hw : exec env (Do.write d) s = some (env.write s.log d, s.wrote d (env.write s.log d)) := rfl
      cases h1 : execPanics env p (Do.write d) s with
      | none => rw [h1] at h; cases h
      | some o₁ =>
        rw [h1] at h
        cases o₁ with
        | panicked s₁ =>
          cases h
          have h3 := panicked_log h1 hw
          rw [hw] at h₂
          simp only [Option.bind_some] at h₂
          refine h3.2.trans ?_
          split at h₂
          · cases h₂; exact List.prefix_rfl
          · exact exec_log h₂
        | returned r s₁ =>
          have h3 := execPanics_returned h1
          rw [h3] at h₂
          simp only [Option.bind_some] at h h₂
          cases h2 : r.2 with
          | some e => rw [h2] at h h₂; cases h; cases h₂; exact .inl ⟨rfl, rfl⟩
          | none => rw [h2] at h h₂; exact ih h h₂
    | call n place =>
      simp only [partsPanics] at h
      simp only [execParts] at h₂
      rw [exec_bind] at h₂
      cases h1 : execPanics env p (renderWith B f n) s with
      | none => rw [h1] at h; cases h
      | some o₁ =>
        rw [h1] at h
        cases o₁ with
        | panicked s₁ =>
          cases h
          refine .inr ⟨rfl, ?_⟩
          cases h3 : exec env (renderWith B f n) s with
          | none => rw [h3] at h₂; cases h₂
          | some r =>
            rw [h3] at h₂
            refine (panicked_log h1 h3).2.trans ?_
            simp only [Option.bind_some] at h₂
            split at h₂
            · cases h₂; exact List.prefix_rfl
            · exact exec_log h₂
        | returned e s₁ =>
          rw [execPanics_returned h1] at h₂
          simp only [Option.bind_some] at h₂
          cases e with
          | some e => cases h; cases h₂; exact .inl ⟨rfl, rfl⟩
          | none =>
            simp only at h h₂
            rw [exec_bind] at h₂
            have hw : exec env (Do.write (escapeEmpty (contextFunc n) place)) s₁ = some (env.write s₁.log (escapeEmpty (contextFunc n) place),
              s₁.wrote (escapeEmpty (contextFunc n) place) (env.write s₁.log (escapeEmpty (contextFunc n) place))) := rfl
            cases h3 : execPanics env p (Do.write (escapeEmpty (contextFunc n) place)) s₁ with
            | none => rw [h3] at h; cases h
            | some o₂ =>
              rw [h3] at h
              cases o₂ with
              | panicked s₂ =>
                cases h
                have h5 := panicked_log h3 hw
                rw [hw] at h₂
                simp only [Option.bind_some] at h₂
                refine h5.2.trans ?_
                split at h₂
                · cases h₂; exact List.prefix_rfl
                · exact exec_log h₂
              | returned r s₂ =>
                have h4 := execPanics_returned h3
                rw [h4] at h₂
                simp only [Option.bind_some] at h h₂
                cases h2 : r.2 with
                | some e => rw [h2] at h h₂; cases h; cases h₂; exact .inl ⟨rfl, rfl⟩
                | none => rw [h2] at h h₂; exact ih h h₂

/-- Only text/template's own writes can make `Execute` panic. -/
theorem partsPanics_panicked (hp : ∀ d s, p (.write d) s = none) {f : Nat} (t : List Part) {s s' : St} :
    partsPanics env p B pe f t s ≠ some (.panicked s') := by
  have hw : ∀ d s, execPanics env p (Do.write d) s = some (.returned (env.write s.log d) (s.wrote d (env.write s.log d))) :=
    fun d s => by simp [Do.write, execPanics, Panics.at, hp, Action.foreign, Action.run]
  induction t generalizing s with
  | nil => intro h; cases h
  | cons x ps ih =>
    intro h
    cases x with
    | text d =>
      simp only [partsPanics, hw] at h
      split at h
      · cases h
      · exact ih h
    | call n place =>
      simp only [partsPanics, hw] at h
      split at h
      · cases h
      · split at h
        · cases h
        · exact ih h
      · cases h
      · cases h

/-- A node whose rendering panics behind parts that went well. -/
theorem partsPanics_append {f : Nat} (t u : List Part) {s s₁ : St}
    (h : partsPanics env p B pe f t s = some (.returned none s₁)) :
    partsPanics env p B pe f (t ++ u) s = partsPanics env p B pe f u s₁ := by
  induction t generalizing s with
  | nil => cases h; rfl
  | cons x ps ih =>
    cases x with
    | text d =>
      simp only [partsPanics, List.cons_append] at h ⊢
      split at h
      · split at h
        · cases h
        · exact ih h
      · cases h
      · cases h
    | call n place =>
      simp only [partsPanics, List.cons_append] at h ⊢
      split at h
      · cases h
      · split at h
        · split at h
          · cases h
          · exact ih h
        · cases h
        · cases h
      · cases h
      · cases h

end

end Aitch.Stream

import Verif.Proofs.Hoare
import Verif.Spec.Writers
/-
Hoare triples over whole states, and facts about the log that hold of all programs.
-/
namespace Aitch
open Spec

/-- Started in a state satisfying `I`, `m` ends (if it does) with a result and state satisfying `Q`. -/
def Trip {α} (env : Env) (I : St → Prop) (m : Prog α) (Q : α → St → Prop) : Prop :=
  ∀ s r s', I s → exec env m s = some (r, s') → Q r s'

section
variable {env : Env} {α β : Type} {I : St → Prop} {Q : α → St → Prop}

theorem Trip.pure {a : α} (h : ∀ s, I s → Q a s) : Trip env I (Pure.pure a) Q := by
  intro s r s' hs he
  rw [exec_pure] at he
  cases he
  exact h s hs

theorem Trip.bind {m : Prog α} {f : α → Prog β} {R : β → St → Prop} (hm : Trip env I m Q)
    (hf : ∀ a, Trip env (Q a) (f a) R) : Trip env I (m >>= f) R := by
  intro s r s' hs he
  rw [exec_bind] at he
  cases h1 : exec env m s with
  | none => rw [h1] at he; cases he
  | some p =>
    rw [h1] at he
    exact hf p.1 p.2 r s' (hm s p.1 p.2 hs h1) he

theorem Trip.conseq {m : Prog α} {Q' : α → St → Prop} (h : Trip env I m Q) (hq : ∀ r s, Q r s → Q' r s) :
    Trip env I m Q' := fun s r s' hs he => hq _ _ (h s r s' hs he)

theorem Trip.pre {m : Prog α} {I' : St → Prop} (h : Trip env I m Q) (hi : ∀ s, I' s → I s) :
    Trip env I' m Q := fun s r s' hs he => h s r s' (hi s hs) he

theorem Trip.stuck : Trip env I (.stuck : Prog α) Q := by
  intro s r s' hs he; simp [exec] at he

/-- A single effect. -/
theorem Trip.act {a : Action} {Q : a.Resp → St → Prop} (h : ∀ s, I s → Q (a.run env s).1 (a.run env s).2) :
    Trip env I (.step a .pure) Q := by
  intro s r s' hs he
  simp only [exec] at he
  cases he
  exact h s hs

end

theorem confine_log (s s' : St) : (s.confine s').log = s.log := rfl
theorem confine_parents (s s' : St) : (s.confine s').parents = s.parents := rfl

/-- An effect appends to the log. -/
theorem run_log (env : Env) (a : Action) (s : St) : s.log <+: (a.run env s).2.log := by
  cases a with
  | write d => exact List.prefix_append _ _
  | leave => simp only [Action.run]; split <;> exact List.prefix_rfl
  | _ => exact List.prefix_rfl

/-- A program appends to the log. -/
theorem exec_log {α} {env : Env} {m : Prog α} {s s' : St} {r : α} (h : exec env m s = some (r, s')) :
    s.log <+: s'.log := by
  induction m generalizing s with
  | pure a => cases h; exact List.prefix_rfl
  | stuck => cases h
  | step a k ih => exact (run_log env a s).trans (ih _ h)

theorem accepted_prefix {l l' : List WEvent} (h : l <+: l') : accepted l <+: accepted l' := by
  obtain ⟨t, rfl⟩ := h
  exact ⟨accepted t, by simp [accepted]⟩

theorem failed_append {l l' : List WEvent} (h : Failed l) : Failed (l ++ l') := by
  obtain ⟨e, he, h⟩ := h
  exact ⟨e, by simp [he], h⟩

/-- Once failed, a crashed writer accepts nothing more. -/
theorem exec_crashed {α} {env : Env} (C : Crashes env.write) {m : Prog α} {s s' : St} {r : α}
    (hf : Failed s.log) (h : exec env m s = some (r, s')) : s'.out = s.out := by
  induction m generalizing s with
  | pure a => cases h; rfl
  | stuck => cases h
  | step a k ih =>
    have hf' : Failed (a.run env s).2.log := by
      obtain ⟨t, ht⟩ := run_log env a s
      rw [← ht]; exact failed_append hf
    rw [ih _ hf' h]
    cases a with
    | write d => simp [Action.run, St.out, St.wrote, accepted, (C.after s.log d hf).1]
    | leave => simp only [Action.run]; split <;> rfl
    | _ => rfl

/-- Effects other than writing do not depend on the writer. -/
theorem run_withWriter (env : Env) (w w' : List WEvent → Bytes → Nat × Option Err) (a : Action)
    (h : ∀ d, a ≠ .write d) (s : St) : a.run (withWriter env w) s = a.run (withWriter env w') s := by
  cases a with
  | write d => exact (h d rfl).elim
  | _ => rfl

/-- Any program with a crashing writer and with a healthy one. -/
theorem exec_prefix {α} {env : Env} {w : List WEvent → Bytes → Nat × Option Err} (C : Crashes w) {m : Prog α}
    {s s₁ s₂ : St} {r₁ r₂ : α} (h₁ : exec (withWriter env w) m s = some (r₁, s₁))
    (h₂ : exec (withWriter env healthyWriter) m s = some (r₂, s₂)) : s₁.out <+: s₂.out := by
  induction m generalizing s with
  | pure a => cases h₁; cases h₂; exact List.prefix_rfl
  | stuck => cases h₁
  | step a k ih =>
    by_cases ha : ∃ d, a = .write d
    · obtain ⟨d, rfl⟩ := ha
      simp only [exec] at h₁ h₂
      by_cases hf : Failed ((Action.write d).run (withWriter env w) s).2.log
      · have h3 := exec_crashed (env := withWriter env w) C hf h₁
        have h4 := accepted_prefix (exec_log h₂)
        rw [h3]
        refine List.IsPrefix.trans ?_ h4
        simp only [Action.run, withWriter, healthyWriter, St.out, St.wrote, accepted, List.flatMap_append,
          List.flatMap_cons, List.flatMap_nil, List.append_nil, List.take_length]
        rw [List.prefix_append_right_inj]
        exact List.take_prefix _ _
      · have hs : ¬ Failed s.log := fun h => hf (failed_append h)
        have he : (w s.log d).2 = none := by
          refine Classical.byContradiction fun h => hf ⟨⟨d, (w s.log d).1, (w s.log d).2⟩, ?_, h⟩
          simp [Action.run, withWriter, St.wrote]
        have hw : w s.log d = (d.length, none) := Prod.ext (C.before _ _ hs he) he
        have : (Action.write d).run (withWriter env w) s = (Action.write d).run (withWriter env healthyWriter) s := by
          simp [Action.run, withWriter, healthyWriter, hw]
        rw [← this] at h₂
        exact ih _ h₁ h₂
    · simp only [exec] at h₁ h₂
      rw [run_withWriter env healthyWriter w a (fun d h => ha ⟨d, h⟩)] at h₂
      exact ih _ h₁ h₂

end Aitch

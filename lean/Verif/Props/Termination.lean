import Verif.Proofs.Ends
import Verif.Spec.Sample
/-
C52: rendering ends.
-/
namespace Aitch.Props

open Spec

/-! ### C52 — rendering terminates -/

/-- Every node whose parts are fixed when it is built renders to the end, in every state: whatever the writer returns,
whatever the user functions do to memory, and however long the lists they return. -/
theorem C52_fixed (env : Env) {n : Node} (h : Fixed n) (s : St) : ∃ e s', Runs env n s e s' :=
  runs_of_ends (ends_of_fixed n h) s

/-- So does every node for which the functions of `ContentCollect` and `Imperative` supply finitely nested nodes. -/
theorem C52_supplied (env : Env) {n : Node} (h : Ends env n) (s : St) : ∃ e s', Runs env n s e s' := runs_of_ends h s

/-- There is one result. -/
theorem C52_unique {env : Env} {n : Node} {s s₁ s₂ : St} {e₁ e₂ : Option Err} (h₁ : Runs env n s e₁ s₁)
    (h₂ : Runs env n s e₂ s₂) : e₁ = e₂ ∧ s₁ = s₂ := by
  obtain ⟨_, h₁⟩ := h₁
  obtain ⟨_, h₂⟩ := h₂
  have := render_unique h₁ h₂
  exact ⟨congrArg Prod.fst this, congrArg Prod.snd this⟩

/-- User functions that return a collector of themselves. -/
def selfCollecting : Env := { Sample.env with collect := fun f s => ([some (.collector f)], s) }

/-- The hypothesis is needed: a `ContentCollect` function that returns a node with itself never ends. -/
theorem C52_needed (f : FnId) (s : St) : ¬ ∃ e s', Runs selfCollecting (.collector f) s e s' := by
  rintro ⟨e, s', fuel, h⟩
  induction fuel generalizing s e s' with
  | zero => simp [render, renderProg, exec] at h
  | succ n ih =>
    have : render selfCollecting (n + 1) (.collector f) s =
        exec selfCollecting (ignoreLoop (renderProg n) [some (.collector f)] >>= fun _ => retErr) (s.confine s) := rfl
    rw [this, exec_bind] at h
    have h2 : exec selfCollecting (ignoreLoop (renderProg n) [some (.collector f)]) (s.confine s) =
        (exec selfCollecting (renderProg n (.collector f)) (s.confine s)).bind fun r => some ((), r.2) := by
      show exec selfCollecting (renderProg n (.collector f) >>= fun _ => pure ()) _ = _
      rw [exec_bind]; rfl
    rw [h2] at h
    cases hr : exec selfCollecting (renderProg n (.collector f)) (s.confine s) with
    | none => rw [hr] at h; simp at h
    | some r => exact ih _ _ _ hr

/-- Nested nodes of all kinds with fixed parts, with a writer that always fails and with `Sample`'s. -/
example : Fixed (.element ⟨b%"div", [.bool b%"x"], [(b%"x", 0)], []⟩ [.conditional [.iterator [.text [.mk [] (some .cargo) []]] (.user 0)] [] (.user 0),
    .yieldIterator [.document none [.pi b%"a" []]] 0]) := ⟨⟨⟨trivial, trivial⟩, trivial⟩, ⟨⟨trivial, trivial⟩, trivial⟩, trivial⟩

/-- A collector that supplies a text, inside an element. -/
example : Ends Sample.env (.element ⟨b%"div", [], [], []⟩ [.collector 0, .imperative (some 0)]) := by
  refine .element fun n hn => ?_
  simp at hn
  rcases hn with rfl | rfl
  · refine .collector fun s n hn => ?_
    simp [Sample.env, Sample.fns] at hn
    subst hn
    exact .text
  · refine .imperative fun s n hn => ?_
    simp only [Sample.env, Sample.fns, impOf, ↓reduceIte] at hn
    rcases hn with _ | hn | _
    rcases hn with _ | hn | _
    rcases hn with _ | hn | _
    cases hn

end Aitch.Props

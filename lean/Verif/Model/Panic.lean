import Verif.Model.Template
/-
Panics in the code that rendering calls: the user functions and the writer.  No code in /repo recovers from panics or
defers anything, so a panic during `Render` ends the rendering where it is and reaches the caller of `Render` (or the
user function around it).  Only text/template recovers, around the functions of a template (exec.go, `safeCall`).
-/
namespace Aitch

/-- context/context.go:34, value.go:38,39,48, conditional.go:23, collection.go:48, iterate.go:80,154, imperative.go:40
— Does the effect run code that is not the library's: a user function, or the writer? -/
def Action.foreign : Action → Bool
  | .write _ | .dyn _ | .cond _ | .collect _ | .items _ | .yields _ | .imp _ | .user _ | .look => true
  | .ctx | .setErr _ | .order _ | .enter _ | .setItem _ _ | .leave => false

/-- context/context.go:34, value.go:38 and the other calls named at `Action.foreign` — Which of these effects panic in
which states, and the state that the panicking function leaves behind. -/
abbrev Panics := Action → St → Option St

/-- context/context.go:34, value.go:38 and the other calls named at `Action.foreign` — What a panicking effect leaves
behind.  A function can change what `St.confine` lets it change.  (Simplification: a writer that panics has accepted
nothing of the data.) -/
def Action.panic : Action → St → St → St
  | .write _, s, _ => s
  | _, s, s' => s.confine s'

/-- aitch.go:18, template.go:21 — How a call ends. -/
inductive Outcome (α : Type) where
  | returned (a : α) (s : St)
  | panicked (s : St)

/-- context/context.go:34, value.go:38 and the other calls named at `Action.foreign` — The panic in an effect, if it
panics. -/
def Panics.at (p : Panics) (a : Action) (s : St) : Option St := if a.foreign then (p a s).map (a.panic s) else none

/-- aitch.go:18 — Running a program whose effects may panic: the first panic ends it. -/
def execPanics {α : Type} (env : Env) (p : Panics) : Prog α → St → Option (Outcome α)
  | .pure a, s => some (.returned a s)
  | .step a k, s =>
    match p.at a s with
    | some s' => some (.panicked s')
    | none => execPanics env p (k (a.run env s).1) (a.run env s).2
  | .stuck, _ => none

/-- text/template's execution of the parts (see `execParts`).  A panic in a function of the template, which includes the
rendering of its node (template.go:66-78), is recovered by text/template and becomes the error `pe`; a panic of the
writer in one of text/template's own writes is not. -/
def partsPanics (env : Env) (p : Panics) (pe : Err) (fuel : Nat) : List Part → St → Option (Outcome (Option Err))
  | [], s => some (.returned none s)
  | .text t :: ps, s =>
    match execPanics env p (Do.write t) s with
    | some (.returned r s₁) =>
      match r.2 with
      | some e => some (.returned (some e) s₁)
      | none => partsPanics env p pe fuel ps s₁
    | some (.panicked s₁) => some (.panicked s₁)
    | none => none
  | .call n place :: ps, s =>
    match execPanics env p (renderProg fuel n) s with
    | some (.returned (some e) s₁) => some (.returned (some e) s₁)
    | some (.returned none s₁) =>
      match execPanics env p (Do.write (escapeEmpty (contextFunc n) place)) s₁ with
      | some (.returned r s₂) =>
        match r.2 with
        | some e => some (.returned (some e) s₂)
        | none => partsPanics env p pe fuel ps s₂
      | some (.panicked s₂) => some (.panicked s₂)
      | none => none
    | some (.panicked s₁) => some (.returned (some pe) s₁)
    | none => none

/-- template.go:21-28 — `(*Template).Execute` when functions or the writer panic. -/
def ExecutePanics (env : Env) (p : Panics) (pe : Err) (fuel : Nat) (t : List Part) (data : Option MapId) (cargo : Any)
    (s : St) : Option (Outcome (Option Err)) :=
  partsPanics env p pe fuel t (templateStart s data cargo)

end Aitch

import Verif.Model.StreamMachine
import Verif.Model.Template
import Verif.Model.Panic
/-
Templates whose nodes have functions that write and render (see Model/Stream and Model/Template).
-/
namespace Aitch.Stream

/-- template.go:21-28 — `(*Template).Execute` (see `Execute`), with functions that write to the context and render nodes. -/
def executeWith (env : Env) (B : Bodies) (fuel : Nat) (t : List Part) (data : Option MapId) (cargo : Any) (s : St) :
    Option (Option Err × St) :=
  exec env (execParts (renderWith B fuel) t) (templateStart s data cargo)

/-- text/template's execution of the parts when functions or the writer panic (see `Aitch.partsPanics`): a panic in the
rendering of a node (template.go:66-78) is recovered by text/template and becomes the error `pe`, one of the writer in
text/template's own writes is not. -/
def partsPanics (env : Env) (p : Panics) (B : Bodies) (pe : Err) (fuel : Nat) :
    List Part → St → Option (Outcome (Option Err))
  | [], s => some (.returned none s)
  | .text t :: ps, s =>
    match execPanics env p (Do.write t) s with
    | some (.returned r s₁) =>
      match r.2 with
      | some e => some (.returned (some e) s₁)
      | none => partsPanics env p B pe fuel ps s₁
    | some (.panicked s₁) => some (.panicked s₁)
    | none => none
  | .call n place :: ps, s =>
    match execPanics env p (renderWith B fuel n) s with
    | some (.returned (some e) s₁) => some (.returned (some e) s₁)
    | some (.returned none s₁) =>
      match execPanics env p (Do.write (escapeEmpty (contextFunc n) place)) s₁ with
      | some (.returned r s₂) =>
        match r.2 with
        | some e => some (.returned (some e) s₂)
        | none => partsPanics env p B pe fuel ps s₂
      | some (.panicked s₂) => some (.panicked s₂)
      | none => none
    | some (.panicked s₁) => some (.returned (some pe) s₁)
    | none => none

/-- template.go:21-28 — `(*Template).Execute` when functions or the writer panic. -/
def executePanics (env : Env) (p : Panics) (B : Bodies) (pe : Err) (fuel : Nat) (t : List Part) (data : Option MapId)
    (cargo : Any) (s : St) : Option (Outcome (Option Err)) :=
  partsPanics env p B pe fuel t (templateStart s data cargo)

/-- template.go:19-28 — goroutine `i` calls `Execute` of template `ts i` with its own writer, data and cargo (see
`Aitch.executeAll`). -/
def executeAll {ι : Type} (ts : ι → List Part) (data : ι → Option MapId) (cargo : ι → Any) (envs : ι → Env)
    (B : ι → Bodies) (fuel : ι → Nat) (own : ι → Local) (sh : Shared) : Machine ι :=
  { threads := fun i => ⟨envs i, execParts (renderWith (B i) (fuel i)) (ts i),
      (templateStart (joinSt (own i) sh) (data i) (cargo i)).own⟩,
    shared := sh }

end Aitch.Stream

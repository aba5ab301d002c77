import Verif.Model.StreamTemplate
import Verif.Spec.Stream
import Verif.Spec.Template
/-
What executing a template means when the functions of its nodes write and render.
-/
namespace Aitch.Spec.Stream
open Aitch.Stream

/-- `Execute` ends with result `e` in state `s'`. -/
def Executing (env : Env) (B : Bodies) (t : List Part) (data : Option MapId) (cargo : Any) (s : St) (e : Option Err)
    (s' : St) : Prop := ∃ fuel, executeWith env B fuel t data cargo s = some (e, s')

/-- Executing the parts of a template in order, stopping at the first error: of writing text, or returned by a node's
`Render` (or of writing what is left behind it). -/
inductive PartsRun (env : Env) (B : Bodies) : List Part → St → Option Err → St → Prop where
  | done {s} : PartsRun env B [] s none s
  | text {t ps s s₁ e s'} : Wrote env t s none s₁ → PartsRun env B ps s₁ e s' → PartsRun env B (.text t :: ps) s e s'
  | textFails {t ps s e s₁} : Wrote env t s (some e) s₁ → PartsRun env B (.text t :: ps) s (some e) s₁
  | node {n p w ps s s₁ s₂ e s'} : Ends env B n s none s₁ → Spec.Leaves n p w → Wrote env w s₁ none s₂ →
      PartsRun env B ps s₂ e s' → PartsRun env B (.call n p :: ps) s e s'
  | nodeFails {n p ps s e s₁} : Ends env B n s (some e) s₁ → PartsRun env B (.call n p :: ps) s (some e) s₁
  | restFails {n p w ps s s₁ e s₂} : Ends env B n s none s₁ → Spec.Leaves n p w → Wrote env w s₁ (some e) s₂ →
      PartsRun env B (.call n p :: ps) s (some e) s₂

/-- A template read from start to end: its text goes on the tape as it is, a node takes its turn like the nodes of a
document, and behind it comes what html/template leaves there. -/
inductive StreamsParts (E : Tellers) : List Part → Tape → Tape → Prop
  | nil {t} : StreamsParts E [] t t
  | text {x ps t t'} : StreamsParts E ps (t.put x) t' → StreamsParts E (.text x :: ps) t t'
  | node {n p w ps t t₁ t'} : Streams E n t t₁ → Spec.Leaves n p w → StreamsParts E ps (t₁.put w) t' →
      StreamsParts E (.call n p :: ps) t t'

/-- `Execute` with functions or a writer that panic; `pe` is the error that text/template makes of a panic. -/
def ExecutingEnds (env : Env) (p : Panics) (B : Bodies) (pe : Err) (t : List Part) (data : Option MapId) (cargo : Any)
    (s : St) (o : Outcome (Option Err)) : Prop := ∃ fuel, executePanics env p B pe fuel t data cargo s = some o

end Aitch.Spec.Stream

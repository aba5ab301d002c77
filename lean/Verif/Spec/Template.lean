import Verif.Model.Template
import Verif.Spec.Each
import Verif.Spec.Names
/-
What executing a template means.
-/
namespace Aitch.Spec

/-- The writer's answer to `data` in state `s` is the error `e` (or nil), and the state is then `s'`. -/
def Wrote (env : Env) (data : Bytes) (s : St) (e : Option Err) (s' : St) : Prop :=
  e = (env.write s.log data).2 ∧ s' = s.wrote data (env.write s.log data)

/-- What html/template leaves behind the output of a node at some place: nothing in text, in quoted values, in strings of
scripts and in styles; nothing between attributes if the node is an attribute (made by `Attribute`, `NewAttribute` and
the like, not by `Conditional` or `Collection`). -/
def Leaves (n : Node) (place : Place) (w : Bytes) : Prop :=
  w = match place with
    | .text | .quoted | .jsString | .style => []
    | .tag => match n with
      | .attr _ => []
      | _ => b%"ZgotmplZ"
    | .unquoted => b%"ZgotmplZ"
    | .script => b%"\"\""
    | .handler => b%"&#34;&#34;"

/-- Executing the parts of a template in order, stopping at the first error: of writing text, or returned by a node's
`Render` (or of writing what is left behind it). -/
inductive TemplateRun (env : Env) : List Part → St → Option Err → St → Prop where
  | done {s} : TemplateRun env [] s none s
  | text {t ps s s₁ e s'} : Wrote env t s none s₁ → TemplateRun env ps s₁ e s' → TemplateRun env (.text t :: ps) s e s'
  | textFails {t ps s e s₁} : Wrote env t s (some e) s₁ → TemplateRun env (.text t :: ps) s (some e) s₁
  | node {n p w ps s s₁ s₂ e s'} : Runs env n s none s₁ → Leaves n p w → Wrote env w s₁ none s₂ →
      TemplateRun env ps s₂ e s' → TemplateRun env (.call n p :: ps) s e s'
  | nodeFails {n p ps s e s₁} : Runs env n s (some e) s₁ → TemplateRun env (.call n p :: ps) s (some e) s₁
  | restFails {n p w ps s s₁ e s₂} : Runs env n s none s₁ → Leaves n p w → Wrote env w s₁ (some e) s₂ →
      TemplateRun env (.call n p :: ps) s (some e) s₂

/-- The state in which the parts are executed: the context has the given data and cargo, no error and no parent;
everything else is as it was. -/
def startedWith (s : St) (data : Option MapId) (cargo : Any) : St where
  frame := { err := none, data := data, cargo := cargo }
  parents := []
  maps := s.maps
  dl := s.dl
  dlNext := s.dlNext
  world := s.world
  log := s.log
  tick := s.tick

/-- `Execute` ends with result `e` in state `s'`. -/
def Executes (env : Env) (t : List Part) (data : Option MapId) (cargo : Any) (s : St) (e : Option Err) (s' : St) :
    Prop := ∃ fuel, Execute env fuel t data cargo s = some (e, s')

/-- What a part of a template can write. -/
def PartWrites (P : Fns) (c : Ctx) : Part → Bytes → Prop
  | .text t, w => w = t
  | .call n p, w => ∃ w₁ w₂, Renders P c n w₁ ∧ Leaves n p w₂ ∧ w = w₁ ++ w₂

/-- The same without anything left behind. -/
def PartWritesOnly (P : Fns) (c : Ctx) : Part → Bytes → Prop
  | .text t, w => w = t
  | .call n _, w => Renders P c n w

/-- A piece of a template text, and the part that it gives: an action must name a node of the map that is not nil. -/
inductive Names (m : NodeMap) : Piece → Part → Prop where
  | text {t} : Names m (.text t) (.text t)
  | action {k p n} : m.lookup k = some (some n) → Names m (.action k p) (.call n p)

/-- A letter or `_`, followed by letters, `_` and digits; characters that are not ASCII count as letters. -/
def Identifier (k : Bytes) : Prop :=
  ∃ c cs, k = c :: cs ∧ (c ∈ letters ++ b%"_" ∨ 128 ≤ c) ∧ ∀ d ∈ cs, d ∈ letters ++ b%"_0123456789" ∨ 128 ≤ d

/-- All names under which there are nodes are identifiers. -/
def GoodNames (m : NodeMap) : Prop := ∀ k n, (k, some n) ∈ m → Identifier k

end Aitch.Spec

import Verif.Spec.AfterError
import Verif.Spec.Start
/-
Renders without a call of the writer, in contexts with and without an error.  `Silent P c n e c'` says: node `n`,
rendered in context `c`, does not call the writer, returns the error `e` and leaves the context `c'`.  Markup is written
only in contexts without an error, values are written in all of them.
-/
namespace Aitch.Spec

/-- The context with `Error` set to `e`. -/
def _root_.Aitch.Ctx.erring (c : Ctx) (e : Option Err) : Ctx := { c with frame := { c.frame with err := e } }

/-- The values a name shows whose first declaration is `first`, with further ones `more`, the last of them `last`: a
delimited attribute collects all values, otherwise the last one counts. -/
def mergedValues (dl : Nat → List Value) (first : Attr) (more : List Attr) (last : Attr) : List Value :=
  match first with
  | .delim _ _ r => dl r ++ more.flatMap (Attr.values dl)
  | _ => last.values dl

/-- The values a static attribute shows, `act` being the conditional ones in effect. -/
def staticValues (dl : Nat → List Value) (act : List Attr) (a : Attr) : List Value :=
  match named a.name act with
  | [] => a.values dl
  | e :: es => mergedValues dl a (e :: es) ((e :: es).getLast (by simp))

/-- The values a name shows that is declared only conditionally. -/
def extraValues (dl : Nat → List Value) (act : List Attr) (n : Bytes) : List Value :=
  match named n act with
  | [] => []
  | e :: es => mergedValues dl e es ((e :: es).getLast (by simp))

/-- No attribute that the start tag of an element shows has a value (there are none, or all are boolean or without
values). -/
def NoTagValues (P : Fns) (c : Ctx) (h : ElemHead) : Prop :=
  (∀ a ∈ h.attributes, staticValues c.dl (active P c h.conditionals) a = []) ∧
    ∀ n ∈ (active P c h.conditionals).map Attr.name, n ∉ h.attributes.map Attr.name →
      extraValues c.dl (active P c h.conditionals) n = []

/-- The values `Start` shows for a name with the declarations `ds`. -/
def startValues (dl : Nat → List Value) (ds : List Attr) : List Value :=
  (match (ds.filter fun a => !isDelim a).getLast? with
    | some (.plain _ vs) => vs
    | _ => []) ++ (delimSuffix ds).flatMap (Attr.values dl)

/-- No attribute given to `Start` shows a value. -/
def NoStartValues (c : Ctx) (as : List Attr) : Prop := ∀ n ∈ as.map Attr.name, startValues c.dl (named n as) = []

mutual
/-- `Silent P c n e c'`: see above. -/
inductive Silent (P : Fns) : Ctx → Node → Option Err → Ctx → Prop
  | element {c h cs c'} : c.frame.err ≠ none → NoTagValues P c h → SilentContents P c cs c' → c'.frame.err ≠ none →
      Silent P c (.element h cs) c'.frame.err c'
  | voidElement {c h} : c.frame.err ≠ none → NoTagValues P c h → Silent P c (.voidElement h) c.frame.err c
  | attr {c a} : c.frame.err ≠ none → ¬ HasValues c.dl a → Silent P c (.attr a) c.frame.err c
  | text {c} : Silent P c (.text []) c.frame.err c
  | fragment {c} : Silent P c (.fragment []) c.frame.err c
  | comment {c} : c.frame.err ≠ none → Silent P c (.comment []) c.frame.err c
  | pi {c name} : c.frame.err ≠ none → Silent P c (.pi name []) c.frame.err c
  | collection {c ns c'} : SilentUntil P c (ns.filter fun n => !n.isAttr) c' → Silent P c (.collection ns) c'.frame.err c'
  | conditionalOn {c ns as fn c'} : holds P c fn = true → SilentUntil P c ns c' →
      Silent P c (.conditional ns as fn) c'.frame.err c'
  | conditionalOff {c ns as fn} : holds P c fn = false → Silent P c (.conditional ns as fn) c.frame.err c
  | collector {c f c'} : SilentNodes P c (contentNodes (P.collect f c)) c' → Silent P c (.collector f) c'.frame.err c'
  | imperativeNil {c} : Silent P c (.imperative none) none c
  | imperative {c f c'} : SilentOps P c (P.imp f c) [] c' → Silent P c (.imperative (some f)) none c'
  | iteratorNot {c ns fn} : c.frame.err ≠ none → Silent P c (.iterator ns fn) c.frame.err c
  | iterator {c ns fn} : c.frame.err = none → SilentItems P c ns (srcItems P c fn) → Silent P c (.iterator ns fn) none c
  | yieldNot {c ns f} : c.frame.err ≠ none → Silent P c (.yieldIterator ns f) c.frame.err c
  | yieldIterator {c ns f} : c.frame.err = none → SilentYields P c ns none (P.yields f c) →
      Silent P c (.yieldIterator ns f) none c
  | document {c p cs c'} : SilentNodes P c (p.toList ++ cs) c' → Silent P c (.document p cs) c'.frame.err c'
/-- The contents of an element: `Error` becomes what each of them returns. -/
inductive SilentContents (P : Fns) : Ctx → List Node → Ctx → Prop
  | nil {c} : SilentContents P c [] c
  | cons {c n ns e c₁ c'} : Silent P c n e c₁ → SilentContents P (c₁.erring e) ns c' → SilentContents P c (n :: ns) c'
/-- The nodes of a collection or a conditional: the same up to the first one that returns an error. -/
inductive SilentUntil (P : Fns) : Ctx → List Node → Ctx → Prop
  | nil {c} : SilentUntil P c [] c
  | stop {c n ns x c'} : Silent P c n (some x) c' → SilentUntil P c (n :: ns) (c'.erring (some x))
  | cons {c n ns c₁ c'} : Silent P c n none c₁ → SilentUntil P (c₁.erring none) ns c' → SilentUntil P c (n :: ns) c'
/-- Nodes whose errors are ignored. -/
inductive SilentNodes (P : Fns) : Ctx → List Node → Ctx → Prop
  | nil {c} : SilentNodes P c [] c
  | cons {c n ns e c₁ c'} : Silent P c n e c₁ → SilentNodes P c₁ ns c' → SilentNodes P c (n :: ns) c'
/-- The nodes of one item. -/
inductive SilentAll (P : Fns) : Ctx → List Node → Prop
  | nil {c} : SilentAll P c []
  | cons {c n ns} : Silent P c n none c → SilentAll P c ns → SilentAll P c (n :: ns)
/-- Iteration over items. -/
inductive SilentItems (P : Fns) : Ctx → List Node → List Any → Prop
  | nil {c ns} : SilentItems P c ns []
  | cons {c ns it its} : SilentAll P (childCtx c it (itemData c.frame.data it)) ns → SilentItems P c ns its →
      SilentItems P c ns (it :: its)
/-- Iteration over yielded items; `d` is the data of the last map item. -/
inductive SilentYields (P : Fns) : Ctx → List Node → (d : Option MapId) → List Any → Prop
  | nil {c ns d} : SilentYields P c ns d []
  | cons {c ns d it its} : SilentAll P (childCtx c it (itemData d it)) ns → SilentYields P c ns (itemData d it) its →
      SilentYields P c ns d (it :: its)
/-- The calls of an imperative function; `stack` are the open elements. -/
inductive SilentOps (P : Fns) : Ctx → List ImpOp → (stack : List Bytes) → Ctx → Prop
  | nil {c stack} : SilentOps P c [] stack c
  | writeString {c d ops stack c'} : c.frame.err ≠ none → SilentOps P c ops stack c' →
      SilentOps P c (.writeString d :: ops) stack c'
  | writeRaw {c d ops stack c'} : c.frame.err ≠ none → SilentOps P c ops stack c' →
      SilentOps P c (.writeRaw d :: ops) stack c'
  | writeNodes {c ns ops stack c₁ c'} : SilentNodes P c (contentNodes ns) c₁ → SilentOps P c₁ ops stack c' →
      SilentOps P c (.writeNodes ns :: ops) stack c'
  | start {c n isVoid attrs ops stack c'} : c.frame.err ≠ none → NoStartValues c (startAttrs attrs) →
      SilentOps P c ops (if isVoid then stack else n :: stack) c' → SilentOps P c (.start n isVoid attrs :: ops) stack c'
  | endNone {c ops c'} : SilentOps P c ops [] c' → SilentOps P c (.end :: ops) [] c'
  | endSome {c n ops stack c'} : c.frame.err ≠ none → SilentOps P c ops stack c' → SilentOps P c (.end :: ops) (n :: stack) c'
  | endAll {c ops stack c'} : stack = [] ∨ c.frame.err ≠ none → SilentOps P c ops [] c' →
      SilentOps P c (.endAll :: ops) stack c'
end

/-- Functions given to `Imperative` that make just these calls, and return nil, also when there is an error. -/
def OnlyCalls (env : Env) (P : Fns) : Prop := ∀ f s, env.imp f s = impOf (P.imp f s.toCtx)

end Aitch.Spec

import Verif.Model.Render
/-
What a node should write: a specification that knows nothing of writers, errors, logs or the order of effects.
It is stated for user functions that only compute (`Fns`): given the context they return something and change
nothing.  `Out P c n w` says that node `n`, rendered in context `c`, may write the bytes `w`.  The only freedom is
the order of attributes in a tag with conditional attributes in effect.
-/
namespace Aitch.Spec

/-- The user functions, as pure functions of the context. -/
structure Fns where
  dyn : FnId → Ctx → Bytes
  cond : FnId → Ctx → Bool
  collect : FnId → Ctx → List (Option Node)
  items : FnId → Ctx → List Any
  /-- the items an `IterateYield` function yields, in order -/
  yields : FnId → Ctx → List Any
  /-- the calls an `Imperative` function makes, in order (it then returns nil) -/
  imp : FnId → Ctx → List ImpOp

/-- The bytes a dynamic value stands for. -/
def dynBytes (P : Fns) (c : Ctx) : Dyn → Bytes
  | .user f => P.dyn f c
  | .key k => match c.lookup k with
    | some v => valueToBytes v
    | none => []
  | .cargo => valueToBytes c.frame.cargo

mutual
/-- The bytes of a value: those of its function, else of its parts, else its static bytes. -/
def valueBytes (P : Fns) (c : Ctx) : Value → Bytes
  | .mk _ (some d) _ => dynBytes P c d
  | .mk v none [] => v
  | .mk _ none (x :: xs) => valueBytes P c x ++ valuesBytes P c xs
/-- The bytes of a list of values, concatenated. -/
def valuesBytes (P : Fns) (c : Ctx) : List Value → Bytes
  | [] => []
  | v :: vs => valueBytes P c v ++ valuesBytes P c vs
end

/-- Joining with a delimiter: every non-empty part but the last part is followed by the delimiter. -/
def delimJoin (d : Bytes) : List Bytes → Bytes
  | [] => []
  | [w] => w
  | w :: ws => (if w = [] then [] else w ++ d) ++ delimJoin d ws

/-- An attribute as shown in a tag: its name, and its value unless it is a boolean attribute. -/
abbrev Shown := Bytes × Option Bytes

/-- The bytes of an attribute in a tag. -/
def Shown.bytes : Shown → Bytes
  | (n, none) => b%" " ++ n
  | (n, some v) => b%" " ++ n ++ b%"=\"" ++ v ++ b%"\""

/-- How an attribute shows when rendered by itself. -/
def shown (P : Fns) (c : Ctx) : Attr → Shown
  | .plain n vs => (n, some (valuesBytes P c vs))
  | .bool n => (n, none)
  | .delim n d r => (n, some (delimJoin d ((c.dl r).map (valueBytes P c))))

/-- How a name shows when `first` is its first declaration and `more` are further ones in effect (the last of them
`last`): a delimited attribute collects all values, otherwise the last one counts. -/
def shownMerged (P : Fns) (c : Ctx) (first : Attr) (more : List Attr) (last : Attr) : Shown :=
  match first with
  | .delim n d r => (n, some (delimJoin d ((c.dl r ++ more.flatMap (Attr.values c.dl)).map (valueBytes P c))))
  | _ => shown P c last

/-- Whether a condition holds. -/
def holds (P : Fns) (c : Ctx) : Cond → Bool
  | .user f => P.cond f c
  | .has k => match c.lookup k with
    | none => false
    | some (.bool false) => false
    | some _ => true
  | .hasNot k => match c.lookup k with
    | none => true
    | some (.bool false) => true
    | some _ => false

/-- The conditional attributes in effect, in order: those all of whose conditions hold. -/
def active (P : Fns) (c : Ctx) (cas : List CondAttr) : List Attr :=
  (cas.filter fun ca => ca.conditions.all (holds P c)).map (·.att)

/-- The distinct elements of a list, in order of first occurrence. -/
def distinct : List Bytes → List Bytes
  | [] => []
  | x :: xs => x :: (distinct xs).filter (· ≠ x)

/-- The declarations of name `n` in a list of attributes. -/
def named (n : Bytes) (as : List Attr) : List Attr := as.filter fun a => a.name = n

/-- What the static attributes show, given the conditional ones in effect. -/
def shownStatics (P : Fns) (c : Ctx) (statics act : List Attr) : List Shown :=
  statics.map fun a =>
    match named a.name act with
    | [] => shown P c a
    | e :: es => shownMerged P c a (e :: es) ((e :: es).getLast (by simp))

/-- What the names declared only conditionally show. -/
def shownExtras (P : Fns) (c : Ctx) (statics act : List Attr) : List Shown :=
  (distinct ((act.map Attr.name).filter fun n => n ∉ statics.map Attr.name)).filterMap fun n =>
    match named n act with
    | [] => none
    | e :: es => some (shownMerged P c e es ((e :: es).getLast (by simp)))

/-- The attributes a tag may show, in order: exactly the static ones when no conditional one is in effect; with
conditional ones in effect, the static names in some order, then the other names in some order. -/
def TagShows (P : Fns) (c : Ctx) (h : ElemHead) (l : List Shown) : Prop :=
  let act := active P c h.conditionals
  if act = [] then l = h.attributes.map (shown P c)
  else ∃ l₁ l₂, l₁.Perm (shownStatics P c h.attributes act) ∧ l₂.Perm (shownExtras P c h.attributes act) ∧
    l = l₁ ++ l₂

/-- The bytes of a start tag. -/
def tagBytes (name : Bytes) (l : List Shown) : Bytes :=
  b%"<" ++ name ++ l.flatMap Shown.bytes ++ b%">"

/-- The bytes of an end tag. -/
def endBytes (name : Bytes) : Bytes := b%"</" ++ name ++ b%">"

/-- The child context of an iteration for one item, with data `d`. -/
def childCtx (c : Ctx) (item : Any) (d : Option MapId) : Ctx :=
  { c with frame := { err := none, data := d, cargo := item }, parents := c.frame :: c.parents }

/-- The data of an item: the item itself if it is a map, else `d`. -/
def itemData (d : Option MapId) : Any → Option MapId
  | .map m => some m
  | _ => d

/-- The items of an `Iterate` or `IterateKey` node. -/
def srcItems (P : Fns) (c : Ctx) : ItemSrc → List Any
  | .user f => P.items f c
  | .key k => keyItems k c

/-- The nodes in a list that are neither nil nor attributes. -/
def contentNodes (ns : List (Option Node)) : List Node := (ns.filterMap id).filter fun n => !n.isAttr

mutual
/-- `Out P c n w`: node `n` rendered in context `c` may write `w`. -/
inductive Out (P : Fns) : Ctx → Node → Bytes → Prop
  | element {c h contents l w} : TagShows P c h l → OutAll P c contents w →
      Out P c (.element h contents) (tagBytes h.name l ++ w ++ endBytes h.name)
  | voidElement {c h l} : TagShows P c h l → Out P c (.voidElement h) (tagBytes h.name l)
  | attr {c a} : Out P c (.attr a) (Shown.bytes (shown P c a))
  | text {c vs} : Out P c (.text vs) (valuesBytes P c vs)
  | comment {c vs} : Out P c (.comment vs) (b%"<!--" ++ valuesBytes P c vs ++ b%"-->")
  | fragment {c vs} : Out P c (.fragment vs) (valuesBytes P c vs)
  | pi {c name vs} : Out P c (.pi name vs) (b%"<!" ++ name ++ b%" " ++ valuesBytes P c vs ++ b%">\n")
  | collection {c ns w} : OutAll P c (ns.filter fun n => !n.isAttr) w → Out P c (.collection ns) w
  | conditionalOn {c ns as fn w} : holds P c fn = true → OutAll P c ns w → Out P c (.conditional ns as fn) w
  | conditionalOff {c ns as fn} : holds P c fn = false → Out P c (.conditional ns as fn) []
  | collector {c f w} : OutAll P c (contentNodes (P.collect f c)) w → Out P c (.collector f) w
  | imperativeNil {c} : Out P c (.imperative none) []
  | imperative {c f w} : OutOps P c (P.imp f c) [] w → Out P c (.imperative (some f)) w
  | iterator {c ns fn w} : OutItems P c ns (srcItems P c fn) w → Out P c (.iterator ns fn) w
  | yieldIterator {c ns f w} : OutYields P c ns none (P.yields f c) w → Out P c (.yieldIterator ns f) w
  | document {c prologue contents w} : OutAll P c (prologue.toList ++ contents) w →
      Out P c (.document prologue contents) w
/-- A list of nodes, one after the other. -/
inductive OutAll (P : Fns) : Ctx → List Node → Bytes → Prop
  | nil {c} : OutAll P c [] []
  | cons {c n ns w w'} : Out P c n w → OutAll P c ns w' → OutAll P c (n :: ns) (w ++ w')
/-- Iteration over items: the nodes, once per item, each time in a child context. -/
inductive OutItems (P : Fns) : Ctx → List Node → List Any → Bytes → Prop
  | nil {c ns} : OutItems P c ns [] []
  | cons {c ns it its w w'} : OutAll P (childCtx c it (itemData c.frame.data it)) ns w →
      OutItems P c ns its w' → OutItems P c ns (it :: its) (w ++ w')
/-- Iteration over yielded items.  As in the code, an item that is no map sees the data `d` of the last map item
before it, and no data if there is none. -/
inductive OutYields (P : Fns) : Ctx → List Node → (d : Option MapId) → List Any → Bytes → Prop
  | nil {c ns d} : OutYields P c ns d [] []
  | cons {c ns d it its w w'} : OutAll P (childCtx c it (itemData d it)) ns w →
      OutYields P c ns (itemData d it) its w' → OutYields P c ns d (it :: its) (w ++ w')
/-- The calls of an imperative function; `stack` are the open elements, last opened first. -/
inductive OutOps (P : Fns) : Ctx → List ImpOp → (stack : List Bytes) → Bytes → Prop
  | nil {c stack} : OutOps P c [] stack []
  | writeString {c d ops stack w} : OutOps P c ops stack w →
      OutOps P c (.writeString d :: ops) stack (htmlEscapeString d ++ w)
  | writeRaw {c d ops stack w} : OutOps P c ops stack w → OutOps P c (.writeRaw d :: ops) stack (d ++ w)
  | writeNodes {c ns ops stack w w'} : OutAll P c (contentNodes ns) w → OutOps P c ops stack w' →
      OutOps P c (.writeNodes ns :: ops) stack (w ++ w')
  | startVoid {c n attrs ops stack w} : OutOps P c ops stack w →
      OutOps P c (.start n true attrs :: ops) stack
        (tagBytes n ((startCollect c.dl attrs []).map fun (n, vs) => (n, vs.map (valuesBytes P c))) ++ w)
  | start {c n attrs ops stack w} : OutOps P c ops (n :: stack) w →
      OutOps P c (.start n false attrs :: ops) stack
        (tagBytes n ((startCollect c.dl attrs []).map fun (n, vs) => (n, vs.map (valuesBytes P c))) ++ w)
  | endNone {c ops w} : OutOps P c ops [] w → OutOps P c (.end :: ops) [] w
  | endSome {c ops n stack w} : OutOps P c ops stack w → OutOps P c (.end :: ops) (n :: stack) (endBytes n ++ w)
  | endAll {c ops stack w} : OutOps P c ops [] w →
      OutOps P c (.endAll :: ops) stack (stack.flatMap endBytes ++ w)
end

/-! ### When the specification applies -/

/-- A function given to `IterateYield` that yields these items. -/
def yieldsOf : List Any → YieldProg
  | [] => .done
  | it :: its => .yield it fun _ => yieldsOf its

/-- A function given to `Imperative` that makes these calls and returns nil. -/
def impOf : List ImpOp → ImpProg
  | [] => .ret none
  | op :: ops => .call op fun _ => impOf ops

/-- A function given to `Imperative`, or a `Render` method of the user's own, that does the same as these calls as long as
there is no error: instead of `WriteNodes` it may call `Render` of a node, and it may use the writer directly. -/
inductive MakesCalls : ImpProg → List ImpOp → Prop
  | done : MakesCalls (.ret none) []
  | call {op k ops} : (∀ s, MakesCalls (k s) ops) → MakesCalls (.call op k) (op :: ops)
  | render {n k ops} : n.isAttr = false → (∀ s, MakesCalls (k none s) ops) → MakesCalls (.render n k) (.writeNodes [some n] :: ops)
  | write {d k ops} : (∀ l s, MakesCalls (k (l, none) s) ops) → MakesCalls (.write d k) (.writeRaw d :: ops)

/-- The function that makes just these calls. -/
theorem makesCalls_impOf : (ops : List ImpOp) → MakesCalls (impOf ops) ops
  | [] => .done
  | _ :: ops => .call fun _ => makesCalls_impOf ops

/-- The writer accepts everything. -/
def Healthy (env : Env) : Prop := ∀ log d, env.write log d = (d.length, none)

/-- The user functions only compute, as told by `P`. -/
structure Computes (env : Env) (P : Fns) : Prop where
  dyn : ∀ f s, env.dyn f s = (P.dyn f s.toCtx, s)
  cond : ∀ f s, env.cond f s = (P.cond f s.toCtx, s)
  collect : ∀ f s, env.collect f s = (P.collect f s.toCtx, s)
  items : ∀ f s, env.items f s = (P.items f s.toCtx, s)
  yields : ∀ f s, env.yields f s = yieldsOf (P.yields f s.toCtx)
  imp : ∀ f s, MakesCalls (env.imp f s) (P.imp f s.toCtx)

/-- An element's index of attribute names is accurate and no name occurs twice (true of all constructed elements,
see `wf_NewElement`). -/
def WFHead (h : ElemHead) : Prop :=
  h.attIndices = (h.attributes.map Attr.name).zipIdx ∧ (h.attributes.map Attr.name).Nodup

mutual
/-- Every element in the node has an accurate index. -/
def WF : Node → Prop
  | .element h contents => WFHead h ∧ WFAll contents
  | .voidElement h => WFHead h
  | .collection ns => WFAll ns
  | .conditional ns _ _ => WFAll ns
  | .iterator ns _ => WFAll ns
  | .yieldIterator ns _ => WFAll ns
  | .document none contents => WFAll contents
  | .document (some p) contents => WF p ∧ WFAll contents
  | _ => True
/-- `WF` for every node of a list. -/
def WFAll : List Node → Prop
  | [] => True
  | n :: ns => WF n ∧ WFAll ns
end

/-- The nodes that user functions supply while rendering are `WF`. -/
structure WFFns (P : Fns) : Prop where
  collect : ∀ f c n, some n ∈ P.collect f c → WF n
  imp : ∀ f c ns n, .writeNodes ns ∈ P.imp f c → some n ∈ ns → WF n

end Aitch.Spec

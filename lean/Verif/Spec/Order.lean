import Verif.Spec.Out
/-
What a template writes when the user's functions have side effects: they may change the data, the cargo, maps and any
other memory of the program, so it matters how often and in which order they are called.  This is the document read
from start to end: every part of the template takes its turn, in the order in which it is written, each function is
called once at each place where it stands, and what it changes is seen by everything that comes after it.

`play…` give what a part writes and the context it leaves; the relations `Plays…` do the same for nodes (a relation
only because the order of the attributes in a tag with conditional attributes in effect is not fixed).
-/
namespace Aitch.Spec

/-- What a function given to `IterateYield` does: it calls yield, and in between changes memory and writes. -/
inductive Yielding where
  | done
  | yield (item : Any) (k : Ctx → Yielding)
  | act (upd : Ctx → Ctx) (k : Ctx → Yielding)
  | write (data : Bytes) (k : Ctx → Yielding)

/-- What a function given to `Imperative` does: it calls methods, in between changes memory, then returns nil. -/
inductive Doing where
  | done
  | call (op : ImpOp) (k : Ctx → Doing)
  | act (upd : Ctx → Ctx) (k : Ctx → Doing)

/-- User functions with side effects: their result and the memory they leave. -/
structure Effects where
  dyn : FnId → Ctx → Bytes × Ctx
  cond : FnId → Ctx → Bool × Ctx
  collect : FnId → Ctx → List (Option Node) × Ctx
  items : FnId → Ctx → List Any × Ctx
  yields : FnId → Ctx → Yielding
  imp : FnId → Ctx → Doing

/-- The chain of parent contexts is not changed by user functions. -/
def within (c c' : Ctx) : Ctx := { c' with parents := c.parents }

/-- One after the other: what is written is joined, and each sees what the ones before have changed. -/
def playList {α} (f : α → Ctx → Bytes × Ctx) : List α → Ctx → Bytes × Ctx
  | [], c => ([], c)
  | x :: xs, c =>
    let (w, c1) := f x c
    let (w', c2) := playList f xs c1
    (w ++ w', c2)

/-- A dynamic value. -/
def playDyn (E : Effects) (c : Ctx) : Dyn → Bytes × Ctx
  | .user f => ((E.dyn f c).1, within c (E.dyn f c).2)
  | .key k => (match c.lookup k with
    | some v => valueToBytes v
    | none => [], c)
  | .cargo => (valueToBytes c.frame.cargo, c)

mutual
/-- A value: its function, else its parts in order, else its static bytes. -/
def playValue (E : Effects) : Value → Ctx → Bytes × Ctx
  | .mk _ (some d) _, c => playDyn E c d
  | .mk v none [], c => (v, c)
  | .mk _ none (x :: xs), c =>
    let (w, c1) := playValue E x c
    let (w', c2) := playValues E xs c1
    (w ++ w', c2)
/-- Values in order. -/
def playValues (E : Effects) : List Value → Ctx → Bytes × Ctx
  | [], c => ([], c)
  | x :: xs, c =>
    let (w, c1) := playValue E x c
    let (w', c2) := playValues E xs c1
    (w ++ w', c2)
end

/-- Values in order with a delimiter after every non-empty one but the last. -/
def playDelim (E : Effects) (d : Bytes) : List Value → Ctx → Bytes × Ctx
  | [], c => ([], c)
  | [v], c => playValue E v c
  | v :: vs, c =>
    let (w, c1) := playValue E v c
    let (w', c2) := playDelim E d vs c1
    ((if w = [] then [] else w ++ d) ++ w', c2)

/-- Puts an attribute's value, played in context `c`, into place. -/
def valued (n : Bytes) (p : Bytes × Ctx) : Bytes × Ctx := (Shown.bytes (n, some p.1), p.2)

/-- An attribute. -/
def playAttr (E : Effects) : Attr → Ctx → Bytes × Ctx
  | .plain n vs, c => valued n (playValues E vs c)
  | .bool n, c => (Shown.bytes (n, none), c)
  | .delim n d r, c => valued n (playDelim E d (c.dl r) c)

/-- An attribute together with further declarations of its name in effect: a delimited one takes the values of all,
otherwise the last one counts. -/
def playMerged (E : Effects) : Attr × List Attr → Ctx → Bytes × Ctx
  | (a, []), c => playAttr E a c
  | (.delim n d r, more), c => valued n (playDelim E d (c.dl r ++ more.flatMap (Attr.values c.dl)) c)
  | (_, e :: es), c => playAttr E ((e :: es).getLast (by simp)) c

/-- A condition. -/
def playCond (E : Effects) : Cond → Ctx → Bool × Ctx
  | .user f, c => ((E.cond f c).1, within c (E.cond f c).2)
  | .has k, c => (match c.lookup k with
    | none => false
    | some (.bool false) => false
    | some _ => true, c)
  | .hasNot k, c => (match c.lookup k with
    | none => true
    | some (.bool false) => true
    | some _ => false, c)

/-- Several conditions: in order, up to the first that does not hold. -/
def playConds (E : Effects) : List Cond → Ctx → Bool × Ctx
  | [], c => (true, c)
  | k :: ks, c =>
    let (b, c1) := playCond E k c
    if b then playConds E ks c1 else (false, c1)

/-- The conditional attributes in effect; their conditions are asked in order. -/
def playActive (E : Effects) : List CondAttr → Ctx → List Attr × Ctx
  | [], c => ([], c)
  | a :: as, c =>
    let (b, c1) := playConds E a.conditions c
    let (act, c2) := playActive E as c1
    (if b then a.att :: act else act, c2)

/-- The declarations of the names that only conditional attributes declare. -/
def extraDeclarations (statics act : List Attr) : List (Attr × List Attr) :=
  (distinct ((act.map Attr.name).filter fun n => n ∉ statics.map Attr.name)).filterMap fun n =>
    match named n act with
    | [] => none
    | e :: es => some (e, es)

/-- A start tag: first all conditions are asked, then the attributes are written. -/
def PlaysTag (E : Effects) (h : ElemHead) (c : Ctx) (w : Bytes) (c' : Ctx) : Prop :=
  let (act, c1) := playActive E h.conditionals c
  if act = [] then
    let (w1, c2) := playList (playAttr E) h.attributes c1
    w = b%"<" ++ h.name ++ w1 ++ b%">" ∧ c' = c2
  else ∃ l₁ l₂, l₁.Perm (h.attributes.map fun a => (a, named a.name act)) ∧
    l₂.Perm (extraDeclarations h.attributes act) ∧
    let (w1, c2) := playList (playMerged E) (l₁ ++ l₂) c1
    w = b%"<" ++ h.name ++ w1 ++ b%">" ∧ c' = c2

/-- The context in which an item of an iteration begins: below `c`, with the frame `fr` of the iteration. -/
def itemCtx (c : Ctx) (fr : Frame) (item : Any) (d : Option MapId) : Ctx :=
  { c with frame := { fr with cargo := item, data := d }, parents := c.frame :: c.parents }

/-- Back from an iteration in the context of the iteration's parent: its frame is as it was, everything else as the
iteration left it. -/
def backTo (c c' : Ctx) : Ctx := { c' with frame := c.frame, parents := c.parents }

/-- The items of an iteration. -/
def playItems (E : Effects) : ItemSrc → Ctx → List Any × Ctx
  | .user f, c => ((E.items f c).1, within c (E.items f c).2)
  | .key k, c => (keyItems k c, c)

/-- The value of an attribute of a tag opened by `Start`. -/
def playStarted (E : Effects) : Bytes × Option (List Value) → Ctx → Bytes × Ctx
  | (n, none), c => (Shown.bytes (n, none), c)
  | (n, some vs), c => valued n (playValues E vs c)

/-- The tag opened by `Start`. -/
def playStart (E : Effects) (n : Bytes) (attrs : List (Option Node)) (c : Ctx) : Bytes × Ctx :=
  let (w, c1) := playList (playStarted E) (startCollect c.dl attrs []) c
  (b%"<" ++ n ++ w ++ b%">", c1)

mutual
/-- `Plays E n c w c'`: node `n`, rendered in context `c`, may write `w` and leave context `c'`. -/
inductive Plays (E : Effects) : Node → Ctx → Bytes → Ctx → Prop
  | element {h contents c w c1 w' c2} : PlaysTag E h c w c1 → PlaysAll E contents c1 w' c2 →
      Plays E (.element h contents) c (w ++ w' ++ endBytes h.name) c2
  | voidElement {h c w c1} : PlaysTag E h c w c1 → Plays E (.voidElement h) c w c1
  | attr {a c} : Plays E (.attr a) c (playAttr E a c).1 (playAttr E a c).2
  | text {vs c} : Plays E (.text vs) c (playValues E vs c).1 (playValues E vs c).2
  | comment {vs c} :
      Plays E (.comment vs) c (b%"<!--" ++ (playValues E vs c).1 ++ b%"-->") (playValues E vs c).2
  | fragment {vs c} : Plays E (.fragment vs) c (playValues E vs c).1 (playValues E vs c).2
  | pi {name vs c} :
      Plays E (.pi name vs) c (b%"<!" ++ name ++ b%" " ++ (playValues E vs c).1 ++ b%">\n") (playValues E vs c).2
  | collection {ns c w c1} : PlaysAll E (ns.filter fun n => !n.isAttr) c w c1 → Plays E (.collection ns) c w c1
  | conditionalOn {ns as fn c w c1} : (playCond E fn c).1 = true → PlaysAll E ns (playCond E fn c).2 w c1 →
      Plays E (.conditional ns as fn) c w c1
  | conditionalOff {ns as fn c} : (playCond E fn c).1 = false →
      Plays E (.conditional ns as fn) c [] (playCond E fn c).2
  | collector {f c w c1} :
      PlaysAll E (contentNodes (E.collect f c).1) (within c (E.collect f c).2) w c1 → Plays E (.collector f) c w c1
  | imperativeNil {c} : Plays E (.imperative none) c [] c
  | imperative {f c w c1} : PlaysDoing E (E.imp f c) [] c w c1 → Plays E (.imperative (some f)) c w c1
  | iterator {ns fn c fr w} {c1 : Ctx} :
      PlaysItems E ns (playItems E fn c).2.frame.data (playItems E fn c).1
        (playItems E fn c).2 { err := none, data := none, cargo := .nil } w c1 fr → Plays E (.iterator ns fn) c w c1
  | yieldIterator {ns f c w c1} :
      PlaysYields E ns (E.yields f c) c { err := none, data := none, cargo := .nil } w c1 →
      Plays E (.yieldIterator ns f) c w c1
  | document {prologue contents c w c1} : PlaysAll E (prologue.toList ++ contents) c w c1 →
      Plays E (.document prologue contents) c w c1
/-- Nodes in order. -/
inductive PlaysAll (E : Effects) : List Node → Ctx → Bytes → Ctx → Prop
  | nil {c} : PlaysAll E [] c [] c
  | cons {n ns c w c1 w' c2} : Plays E n c w c1 → PlaysAll E ns c1 w' c2 → PlaysAll E (n :: ns) c (w ++ w') c2
/-- The nodes of an iteration for each item in order; `d` is the data of the parent when the iteration began, `fr`
the frame of the iteration. -/
inductive PlaysItems (E : Effects) : List Node → (d : Option MapId) → List Any → Ctx → (fr : Frame) → Bytes → Ctx →
    (fr' : Frame) → Prop
  | nil {ns d c fr} : PlaysItems E ns d [] c fr [] c fr
  | cons {ns d it its c fr w w' c2 fr'} {c1 : Ctx} : PlaysAll E ns (itemCtx c fr it (itemData d it)) w c1 →
      PlaysItems E ns d its (backTo c c1) c1.frame w' c2 fr' → PlaysItems E ns d (it :: its) c fr (w ++ w') c2 fr'
/-- What an `IterateYield` function does; `fr` is the frame of the iteration. -/
inductive PlaysYields (E : Effects) : List Node → Yielding → Ctx → (fr : Frame) → Bytes → Ctx → Prop
  | done {ns c fr} : PlaysYields E ns .done c fr [] c
  | yield {ns it k c fr w w' c2} {c1 : Ctx} : PlaysAll E ns (itemCtx c fr it (itemData fr.data it)) w c1 →
      PlaysYields E ns (k (backTo c c1)) (backTo c c1) c1.frame w' c2 →
      PlaysYields E ns (.yield it k) c fr (w ++ w') c2
  | act {ns upd k c fr w c1} : PlaysYields E ns (k (within c (upd c))) (within c (upd c)) fr w c1 →
      PlaysYields E ns (.act upd k) c fr w c1
  | write {ns d k c fr w c1} : PlaysYields E ns (k c) c fr w c1 → PlaysYields E ns (.write d k) c fr (d ++ w) c1
/-- What an `Imperative` function does; `stack` are the open elements, last opened first. -/
inductive PlaysDoing (E : Effects) : Doing → (stack : List Bytes) → Ctx → Bytes → Ctx → Prop
  | done {stack c} : PlaysDoing E .done stack c [] c
  | act {upd k stack c w c1} : PlaysDoing E (k (within c (upd c))) stack (within c (upd c)) w c1 →
      PlaysDoing E (.act upd k) stack c w c1
  | writeString {d k stack c w c1} : PlaysDoing E (k c) stack c w c1 →
      PlaysDoing E (.call (.writeString d) k) stack c (htmlEscapeString d ++ w) c1
  | writeRaw {d k stack c w c1} : PlaysDoing E (k c) stack c w c1 →
      PlaysDoing E (.call (.writeRaw d) k) stack c (d ++ w) c1
  | writeNodes {ns k stack c w c1 w' c2} : PlaysAll E (contentNodes ns) c w c1 →
      PlaysDoing E (k c1) stack c1 w' c2 → PlaysDoing E (.call (.writeNodes ns) k) stack c (w ++ w') c2
  | startVoid {n attrs k stack c w c1} :
      PlaysDoing E (k (playStart E n attrs c).2) stack (playStart E n attrs c).2 w c1 →
      PlaysDoing E (.call (.start n true attrs) k) stack c ((playStart E n attrs c).1 ++ w) c1
  | start {n attrs k stack c w c1} :
      PlaysDoing E (k (playStart E n attrs c).2) (n :: stack) (playStart E n attrs c).2 w c1 →
      PlaysDoing E (.call (.start n false attrs) k) stack c ((playStart E n attrs c).1 ++ w) c1
  | endNone {k c w c1} : PlaysDoing E (k c) [] c w c1 → PlaysDoing E (.call .end k) [] c w c1
  | endSome {n k stack c w c1} : PlaysDoing E (k c) stack c w c1 →
      PlaysDoing E (.call .end k) (n :: stack) c (endBytes n ++ w) c1
  | endAll {k stack c w c1} : PlaysDoing E (k c) [] c w c1 →
      PlaysDoing E (.call .endAll k) stack c (stack.flatMap endBytes ++ w) c1
end

/-! ### When it applies -/

/-- The body of a function given to `IterateYield`. -/
def Yielding.prog : Yielding → YieldProg
  | .done => .done
  | .yield it k => .yield it fun s => (k s.toCtx).prog
  | .act upd k => .user (fun s => { s with toCtx := upd s.toCtx }) fun s => (k s.toCtx).prog
  | .write d k => .write d fun _ s => (k s.toCtx).prog

/-- The body of a function given to `Imperative`. -/
def Doing.prog : Doing → ImpProg
  | .done => .ret none
  | .call op k => .call op fun s => (k s.toCtx).prog
  | .act upd k => .user (fun s => { s with toCtx := upd s.toCtx }) fun s => (k s.toCtx).prog

/-- A function given to `Imperative`, or a `Render` method of the user's own, that does the same as long as there is no
error: instead of `WriteNodes` it may call `Render` of a node, and it may use the writer directly. -/
inductive Performs : ImpProg → Doing → Prop
  | done : Performs (.ret none) .done
  | call {op k k'} : (∀ s : St, Performs (k s) (k' s.toCtx)) → Performs (.call op k) (.call op k')
  | act {upd k k'} : (∀ s : St, Performs (k s) (k' s.toCtx)) →
      Performs (.user (fun s => { s with toCtx := upd s.toCtx }) k) (.act upd k')
  | render {n k k'} : n.isAttr = false → (∀ s : St, Performs (k none s) (k' s.toCtx)) →
      Performs (.render n k) (.call (.writeNodes [some n]) k')
  | write {d k k'} : (∀ l (s : St), Performs (k (l, none) s) (k' s.toCtx)) → Performs (.write d k) (.call (.writeRaw d) k')

/-- The body of such a function does the same. -/
theorem performs_prog : (p : Doing) → Performs p.prog p
  | .done => .done
  | .call _ k => .call fun s => performs_prog (k s.toCtx)
  | .act _ k => .act fun s => performs_prog (k s.toCtx)

/-- A function given to `IterateYield` that does the same as long as no write fails. -/
inductive Offers : YieldProg → Yielding → Prop
  | done : Offers .done .done
  | yield {it k k'} : (∀ s : St, Offers (k s) (k' s.toCtx)) → Offers (.yield it k) (.yield it k')
  | act {upd k k'} : (∀ s : St, Offers (k s) (k' s.toCtx)) →
      Offers (.user (fun s => { s with toCtx := upd s.toCtx }) k) (.act upd k')
  | write {d k k'} : (∀ l (s : St), Offers (k (l, none) s) (k' s.toCtx)) → Offers (.write d k) (.write d k')

/-- The body of such a function does the same. -/
theorem offers_prog : (y : Yielding) → Offers y.prog y
  | .done => .done
  | .yield _ k => .yield fun s => offers_prog (k s.toCtx)
  | .act _ k => .act fun s => offers_prog (k s.toCtx)
  | .write _ k => .write fun _ s => offers_prog (k s.toCtx)

/-- The user functions behave as told by `E`. -/
structure Acts (env : Env) (E : Effects) : Prop where
  dyn : ∀ f s, env.dyn f s = ((E.dyn f s.toCtx).1, { s with toCtx := (E.dyn f s.toCtx).2 })
  cond : ∀ f s, env.cond f s = ((E.cond f s.toCtx).1, { s with toCtx := (E.cond f s.toCtx).2 })
  collect : ∀ f s, env.collect f s = ((E.collect f s.toCtx).1, { s with toCtx := (E.collect f s.toCtx).2 })
  items : ∀ f s, env.items f s = ((E.items f s.toCtx).1, { s with toCtx := (E.items f s.toCtx).2 })
  yields : ∀ f s, Offers (env.yields f s) (E.yields f s.toCtx)
  imp : ∀ f s, Performs (env.imp f s) (E.imp f s.toCtx)

/-- A change of memory that reports no error. -/
def Quiet (upd : Ctx → Ctx) : Prop := ∀ c, c.frame.err = none → (upd c).frame.err = none

/-- An `IterateYield` function that reports no error. -/
def Yielding.Calm : Yielding → Prop
  | .done => True
  | .yield _ k => ∀ c, (k c).Calm
  | .act upd k => Quiet upd ∧ ∀ c, (k c).Calm
  | .write _ k => ∀ c, (k c).Calm

/-- An `Imperative` function that reports no error and writes well-formed nodes. -/
def Doing.Calm : Doing → Prop
  | .done => True
  | .call op k => (∀ ns n, op = .writeNodes ns → some n ∈ ns → WF n) ∧ ∀ c, (k c).Calm
  | .act upd k => Quiet upd ∧ ∀ c, (k c).Calm

/-- User functions that report no error and supply well-formed nodes. -/
structure Calm (E : Effects) : Prop where
  dyn : ∀ f, Quiet fun c => (E.dyn f c).2
  cond : ∀ f, Quiet fun c => (E.cond f c).2
  collect : ∀ f, Quiet fun c => (E.collect f c).2
  items : ∀ f, Quiet fun c => (E.items f c).2
  yields : ∀ f c, (E.yields f c).Calm
  imp : ∀ f c, (E.imp f c).Calm
  collected : ∀ f c n, some n ∈ (E.collect f c).1 → WF n

/-! ### Functions that only compute -/

/-- An `IterateYield` function that yields these items. -/
def yieldingOf : List Any → Yielding
  | [] => .done
  | it :: its => .yield it fun _ => yieldingOf its

/-- An `Imperative` function that makes these calls. -/
def doingOf : List ImpOp → Doing
  | [] => .done
  | op :: ops => .call op fun _ => doingOf ops

/-- The effects of functions that only compute. -/
def Fns.effects (P : Fns) : Effects where
  dyn f c := (P.dyn f c, c)
  cond f c := (P.cond f c, c)
  collect f c := (P.collect f c, c)
  items f c := (P.items f c, c)
  yields f c := yieldingOf (P.yields f c)
  imp f c := doingOf (P.imp f c)

/-! ### The calls in a template -/

mutual
/-- The functions in a value, in the order in which they stand there. -/
def valueCalls : Value → List FnId
  | .mk _ (some (.user f)) _ => [f]
  | .mk _ (some _) _ => []
  | .mk _ none vs => valuesCalls vs
/-- The functions in a list of values. -/
def valuesCalls : List Value → List FnId
  | [] => []
  | v :: vs => valueCalls v ++ valuesCalls vs
end

/-- The functions in an attribute. -/
def attrCalls (dl : Nat → List Value) (a : Attr) : List FnId := valuesCalls (a.values dl)

mutual
/-- The functions in a template, in document order: those in a tag's attributes before those in its content.  Only
for templates without conditions, iterations and functions that supply nodes (`Straight`). -/
def nodeCalls (dl : Nat → List Value) : Node → List FnId
  | .element h contents => h.attributes.flatMap (attrCalls dl) ++ nodesCalls dl contents
  | .voidElement h => h.attributes.flatMap (attrCalls dl)
  | .attr a => attrCalls dl a
  | .text vs => valuesCalls vs
  | .comment vs => valuesCalls vs
  | .fragment vs => valuesCalls vs
  | .pi _ vs => valuesCalls vs
  | .collection ns => contentCalls dl ns
  | .document none contents => nodesCalls dl contents
  | .document (some p) contents => nodeCalls dl p ++ nodesCalls dl contents
  | _ => []
/-- `nodeCalls` of a list of nodes. -/
def nodesCalls (dl : Nat → List Value) : List Node → List FnId
  | [] => []
  | n :: ns => nodeCalls dl n ++ nodesCalls dl ns
/-- `nodeCalls` of the nodes of a collection (attributes in it are not written). -/
def contentCalls (dl : Nat → List Value) : List Node → List FnId
  | [] => []
  | n :: ns => (if n.isAttr then [] else nodeCalls dl n) ++ contentCalls dl ns
end

mutual
/-- A template without conditions, iterations and functions that supply nodes. -/
def Straight : Node → Prop
  | .element h contents => h.conditionals = [] ∧ StraightAll contents
  | .voidElement h => h.conditionals = []
  | .collection ns => StraightAll ns
  | .document none contents => StraightAll contents
  | .document (some p) contents => Straight p ∧ StraightAll contents
  | .attr _ | .text _ | .comment _ | .fragment _ | .pi _ _ => True
  | _ => False
/-- `Straight` for every node of a list. -/
def StraightAll : List Node → Prop
  | [] => True
  | n :: ns => Straight n ∧ StraightAll ns
end

/-- User functions that note down their calls in memory, where `t` reads the notes (and leave attributes alone). -/
structure NotesCalls (E : Effects) (t : Ctx → List FnId) : Prop where
  note : ∀ f c, t (within c (E.dyn f c).2) = t c ++ [f]
  dl : ∀ f c, (E.dyn f c).2.dl = c.dl

end Aitch.Spec

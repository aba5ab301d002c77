import Verif.Model.Stream
import Verif.Spec.Order
/-
What a template writes when the user's functions write too: the document read from start to end, with one tape on which
everything is written at once.  Every part takes its turn, in the order in which it is written.  A function is called when
its place in the document is reached; it finds on the tape all that comes before that place, and nothing else; what it
writes itself, or renders, comes next on the tape; and then what it returns.

Nothing here is computed in advance or held back: every relation below leads from a tape to a tape.
-/
namespace Aitch.Spec.Stream
open Aitch.Stream

/-- The context, all other memory of the program, and what has been written so far. -/
structure Tape extends Ctx where
  out : Bytes

/-- The tape after writing `w`. -/
def Tape.put (t : Tape) (w : Bytes) : Tape := { t with out := t.out ++ w }

/-- The tape after user code has changed memory. -/
def Tape.act (t : Tape) (upd : Tape → Ctx) : Tape := { t with toCtx := within t.toCtx (upd t) }

/-- The tape in a state of the program. -/
def tape (s : St) : Tape := { toCtx := s.toCtx, out := s.out }

/-! ### User functions -/

/-- What a user function does before it returns an `α`: it changes memory, writes, and renders nodes. -/
inductive Telling (α : Type) where
  | ret (a : α)
  | act (upd : Tape → Ctx) (k : Tape → Telling α)
  | write (data : Bytes) (k : Tape → Telling α)
  | render (n : Node) (k : Tape → Telling α)

/-- What a function given to `IterateYield` does. -/
inductive Yielding where
  | done
  | yield (item : Any) (k : Tape → Yielding)
  | act (upd : Tape → Ctx) (k : Tape → Yielding)
  | write (data : Bytes) (k : Tape → Yielding)
  | render (n : Node) (k : Tape → Yielding)

/-- What a function given to `Imperative` does. -/
inductive Doing where
  | done
  | call (op : ImpOp) (k : Tape → Doing)
  | act (upd : Tape → Ctx) (k : Tape → Doing)
  | write (data : Bytes) (k : Tape → Doing)
  | render (n : Node) (k : Tape → Doing)

/-- User functions; what they do may depend on the memory and on what has been written. -/
structure Tellers where
  dyn : FnId → Tape → Telling Bytes
  cond : FnId → Tape → Telling Bool
  collect : FnId → Tape → Telling (List (Option Node))
  items : FnId → Tape → Telling (List Any)
  yields : FnId → Tape → Yielding
  imp : FnId → Tape → Doing

/-! ### Reading the document -/

/-- The tape on which an item of an iteration begins. -/
def Tape.item (t : Tape) (fr : Frame) (item : Any) (d : Option MapId) : Tape :=
  { t with toCtx := itemCtx t.toCtx fr item d }

/-- Back in the parent of an iteration. -/
def Tape.back (t t' : Tape) : Tape := { t' with toCtx := backTo t.toCtx t'.toCtx }

/-- The bytes of a value that is not a function of the user. -/
def ownBytes (c : Ctx) : Dyn → Bytes
  | .key k => match c.lookup k with
    | some v => valueToBytes v
    | none => []
  | .cargo => valueToBytes c.frame.cargo
  | .user _ => []

/-- A condition that is not a function of the user: the key is there and not false, or the opposite. -/
def ownHolds (c : Ctx) : Cond → Bool
  | .has k => match c.lookup k with
    | none => false
    | some (.bool false) => false
    | some _ => true
  | .hasNot k => match c.lookup k with
    | none => true
    | some (.bool false) => true
    | some _ => false
  | .user _ => false

mutual
/-- `Tells E p t a t'`: a function that does `p`, called with tape `t`, may return `a` and leave tape `t'`. -/
inductive Tells (E : Tellers) : {α : Type} → Telling α → Tape → α → Tape → Prop
  | ret {α : Type} {a : α} {t} : Tells E (.ret a) t a t
  | act {α : Type} {a : α} {upd k t t'} : Tells E (k (t.act upd)) (t.act upd) a t' → Tells E (.act upd k) t a t'
  | write {α : Type} {a : α} {d k t t'} : Tells E (k (t.put d)) (t.put d) a t' → Tells E (.write d k) t a t'
  | render {α : Type} {a : α} {n k t t1 t'} : Streams E n t t1 → Tells E (k t1) t1 a t' →
      Tells E (.render n k) t a t'
/-- A value.  `b` tells whether it counts as non-empty for the delimiter after it: what a function writes itself does not
count, what it returns does. -/
inductive StreamsValue (E : Tellers) : Value → Tape → (b : Bool) → Tape → Prop
  | fn {v f vs t w t1} : Tells E (E.dyn f t) t w t1 →
      StreamsValue E (.mk v (some (.user f)) vs) t (decide (w ≠ [])) (t1.put w)
  | own {v d vs t} : (∀ f, d ≠ .user f) →
      StreamsValue E (.mk v (some d) vs) t (decide (ownBytes t.toCtx d ≠ [])) (t.put (ownBytes t.toCtx d))
  | static {v t} : StreamsValue E (.mk v none []) t (decide (v ≠ [])) (t.put v)
  | parts {v x xs t b t1} : StreamsValues E (x :: xs) t b t1 → StreamsValue E (.mk v none (x :: xs)) t b t1
/-- Values in order. -/
inductive StreamsValues (E : Tellers) : List Value → Tape → (b : Bool) → Tape → Prop
  | nil {t} : StreamsValues E [] t false t
  | cons {v vs t b t1 b' t2} : StreamsValue E v t b t1 → StreamsValues E vs t1 b' t2 →
      StreamsValues E (v :: vs) t (b || b') t2
/-- Values in order, with a delimiter after every non-empty one but the last. -/
inductive StreamsDelim (E : Tellers) : (d : Bytes) → List Value → Tape → Tape → Prop
  | nil {d t} : StreamsDelim E d [] t t
  | last {d v t b t1} : StreamsValue E v t b t1 → StreamsDelim E d [v] t t1
  | cons {d v v' vs t b t1 t2} : StreamsValue E v t b t1 →
      StreamsDelim E d (v' :: vs) (if b then t1.put d else t1) t2 → StreamsDelim E d (v :: v' :: vs) t t2
/-- An attribute. -/
inductive StreamsAttr (E : Tellers) : Attr → Tape → Tape → Prop
  | plain {n vs t b t1} : StreamsValues E vs (t.put (b%" " ++ n ++ b%"=\"")) b t1 →
      StreamsAttr E (.plain n vs) t (t1.put b%"\"")
  | bool {n t} : StreamsAttr E (.bool n) t (t.put (b%" " ++ n))
  | delim {n d r t t1} : StreamsDelim E d (t.dl r) (t.put (b%" " ++ n ++ b%"=\"")) t1 →
      StreamsAttr E (.delim n d r) t (t1.put b%"\"")
/-- Attributes in order. -/
inductive StreamsAttrs (E : Tellers) : List Attr → Tape → Tape → Prop
  | nil {t} : StreamsAttrs E [] t t
  | cons {a as t t1 t2} : StreamsAttr E a t t1 → StreamsAttrs E as t1 t2 → StreamsAttrs E (a :: as) t t2
/-- Attributes in order, each with the further declarations of its name in effect: a delimited one takes the values of
all, otherwise the last one counts. -/
inductive StreamsMerged (E : Tellers) : List (Attr × List Attr) → Tape → Tape → Prop
  | nil {t} : StreamsMerged E [] t t
  | alone {a l t t1 t2} : StreamsAttr E a t t1 → StreamsMerged E l t1 t2 → StreamsMerged E ((a, []) :: l) t t2
  | joined {n d r e es l t t1 t2} :
      StreamsDelim E d (t.dl r ++ (e :: es).flatMap (Attr.values t.dl)) (t.put (b%" " ++ n ++ b%"=\"")) t1 →
      StreamsMerged E l (t1.put b%"\"") t2 → StreamsMerged E ((.delim n d r, e :: es) :: l) t t2
  | replaced {a e es l t t1 t2} : (∀ n d r, a ≠ .delim n d r) →
      StreamsAttr E ((e :: es).getLast (by simp)) t t1 → StreamsMerged E l t1 t2 →
      StreamsMerged E ((a, e :: es) :: l) t t2
/-- A condition. -/
inductive StreamsCond (E : Tellers) : Cond → Tape → Bool → Tape → Prop
  | fn {f t b t1} : Tells E (E.cond f t) t b t1 → StreamsCond E (.user f) t b t1
  | own {k t} : (∀ f, k ≠ .user f) → StreamsCond E k t (ownHolds t.toCtx k) t
/-- Several conditions: in order, up to the first that does not hold. -/
inductive StreamsConds (E : Tellers) : List Cond → Tape → Bool → Tape → Prop
  | nil {t} : StreamsConds E [] t true t
  | no {k ks t t1} : StreamsCond E k t false t1 → StreamsConds E (k :: ks) t false t1
  | yes {k ks t t1 b t2} : StreamsCond E k t true t1 → StreamsConds E ks t1 b t2 → StreamsConds E (k :: ks) t b t2
/-- The conditional attributes in effect; their conditions are asked in order. -/
inductive StreamsActive (E : Tellers) : List CondAttr → Tape → List Attr → Tape → Prop
  | nil {t} : StreamsActive E [] t [] t
  | cons {a as t b t1 act t2} : StreamsConds E a.conditions t b t1 → StreamsActive E as t1 act t2 →
      StreamsActive E (a :: as) t (if b then a.att :: act else act) t2
/-- A start tag: first all conditions are asked (the name of the element is already written then), then the attributes are
written. -/
inductive StreamsTag (E : Tellers) : ElemHead → Tape → Tape → Prop
  | fixed {h t t1 t2} : StreamsActive E h.conditionals (t.put (b%"<" ++ h.name)) [] t1 →
      StreamsAttrs E h.attributes t1 t2 → StreamsTag E h t (t2.put b%">")
  | some {h t act t1 l₁ l₂ t2} : StreamsActive E h.conditionals (t.put (b%"<" ++ h.name)) act t1 → act ≠ [] →
      l₁.Perm (h.attributes.map fun a => (a, named a.name act)) → l₂.Perm (extraDeclarations h.attributes act) →
      StreamsMerged E (l₁ ++ l₂) t1 t2 → StreamsTag E h t (t2.put b%">")
/-- The attributes of a tag opened by `Start`. -/
inductive StreamsStarted (E : Tellers) : List (Bytes × Option (List Value)) → Tape → Tape → Prop
  | nil {t} : StreamsStarted E [] t t
  | bool {n l t t1} : StreamsStarted E l (t.put (b%" " ++ n)) t1 → StreamsStarted E ((n, none) :: l) t t1
  | valued {n vs l t b t1 t2} : StreamsValues E vs (t.put (b%" " ++ n ++ b%"=\"")) b t1 →
      StreamsStarted E l (t1.put b%"\"") t2 → StreamsStarted E ((n, some vs) :: l) t t2
/-- `Streams E n t t'`: node `n`, rendered on tape `t`, may leave tape `t'`. -/
inductive Streams (E : Tellers) : Node → Tape → Tape → Prop
  | element {h contents t t1 t2} : StreamsTag E h t t1 → StreamsAll E contents t1 t2 →
      Streams E (.element h contents) t (t2.put (endBytes h.name))
  | voidElement {h t t1} : StreamsTag E h t t1 → Streams E (.voidElement h) t t1
  | attr {a t t1} : StreamsAttr E a t t1 → Streams E (.attr a) t t1
  | text {vs t b t1} : StreamsValues E vs t b t1 → Streams E (.text vs) t t1
  | comment {vs t b t1} : StreamsValues E vs (t.put b%"<!--") b t1 → Streams E (.comment vs) t (t1.put b%"-->")
  | fragment {vs t b t1} : StreamsValues E vs t b t1 → Streams E (.fragment vs) t t1
  | pi {name vs t b t1} : StreamsValues E vs (t.put (b%"<!" ++ name ++ b%" ")) b t1 →
      Streams E (.pi name vs) t (t1.put b%">\n")
  | collection {ns t t1} : StreamsAll E (ns.filter fun n => !n.isAttr) t t1 → Streams E (.collection ns) t t1
  | conditionalOn {ns as fn t t1 t2} : StreamsCond E fn t true t1 → StreamsAll E ns t1 t2 →
      Streams E (.conditional ns as fn) t t2
  | conditionalOff {ns as fn t t1} : StreamsCond E fn t false t1 → Streams E (.conditional ns as fn) t t1
  | collector {f t ns t1 t2} : Tells E (E.collect f t) t ns t1 → StreamsAll E (contentNodes ns) t1 t2 →
      Streams E (.collector f) t t2
  | imperativeNil {t} : Streams E (.imperative none) t t
  | imperative {f t t1} : StreamsDoing E (E.imp f t) [] t t1 → Streams E (.imperative (some f)) t t1
  | iterator {ns fn t its t1 t2 fr} : StreamsItems E fn t its t1 →
      StreamsEach E ns t1.frame.data its t1 { err := none, data := none, cargo := .nil } t2 fr →
      Streams E (.iterator ns fn) t t2
  | yieldIterator {ns f t t1} : StreamsYields E ns (E.yields f t) t { err := none, data := none, cargo := .nil } t1 →
      Streams E (.yieldIterator ns f) t t1
  | document {prologue contents t t1} : StreamsAll E (prologue.toList ++ contents) t t1 →
      Streams E (.document prologue contents) t t1
/-- Nodes in order. -/
inductive StreamsAll (E : Tellers) : List Node → Tape → Tape → Prop
  | nil {t} : StreamsAll E [] t t
  | cons {n ns t t1 t2} : Streams E n t t1 → StreamsAll E ns t1 t2 → StreamsAll E (n :: ns) t t2
/-- The items of an iteration. -/
inductive StreamsItems (E : Tellers) : ItemSrc → Tape → List Any → Tape → Prop
  | fn {f t its t1} : Tells E (E.items f t) t its t1 → StreamsItems E (.user f) t its t1
  | key {k t} : StreamsItems E (.key k) t (keyItems k t.toCtx) t
/-- The nodes of an iteration for each item in order; `d` is the data of the parent when the iteration began, `fr` the
frame of the iteration. -/
inductive StreamsEach (E : Tellers) : List Node → (d : Option MapId) → List Any → Tape → (fr : Frame) → Tape →
    (fr' : Frame) → Prop
  | nil {ns d t fr} : StreamsEach E ns d [] t fr t fr
  | cons {ns d it its t fr t1 t2 fr'} : StreamsAll E ns (t.item fr it (itemData d it)) t1 →
      StreamsEach E ns d its (t.back t1) t1.frame t2 fr' → StreamsEach E ns d (it :: its) t fr t2 fr'
/-- What an `IterateYield` function does; `fr` is the frame of the iteration. -/
inductive StreamsYields (E : Tellers) : List Node → Yielding → Tape → (fr : Frame) → Tape → Prop
  | done {ns t fr} : StreamsYields E ns .done t fr t
  | yield {ns it k t fr t1 t2} : StreamsAll E ns (t.item fr it (itemData fr.data it)) t1 →
      StreamsYields E ns (k (t.back t1)) (t.back t1) t1.frame t2 → StreamsYields E ns (.yield it k) t fr t2
  | act {ns upd k t fr t1} : StreamsYields E ns (k (t.act upd)) (t.act upd) fr t1 →
      StreamsYields E ns (.act upd k) t fr t1
  | write {ns d k t fr t1} : StreamsYields E ns (k (t.put d)) (t.put d) fr t1 →
      StreamsYields E ns (.write d k) t fr t1
  | render {ns n k t fr t1 t2} : Streams E n t t1 → StreamsYields E ns (k t1) t1 fr t2 →
      StreamsYields E ns (.render n k) t fr t2
/-- What an `Imperative` function does; `stack` are the open elements, last opened first. -/
inductive StreamsDoing (E : Tellers) : Doing → (stack : List Bytes) → Tape → Tape → Prop
  | done {stack t} : StreamsDoing E .done stack t t
  | act {upd k stack t t1} : StreamsDoing E (k (t.act upd)) stack (t.act upd) t1 →
      StreamsDoing E (.act upd k) stack t t1
  | write {d k stack t t1} : StreamsDoing E (k (t.put d)) stack (t.put d) t1 →
      StreamsDoing E (.write d k) stack t t1
  | render {n k stack t t1 t2} : Streams E n t t1 → StreamsDoing E (k t1) stack t1 t2 →
      StreamsDoing E (.render n k) stack t t2
  | writeString {d k stack t t1} :
      StreamsDoing E (k (t.put (htmlEscapeString d))) stack (t.put (htmlEscapeString d)) t1 →
      StreamsDoing E (.call (.writeString d) k) stack t t1
  | writeRaw {d k stack t t1} : StreamsDoing E (k (t.put d)) stack (t.put d) t1 →
      StreamsDoing E (.call (.writeRaw d) k) stack t t1
  | writeNodes {ns k stack t t1 t2} : StreamsAll E (contentNodes ns) t t1 → StreamsDoing E (k t1) stack t1 t2 →
      StreamsDoing E (.call (.writeNodes ns) k) stack t t2
  | start {n isVoid attrs k stack t t1 t2} :
      StreamsStarted E (startCollect t.dl attrs []) (t.put (b%"<" ++ n)) t1 →
      StreamsDoing E (k (t1.put b%">")) (if isVoid then stack else n :: stack) (t1.put b%">") t2 →
      StreamsDoing E (.call (.start n isVoid attrs) k) stack t t2
  | endNone {k t t1} : StreamsDoing E (k t) [] t t1 → StreamsDoing E (.call .end k) [] t t1
  | endSome {n k stack t t1} : StreamsDoing E (k (t.put (endBytes n))) stack (t.put (endBytes n)) t1 →
      StreamsDoing E (.call .end k) (n :: stack) t t1
  | endAll {k stack t t1} :
      StreamsDoing E (k (t.put (stack.flatMap endBytes))) [] (t.put (stack.flatMap endBytes)) t1 →
      StreamsDoing E (.call .endAll k) stack t t1
end

/-! ### When it applies -/

/-- The body of a function that does this. -/
def Telling.body {α : Type} : Telling α → FnProg α
  | .ret a => .ret a
  | .act upd k => .user (fun s => { s with toCtx := upd (tape s) }) fun s => (k (tape s)).body
  | .write d k => .write d fun _ s => (k (tape s)).body
  | .render n k => .render n fun _ s => (k (tape s)).body

/-- The body of a function given to `IterateYield` that does this. -/
def Yielding.body : Yielding → YieldBody
  | .done => .done
  | .yield it k => .yield it fun s => (k (tape s)).body
  | .act upd k => .user (fun s => { s with toCtx := upd (tape s) }) fun s => (k (tape s)).body
  | .write d k => .write d fun _ s => (k (tape s)).body
  | .render n k => .render n fun _ s => (k (tape s)).body

/-- The body of a function given to `Imperative` that does this, and then returns nil. -/
def Doing.body : Doing → ImpProg
  | .done => .ret none
  | .call op k => .call op fun s => (k (tape s)).body
  | .act upd k => .user (fun s => { s with toCtx := upd (tape s) }) fun s => (k (tape s)).body
  | .write d k => .write d fun _ s => (k (tape s)).body
  | .render n k => .render n fun _ s => (k (tape s)).body

/-- The user functions do what is told by `E`. -/
structure Behaves (env : Env) (B : Bodies) (E : Tellers) : Prop where
  dyn : ∀ f s, B.dyn f s = (E.dyn f (tape s)).body
  cond : ∀ f s, B.cond f s = (E.cond f (tape s)).body
  collect : ∀ f s, B.collect f s = (E.collect f (tape s)).body
  items : ∀ f s, B.items f s = (E.items f (tape s)).body
  yields : ∀ f s, B.yields f s = (E.yields f (tape s)).body
  imp : ∀ f s, env.imp f s = (E.imp f (tape s)).body

/-- A change of memory that reports no error. -/
def Quiet (upd : Tape → Ctx) : Prop := ∀ t : Tape, t.frame.err = none → (upd t).frame.err = none

/-- A function that reports no error, renders well-formed nodes and returns something that satisfies `P`. -/
def Telling.Calm {α : Type} (P : α → Prop) : Telling α → Prop
  | .ret a => P a
  | .act upd k => Quiet upd ∧ ∀ t, (k t).Calm P
  | .write _ k => ∀ t, (k t).Calm P
  | .render n k => WF n ∧ ∀ t, (k t).Calm P

/-- An `IterateYield` function that reports no error and renders well-formed nodes. -/
def Yielding.Calm : Yielding → Prop
  | .done => True
  | .yield _ k => ∀ t, (k t).Calm
  | .act upd k => Quiet upd ∧ ∀ t, (k t).Calm
  | .write _ k => ∀ t, (k t).Calm
  | .render n k => WF n ∧ ∀ t, (k t).Calm

/-- An `Imperative` function that reports no error and renders well-formed nodes. -/
def Doing.Calm : Doing → Prop
  | .done => True
  | .call op k => (∀ ns n, op = .writeNodes ns → some n ∈ ns → WF n) ∧ ∀ t, (k t).Calm
  | .act upd k => Quiet upd ∧ ∀ t, (k t).Calm
  | .write _ k => ∀ t, (k t).Calm
  | .render n k => WF n ∧ ∀ t, (k t).Calm

/-- User functions that report no error and render and supply well-formed nodes. -/
structure Calm (E : Tellers) : Prop where
  dyn : ∀ f t, (E.dyn f t).Calm fun _ => True
  cond : ∀ f t, (E.cond f t).Calm fun _ => True
  collect : ∀ f t, (E.collect f t).Calm fun ns => ∀ n, some n ∈ ns → WF n
  items : ∀ f t, (E.items f t).Calm fun _ => True
  yields : ∀ f t, (E.yields f t).Calm
  imp : ∀ f t, (E.imp f t).Calm

/-- `n.Render(ctx)` in state `s`, with user functions `B`, returns error `e` in state `s'`. -/
def Ends (env : Env) (B : Bodies) (n : Node) (s : St) (e : Option Err) (s' : St) : Prop :=
  ∃ fuel, exec env (renderWith B fuel n) s = some (e, s')

end Aitch.Spec.Stream

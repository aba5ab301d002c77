import Verif.Spec.Stream
import Verif.Spec.Clean
/-
Templates whose names are known, with functions that write markup by the rules: the hypotheses of C110.
-/
namespace Aitch.Spec.Stream
open Aitch.Stream Markup

/-- Where something stands in a page: among elements; where only text can stand (in the value of an attribute, in a comment,
in an element like `script`); within a start tag, before its attributes, where nothing can stand. -/
inductive Spot where
  | content
  | text
  | tag

/-- Which element and attribute names there may be, and which function may stand where.  (Those of `Imperative` only stand
among elements.) -/
structure Rules where
  elements : List Bytes
  attributes : List Bytes
  dyn : Spot → FnId → Prop
  cond : Spot → FnId → Prop
  collect : Spot → FnId → Prop
  items : Spot → FnId → Prop
  yields : Spot → FnId → Prop
  imp : FnId → Prop

/-- The bytes may stand there: whole trees, escaped text, nothing. -/
def Rules.Fits (Q : Rules) : Spot → Bytes → Prop
  | .content, w => ∃ ts, w = writeAll ts ∧ ProperAll ts ∧ WithinAll Q.elements Q.attributes ts
  | .text, w => ∃ s, w = escaped s
  | .tag, w => w = []

section
variable (Q : Rules)

/-! ### Templates -/

mutual
/-- The value may stand there. (For data see `SafeMemory`.) -/
def NeatValue (p : Spot) : Value → Prop
  | .mk _ (some (.user f)) _ => Q.dyn p f
  | .mk _ (some _) _ => p ≠ .tag
  | .mk v none [] => Q.Fits p v
  | .mk _ none (x :: xs) => NeatValue p x ∧ NeatValues p xs
/-- `NeatValue` for all values. -/
def NeatValues (p : Spot) : List Value → Prop
  | [] => True
  | v :: vs => NeatValue p v ∧ NeatValues p vs
end

/-- The attribute has an allowed name and values that write text. -/
def NeatAttr (a : Attr) : Prop :=
  a.name ∈ Q.attributes ∧ match a with
    | .plain _ vs => NeatValues Q .text vs
    | .bool _ => True
    | .delim _ d _ => Q.Fits .text d

/-- The condition may stand there. -/
def NeatCond (p : Spot) : Cond → Prop
  | .user f => Q.cond p f
  | _ => True

/-- The items of the iteration may be computed there. -/
def NeatItems (p : Spot) : ItemSrc → Prop
  | .user f => Q.items p f
  | .key _ => True

/-- A start tag with allowed names, no attribute twice (as in all elements that the constructors make), and conditions on
attributes that write nothing. -/
structure NeatHead (h : ElemHead) : Prop where
  name : h.name ∈ Q.elements
  distinct : (h.attributes.map Attr.name).Nodup
  statics : ∀ a ∈ h.attributes, NeatAttr Q a
  conds : ∀ ca ∈ h.conditionals, NeatAttr Q ca.att ∧ ∀ k ∈ ca.conditions, NeatCond Q .tag k

/-- The node may stand there. -/
inductive Neat : Spot → Node → Prop
  | attr {p a} : NeatAttr Q a → Neat p (.attr a)
  | element {h contents} : NeatHead Q h → lower h.name ∉ textNames → (∀ n ∈ contents, n.isAttr = false) →
      (∀ n ∈ contents, Neat .content n) → Neat .content (.element h contents)
  | textElement {h contents} : NeatHead Q h → lower h.name ∈ textNames → (∀ n ∈ contents, n.isAttr = false) →
      (∀ n ∈ contents, Neat .text n) → Neat .content (.element h contents)
  | voidElement {h} : NeatHead Q h → lower h.name ∉ textNames → Neat .content (.voidElement h)
  | text {p vs} : NeatValues Q p vs → Neat p (.text vs)
  | fragment {p vs} : NeatValues Q p vs → Neat p (.fragment vs)
  | comment {vs} : NeatValues Q .text vs → Neat .content (.comment vs)
  | docType {vs} : NeatValues Q .text vs → Neat .content (.pi b%"DOCTYPE" vs)
  | collection {p ns} : (∀ n ∈ ns, Neat p n) → Neat p (.collection ns)
  | conditional {p ns as fn} : NeatCond Q p fn → (∀ n ∈ ns, n.isAttr = false) → (∀ n ∈ ns, Neat p n) →
      Neat p (.conditional ns as fn)
  | collector {p f} : Q.collect p f → Neat p (.collector f)
  | imperativeNil {p} : Neat p (.imperative none)
  | imperative {f} : Q.imp f → Neat .content (.imperative (some f))
  | iterator {p ns fn} : NeatItems Q p fn → (∀ n ∈ ns, n.isAttr = false) → (∀ n ∈ ns, Neat p n) → Neat p (.iterator ns fn)
  | yieldIterator {p ns f} : Q.yields p f → (∀ n ∈ ns, n.isAttr = false) → (∀ n ∈ ns, Neat p n) →
      Neat p (.yieldIterator ns f)
  | document {pro contents} : (∀ n ∈ pro.toList ++ contents, n.isAttr = false) →
      (∀ n ∈ pro.toList ++ contents, Neat .content n) → Neat .content (.document pro contents)

/-- The data cannot write markup, and the delimited attributes in memory have values that write text. -/
structure SafeMemory (c : Ctx) : Prop where
  cargo : SafeData c.frame.cargo
  maps : ∀ m k v, (k, v) ∈ c.maps m → SafeData v
  delimited : ∀ r, NeatValues Q .text (c.dl r)

/-! ### Functions -/

/-- A function that may stand there and returns something that satisfies `P`: it writes and renders what may stand there.
Among elements it may write tags too; `opened` are the names of the elements that it has begun and still has to end, the
last one first. -/
inductive NeatTelling (p : Spot) {α : Type} (P : α → Prop) : (opened : List Bytes) → Telling α → Prop
  | ret {a} : P a → NeatTelling p P [] (.ret a)
  | act {st upd k} : (∀ t : Tape, SafeMemory Q t.toCtx → SafeMemory Q (upd t)) →
      (∀ t : Tape, SafeMemory Q t.toCtx → NeatTelling p P st (k t)) → NeatTelling p P st (.act upd k)
  | write {st d k} : Q.Fits p d → (∀ t : Tape, SafeMemory Q t.toCtx → NeatTelling p P st (k t)) →
      NeatTelling p P st (.write d k)
  | start {st name attrs k} : p = .content → name ∈ Q.elements → lower name ∉ textNames → AttrsOK attrs →
      (∀ a ∈ attrs, a.1 ∈ Q.attributes) → (∀ t : Tape, SafeMemory Q t.toCtx → NeatTelling p P (name :: st) (k t)) →
      NeatTelling p P st (.write (writeTag name attrs) k)
  | close {st name k} : (∀ t : Tape, SafeMemory Q t.toCtx → NeatTelling p P st (k t)) →
      NeatTelling p P (name :: st) (.write (endBytes name) k)
  | render {st n k} : Neat Q p n → n.isAttr = false →
      (∀ t : Tape, SafeMemory Q t.toCtx → NeatTelling p P st (k t)) → NeatTelling p P st (.render n k)

/-- The same for a function of `IterateYield`; the items that it yields cannot write markup. -/
inductive NeatYielding (p : Spot) : (opened : List Bytes) → Yielding → Prop
  | done : NeatYielding p [] .done
  | yield {st it k} : SafeData it → (∀ t : Tape, SafeMemory Q t.toCtx → NeatYielding p st (k t)) →
      NeatYielding p st (.yield it k)
  | act {st upd k} : (∀ t : Tape, SafeMemory Q t.toCtx → SafeMemory Q (upd t)) →
      (∀ t : Tape, SafeMemory Q t.toCtx → NeatYielding p st (k t)) → NeatYielding p st (.act upd k)
  | write {st d k} : Q.Fits p d → (∀ t : Tape, SafeMemory Q t.toCtx → NeatYielding p st (k t)) →
      NeatYielding p st (.write d k)
  | start {st name attrs k} : p = .content → name ∈ Q.elements → lower name ∉ textNames → AttrsOK attrs →
      (∀ a ∈ attrs, a.1 ∈ Q.attributes) → (∀ t : Tape, SafeMemory Q t.toCtx → NeatYielding p (name :: st) (k t)) →
      NeatYielding p st (.write (writeTag name attrs) k)
  | close {st name k} : (∀ t : Tape, SafeMemory Q t.toCtx → NeatYielding p st (k t)) →
      NeatYielding p (name :: st) (.write (endBytes name) k)
  | render {st n k} : Neat Q p n → n.isAttr = false →
      (∀ t : Tape, SafeMemory Q t.toCtx → NeatYielding p st (k t)) → NeatYielding p st (.render n k)

/-- A function of `Imperative` that ends all elements that it starts; `stack` are those that it still has to end, the last one
first. -/
inductive NeatDoing : (stack : List Bytes) → Doing → Prop
  | done : NeatDoing [] .done
  | act {st upd k} : (∀ t : Tape, SafeMemory Q t.toCtx → SafeMemory Q (upd t)) →
      (∀ t : Tape, SafeMemory Q t.toCtx → NeatDoing st (k t)) → NeatDoing st (.act upd k)
  | write {st d k} : Q.Fits .content d → (∀ t : Tape, SafeMemory Q t.toCtx → NeatDoing st (k t)) →
      NeatDoing st (.write d k)
  | render {st n k} : Neat Q .content n → n.isAttr = false →
      (∀ t : Tape, SafeMemory Q t.toCtx → NeatDoing st (k t)) → NeatDoing st (.render n k)
  | writeString {st d k} : (∀ t : Tape, SafeMemory Q t.toCtx → NeatDoing st (k t)) →
      NeatDoing st (.call (.writeString d) k)
  | writeRaw {st d k} : Q.Fits .content d → (∀ t : Tape, SafeMemory Q t.toCtx → NeatDoing st (k t)) →
      NeatDoing st (.call (.writeRaw d) k)
  | writeNodes {st ns k} : (∀ n, some n ∈ ns → Neat Q .content n) →
      (∀ t : Tape, SafeMemory Q t.toCtx → NeatDoing st (k t)) → NeatDoing st (.call (.writeNodes ns) k)
  | start {st name isVoid attrs k} : name ∈ Q.elements → lower name ∉ textNames →
      (∀ a, some (.attr a) ∈ attrs → NeatAttr Q a) →
      (∀ t : Tape, SafeMemory Q t.toCtx → NeatDoing (if isVoid then st else name :: st) (k t)) →
      NeatDoing st (.call (.start name isVoid attrs) k)
  | «end» {st k} : (∀ t : Tape, SafeMemory Q t.toCtx → NeatDoing st.tail (k t)) → NeatDoing st (.call .end k)
  | endAll {st k} : (∀ t : Tape, SafeMemory Q t.toCtx → NeatDoing [] (k t)) → NeatDoing st (.call .endAll k)

/-- All functions do where they stand what may be done there. -/
structure Follows (E : Tellers) : Prop where
  dyn : ∀ p f, Q.dyn p f → ∀ t : Tape, SafeMemory Q t.toCtx → NeatTelling Q p (Q.Fits p) [] (E.dyn f t)
  cond : ∀ p f, Q.cond p f → ∀ t : Tape, SafeMemory Q t.toCtx → NeatTelling Q p (fun _ => True) [] (E.cond f t)
  collect : ∀ p f, Q.collect p f → ∀ t : Tape, SafeMemory Q t.toCtx →
    NeatTelling Q p (fun ns => ∀ n, some n ∈ ns → Neat Q p n) [] (E.collect f t)
  items : ∀ p f, Q.items p f → ∀ t : Tape, SafeMemory Q t.toCtx →
    NeatTelling Q p (fun its => ∀ v ∈ its, SafeData v) [] (E.items f t)
  yields : ∀ p f, Q.yields p f → ∀ t : Tape, SafeMemory Q t.toCtx → NeatYielding Q p [] (E.yields f t)
  imp : ∀ f, Q.imp f → ∀ t : Tape, SafeMemory Q t.toCtx → NeatDoing Q [] (E.imp f t)

end

end Aitch.Spec.Stream

import Verif.Model.Render
import Verif.Model.Html
/-
Encodings: UTF-8, and what it means that all texts of a template, of the data and of the user functions belong to a
given class of texts.
-/
namespace Aitch.Spec

/-- Valid UTF-8: the encoding of a sequence of Unicode characters (`Char` and `String.utf8EncodeChar` are Lean's). -/
def Utf8 (w : Bytes) : Prop := ∃ cs : List Char, w = cs.flatMap String.utf8EncodeChar

/-- ASCII text. -/
def Ascii (w : Bytes) : Prop := ∀ c ∈ w, c < 128

/-- The characters that a character becomes by escaping. -/
def escapedChar (c : Char) : List Char :=
  if c = '"' then "&quot;".toList
  else if c = '\'' then "&apos;".toList
  else if c = '&' then "&amp;".toList
  else if c = '<' then "&lt;".toList
  else if c = '>' then "&gt;".toList
  else if c = '\x00' then []
  else [c]

section
variable (T : Bytes → Prop)

mutual
/-- The texts in a value are in `T`. -/
def ValueTexts : Value → Prop
  | .mk value _ concats => T value ∧ ValuesTexts concats
/-- `ValueTexts` for all values of a list. -/
def ValuesTexts : List Value → Prop
  | [] => True
  | v :: vs => ValueTexts v ∧ ValuesTexts vs
end

/-- The texts in an attribute are in `T` (the values of a delimited attribute are in memory: `MemoryTexts`). -/
def AttrTexts : Attr → Prop
  | .plain name values => T name ∧ ValuesTexts T values
  | .bool name => T name
  | .delim name delimiter _ => T name ∧ T delimiter

/-- The texts in a start tag are in `T`. -/
structure HeadTexts (h : ElemHead) : Prop where
  name : T h.name
  attributes : ∀ a ∈ h.attributes, AttrTexts T a
  conditionals : ∀ a ∈ h.conditionals, AttrTexts T a.att

mutual
/-- The texts in a node are in `T`. -/
def NodeTexts : Node → Prop
  | .element h contents => HeadTexts T h ∧ NodesTexts contents
  | .voidElement h => HeadTexts T h
  | .attr a => AttrTexts T a
  | .text vs => ValuesTexts T vs
  | .comment vs => ValuesTexts T vs
  | .fragment vs => ValuesTexts T vs
  | .pi name vs => T name ∧ ValuesTexts T vs
  | .collection ns => NodesTexts ns
  | .conditional ns as _ => NodesTexts ns ∧ ∀ a ∈ as, AttrTexts T a
  | .collector _ => True
  | .imperative _ => True
  | .iterator ns _ => NodesTexts ns
  | .yieldIterator ns _ => NodesTexts ns
  | .document none contents => NodesTexts contents
  | .document (some p) contents => NodeTexts p ∧ NodesTexts contents
/-- `NodeTexts` for all nodes of a list. -/
def NodesTexts : List Node → Prop
  | [] => True
  | n :: ns => NodeTexts n ∧ NodesTexts ns
end

mutual
/-- The texts in a Go value that the library can come upon are in `T`. -/
def AnyTexts : Any → Prop
  | .bytes bs => T bs
  | .str s => T s
  | .float _ txt => T txt
  | .stringer _ out v => T out ∧ AnyTexts v
  | .thunk r => AnyTexts r
  | .value v => ValueTexts T v
  | .node n => NodeTexts T n
  | .anySlice xs => AnysTexts xs
  | .slice _ xs => AnysTexts xs
  | _ => True
/-- `AnyTexts` for all values of a list. -/
def AnysTexts : List Any → Prop
  | [] => True
  | v :: vs => AnyTexts v ∧ AnysTexts vs
end

/-- The texts in memory are in `T`: in the contexts, in the maps and in the delimited attributes. -/
structure MemoryTexts (c : Ctx) : Prop where
  cargo : AnyTexts T c.frame.cargo
  parents : ∀ f ∈ c.parents, AnyTexts T f.cargo
  maps : ∀ m, ∀ p ∈ c.maps m, AnyTexts T p.2
  delimited : ∀ r, ValuesTexts T (c.dl r)

/-- User code that keeps the texts in memory in `T`. -/
def KeepsTexts (upd : St → St) : Prop := ∀ s : St, MemoryTexts T s.toCtx → MemoryTexts T (s.confine (upd s)).toCtx

/-- The texts given to a method of `ImperativeContext` are in `T`. -/
def OpTexts : ImpOp → Prop
  | .writeString s => T s
  | .writeRaw d => T d
  | .writeNodes ns => ∀ n, some n ∈ ns → NodeTexts T n
  | .start name _ attrs => T name ∧ ∀ n, some n ∈ attrs → NodeTexts T n
  | .end => True
  | .endAll => True

/-- The texts that a function of `Imperative` uses are in `T`. -/
inductive ImpTexts : ImpProg → Prop
  | ret {e} : ImpTexts (.ret e)
  | call {op k} : OpTexts T op → (∀ s : St, MemoryTexts T s.toCtx → ImpTexts (k s)) → ImpTexts (.call op k)
  | user {upd k} : KeepsTexts T upd → (∀ s : St, MemoryTexts T s.toCtx → ImpTexts (k s)) → ImpTexts (.user upd k)
  | render {n k} : NodeTexts T n → (∀ e (s : St), MemoryTexts T s.toCtx → ImpTexts (k e s)) → ImpTexts (.render n k)
  | write {d k} : T d → (∀ r (s : St), MemoryTexts T s.toCtx → ImpTexts (k r s)) → ImpTexts (.write d k)

/-- The texts that a function of `IterateYield` uses are in `T`. -/
inductive YieldTexts : YieldProg → Prop
  | done : YieldTexts .done
  | yield {it k} : AnyTexts T it → (∀ s : St, MemoryTexts T s.toCtx → YieldTexts (k s)) → YieldTexts (.yield it k)
  | user {upd k} : KeepsTexts T upd → (∀ s : St, MemoryTexts T s.toCtx → YieldTexts (k s)) → YieldTexts (.user upd k)
  | write {d k} : T d → (∀ r (s : St), MemoryTexts T s.toCtx → YieldTexts (k r s)) → YieldTexts (.write d k)

/-- The user functions, called with texts of `T` in memory, supply texts of `T` and keep those in memory in `T`. -/
structure FnsTexts (env : Env) : Prop where
  dyn : ∀ f (s : St), MemoryTexts T s.toCtx → T (env.dyn f s).1
  dynKeeps : ∀ f, KeepsTexts T fun s => (env.dyn f s).2
  condKeeps : ∀ f, KeepsTexts T fun s => (env.cond f s).2
  collect : ∀ f (s : St) n, MemoryTexts T s.toCtx → some n ∈ (env.collect f s).1 → NodeTexts T n
  collectKeeps : ∀ f, KeepsTexts T fun s => (env.collect f s).2
  items : ∀ f (s : St), MemoryTexts T s.toCtx → AnysTexts T (env.items f s).1
  itemsKeeps : ∀ f, KeepsTexts T fun s => (env.items f s).2
  yields : ∀ f (s : St), MemoryTexts T s.toCtx → YieldTexts T (env.yields f s)
  imp : ∀ f (s : St), MemoryTexts T s.toCtx → ImpTexts T (env.imp f s)

/-- A class of texts that has the markup the library writes by itself, the texts of booleans and integers, and is closed
under escaping. -/
structure TextClass : Prop where
  markup : ∀ m ∈ [b%"<", b%">", b%"</", b%" ", b%"=\"", b%"\"", b%"<!--", b%"-->", b%"<!", b%">\n", b%"true", b%"false",
    []], T m
  int : ∀ i : Int, T (intDec i)
  escape : ∀ s, T s → T (htmlEscapeString s)

/-- The texts in the heap of delimited attributes are in `T`. -/
def HeapTexts (h : Heap) : Prop := ∀ r, ValuesTexts T (h.dl r)

/-- A call of a constructor, in memory `h`, all whose arguments are made of texts of `T`, returns the node `n` and leaves
the memory `h'`. -/
inductive Constructs : Heap → Node → Heap → Prop
  | newElement {name contents h} : T name → AnysTexts T contents →
      Constructs h (NewElement name contents h).1 (NewElement name contents h).2
  | newVoidElement {name contents h} : T name → AnysTexts T contents →
      Constructs h (NewVoidElement name contents h).1 (NewVoidElement name contents h).2
  | newAttribute {name values h} : T name → AnysTexts T values → Constructs h (NewAttribute h.dl name values) h
  | newBooleanAttribute {name h} : T name → Constructs h (NewBooleanAttribute name) h
  | newDelimitedAttribute {name delimiter values h} : T name → T delimiter → AnysTexts T values →
      Constructs h (NewDelimitedAttribute name delimiter values h).1 (NewDelimitedAttribute name delimiter values h).2
  | text {contents h} : AnysTexts T contents → Constructs h (Text h.dl contents) h
  | comment {contents h} : AnysTexts T contents → Constructs h (Comment h.dl contents) h
  | fragment {contents h} : AnysTexts T contents → Constructs h (Fragment h.dl contents) h
  | pi {name contents h} : T name → AnysTexts T contents → Constructs h (PI h.dl name contents) h
  | collection {nodes h} : (∀ n, some n ∈ nodes → NodeTexts T n) → Constructs h (Collection nodes) h
  | contentCollect {f h} : Constructs h (ContentCollect f) h
  | conditional {fn nodes n h} : (∀ n, some n ∈ nodes → NodeTexts T n) → Conditional fn nodes = .val n → Constructs h n h
  | when {key nodes n h} : (∀ n, some n ∈ nodes → NodeTexts T n) → When key nodes = .val n → Constructs h n h
  | iterate {fn nodes n h} : (∀ n, some n ∈ nodes → NodeTexts T n) → Iterate fn nodes = .val n → Constructs h n h
  | iterateKey {key nodes n h} : (∀ n, some n ∈ nodes → NodeTexts T n) → IterateKey key nodes = .val n → Constructs h n h
  | iterateYield {fn nodes n h} : (∀ n, some n ∈ nodes → NodeTexts T n) → IterateYield fn nodes = .val n →
      Constructs h n h
  | imperative {fn h} : Constructs h (Imperative fn) h
  | document {lang head body h} : AnyTexts T lang → AnysTexts T head → AnysTexts T body →
      Constructs h (Document lang head body h).1 (Document lang head body h).2

end

end Aitch.Spec

import Verif.Spec.Tag
import Verif.Spec.Markup
import Verif.Spec.Library
import Verif.Model.HtmlTables
/-
The classes of an element, as a browser finds them.
-/
namespace Aitch.Spec

/-- ASCII whitespace: tab, line feed, form feed, carriage return, space. -/
def isBlank (c : UInt8) : Bool := c ∈ [9, 10, 12, 13, 32]

/-- A word, if it has characters. -/
def oneWord (w : Bytes) : List Bytes := if w = [] then [] else [w]

/-- Splitting, `cur` being what has been read of the present word. -/
def wordsFrom (cur : Bytes) : Bytes → List Bytes
  | [] => oneWord cur
  | c :: s => if isBlank c then oneWord cur ++ wordsFrom [] s else wordsFrom (cur ++ [c]) s

/-- "Split on ASCII whitespace" of the Infra standard: how the value of a `class` attribute is read. -/
def words (s : Bytes) : List Bytes := wordsFrom [] s

/-- The words of an attribute of the start tag that a page begins with. -/
def wordsOf (n : Bytes) : List Markup.Item → List Bytes
  | .start _ attrs _ :: _ => ((attrs.lookup n).map words).getD []
  | _ => []

/-! ### Attributes with texts for values -/

/-- An attribute with a valid name in lower case, and texts for values. -/
structure Ordinary (P : Fns) (c : Ctx) (dl : Nat → List Value) (a : Attr) : Prop where
  valid : ValidName a.name
  lower : Markup.lower a.name = a.name
  texts : ∀ v ∈ a.values dl, ∃ s, valueBytes P c v = escaped s
  delimiter : ∀ n d r, a = .delim n d r → escaped d = d

/-! ### Calls of html.Class -/

/-- A call of `html.Class` with strings: alone, or the argument of `When` or `Conditional`. -/
inductive ClassCall where
  | given (names : List Bytes)
  | when (key : Bytes) (names : List Bytes)
  | conditional (f : FnId) (names : List Bytes)

/-- The strings. -/
def ClassCall.names : ClassCall → List Bytes
  | .given ns => ns
  | .when _ ns => ns
  | .conditional _ ns => ns

/-- Whether it stands alone. -/
def ClassCall.isGiven : ClassCall → Bool
  | .given _ => true
  | _ => false

/-- The attribute function `html.Class`. -/
def classFn : AttrFn := ⟨b%"Class", b%"class", .delim b%" "⟩

/-- The node that a call makes; `none` for a panic. -/
def ClassCall.node : ClassCall → Heap → Option Node
  | .given ns, h => some (classFn.call (ns.map .str) h).1
  | .when key ns, h =>
    match When key [some (classFn.call (ns.map .str) h).1] with
    | .val n => some n
    | .panic => none
  | .conditional f ns, h =>
    match Conditional (some f) [some (classFn.call (ns.map .str) h).1] with
    | .val n => some n
    | .panic => none

/-- The nodes that calls make, one after the other. -/
inductive ClassCalls : List ClassCall → Heap → List Node → Heap → Prop where
  | nil {h} : ClassCalls [] h [] h
  | cons {k ks h n ns h'} : k.node h = some n → ClassCalls ks (classFn.call (k.names.map .str) h).2 ns h' →
      ClassCalls (k :: ks) h (n :: ns) h'

/-- Whether the condition around a call holds. -/
def ClassCall.inForce (P : Fns) (c : Ctx) : ClassCall → Bool
  | .given _ => true
  | .when [] _ => holds P c (.has [])
  | .when (x :: key) _ => if x = c%'!' then holds P c (.hasNot key) else holds P c (.has (x :: key))
  | .conditional f _ => P.cond f c

end Aitch.Spec

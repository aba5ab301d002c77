import Verif.Spec.Generator
/-
Token streams that need not be well nested.
-/
namespace Aitch.Spec

/-- The number of start tags (self-closing tags do not count). -/
def starts : List Token → Nat
  | [] => 0
  | .startTag _ _ :: ts => starts ts + 1
  | _ :: ts => starts ts

/-- The number of end tags. -/
def ends : List Token → Nat
  | [] => 0
  | .endTag _ :: ts => ends ts + 1
  | _ :: ts => ends ts

/-- As many end tags as start tags, and at no point more than `k` end tags too many. -/
def Levels (k : Nat) (ts : List Token) : Prop :=
  starts ts = ends ts ∧ ∀ before after, ts = before ++ after → ends before ≤ starts before + k

/-- The element and attribute names can stand between quotes. -/
def _root_.Aitch.Token.QuotableNames : Token → Prop
  | .startTag name attrs => Quotable name ∧ ∀ a ∈ attrs, Quotable a.1
  | .selfClosingTag name attrs => Quotable name ∧ ∀ a ∈ attrs, Quotable a.1
  | _ => True

/-- The token, with the name of an end tag left out. -/
def _root_.Aitch.Token.unnamed : Token → Token
  | .endTag _ => .endTag []
  | t => t

/-- The attribute names of a token have no line end in them (names that come from a tokenizer do not). -/
def _root_.Aitch.Token.KeysOnLine : Token → Prop
  | .startTag _ as => ∀ a ∈ as, 10 ∉ a.1
  | .selfClosingTag _ as => ∀ a ∈ as, 10 ∉ a.1
  | _ => True

/-- The calls of `Write` whose error counts: those that end a line of code, with a line end or with `),` and a line end. -/
def endsLine (ev : WEvent) : Bool := ev.data == b%"\n" || ev.data == b%"),\n"

/-- The error of the first of these that failed. -/
def lineError (log : List WEvent) : Option Err := (log.filter endsLine).findSome? (·.err)

end Aitch.Spec

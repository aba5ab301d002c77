import Verif.Spec.Htmx
/-
How the text of an object, in the form in which htmx header maps are written, is read as JavaScript.  Nothing here refers
to the model of the code.
-/
namespace Aitch.Spec

/-- Letters, digits, `-`, `+`, `.`, `_` and `$`: what numbers, `true`, `null` and names of variables consist of. -/
def isWordByte (c : UInt8) : Bool :=
  (c%'a' ≤ c && c ≤ c%'z') || (c%'A' ≤ c && c ≤ c%'Z') || (c%'0' ≤ c && c ≤ c%'9') || c ∈ b%"-+._$"

/-- Bytes that may stand in a JavaScript string in single quotes, as they are. -/
def Clean (k : Bytes) : Prop := ∀ c ∈ k, c ∉ b%"'\\\n\r"

/-- A value that JavaScript takes as one thing: a word (a number, a constant, a variable) or a string in single quotes. -/
def Literal (t : Bytes) : Prop :=
  (t ≠ [] ∧ ∀ c ∈ t, isWordByte c = true) ∨ ∃ u, Clean u ∧ t = b%"'" ++ u ++ b%"'"

/-- Reading such a value at the start of a text: the value (quotes included) and the rest of the text. -/
def readLiteral : Bytes → Option (Bytes × Bytes)
  | 39 :: s => (readToQuote s).map fun p => (b%"'" ++ p.1 ++ b%"'", p.2)
  | s => if s.takeWhile isWordByte = [] then none else some (s.takeWhile isWordByte, s.dropWhile isWordByte)

/-- What the members of an object say: names and values, separated by commas, up to the closing brace. -/
inductive MembersSay : Bytes → List (Bytes × Bytes) → Prop
  | last {s s' k v} : readString s = some (k, b%": " ++ s') → readLiteral s' = some (v, b%"}") → MembersSay s [(k, v)]
  | more {s s' s'' k v ms} : readString s = some (k, b%": " ++ s') → readLiteral s' = some (v, b%", " ++ s'') →
      MembersSay s'' ms → MembersSay s ((k, v) :: ms)

/-- What the text of an object says. -/
inductive ObjectSays : Bytes → List (Bytes × Bytes) → Prop
  | empty : ObjectSays b%"{}" []
  | members {s ms} : MembersSay s ms → ObjectSays (c%'{' :: s) ms

end Aitch.Spec

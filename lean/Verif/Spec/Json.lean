import Verif.Model.Escape
/-
JSON (RFC 8259), on bytes: which texts are JSON, and what they say.
Not looked at: whether strings are valid UTF-8.  Strings and numbers are kept as they are written.
-/
namespace Aitch.Spec

/-- What a JSON text says. -/
inductive Json where
  | null
  | bool (b : Bool)
  | number (text : Bytes)
  | string (text : Bytes)
  | array (vs : List Json)
  | object (ms : List (Bytes × Json))

namespace Json

/-- White space: space, tab, line feed, carriage return. -/
def Blank (s : Bytes) : Prop := ∀ c ∈ s, c ∈ [32, 9, 10, 13]

/-- What stands between the quotes of a string. -/
inductive Chars : Bytes → Prop
  | nil : Chars []
  | char {c s} : 0x20 ≤ c → c ≠ c%'"' → c ≠ c%'\\' → Chars s → Chars (c :: s)
  | escape {c s} : c ∈ b%"\"\\/bfnrt" → Chars s → Chars (c%'\\' :: c :: s)
  | unicode {a b c d s} : (∀ x ∈ [a, b, c, d], x ∈ b%"0123456789abcdefABCDEF") → Chars s →
      Chars (c%'\\' :: c%'u' :: a :: b :: c :: d :: s)

/-- One or more digits. -/
def Digits (s : Bytes) : Prop := s ≠ [] ∧ ∀ c ∈ s, c ∈ b%"0123456789"

/-- A number: an optional minus sign, an integer without leading zeros, an optional fraction, an optional exponent. -/
def Number (s : Bytes) : Prop := ∃ sign int frac exp, s = sign ++ int ++ frac ++ exp ∧
  (sign = [] ∨ sign = b%"-") ∧
  (Digits int ∧ (int = b%"0" ∨ int.head? ≠ some c%'0')) ∧
  (frac = [] ∨ ∃ ds, Digits ds ∧ frac = b%"." ++ ds) ∧
  (exp = [] ∨ ∃ e sg ds, e ∈ b%"eE" ∧ (sg = [] ∨ sg = b%"+" ∨ sg = b%"-") ∧ Digits ds ∧ exp = e :: (sg ++ ds))

mutual
/-- A value, written. -/
inductive Val : Json → Bytes → Prop
  | null : Val .null b%"null"
  | true : Val (.bool true) b%"true"
  | false : Val (.bool false) b%"false"
  | number {s} : Number s → Val (.number s) s
  | string {s} : Chars s → Val (.string s) (b%"\"" ++ s ++ b%"\"")
  | noElements {s} : Blank s → Val (.array []) (b%"[" ++ s ++ b%"]")
  | array {vs s} : Elements vs s → Val (.array vs) (b%"[" ++ s ++ b%"]")
  | noMembers {s} : Blank s → Val (.object []) (b%"{" ++ s ++ b%"}")
  | object {ms s} : Members ms s → Val (.object ms) (b%"{" ++ s ++ b%"}")
/-- The elements of an array, with commas between them. -/
inductive Elements : List Json → Bytes → Prop
  | one {v a s b} : Blank a → Val v s → Blank b → Elements [v] (a ++ s ++ b)
  | more {v vs a s b t} : Blank a → Val v s → Blank b → Elements vs t → Elements (v :: vs) (a ++ s ++ b ++ b%"," ++ t)
/-- The members of an object, with commas between them. -/
inductive Members : List (Bytes × Json) → Bytes → Prop
  | one {k v a b c s d} : Blank a → Chars k → Blank b → Blank c → Val v s → Blank d →
      Members [(k, v)] (a ++ b%"\"" ++ k ++ b%"\"" ++ b ++ b%":" ++ c ++ s ++ d)
  | more {k v ms a b c s d t} : Blank a → Chars k → Blank b → Blank c → Val v s → Blank d → Members ms t →
      Members ((k, v) :: ms) (a ++ b%"\"" ++ k ++ b%"\"" ++ b ++ b%":" ++ c ++ s ++ d ++ b%"," ++ t)
end

/-- A JSON text that says `v`. -/
def Says (v : Json) (t : Bytes) : Prop := ∃ a s b, t = a ++ s ++ b ∧ Blank a ∧ Val v s ∧ Blank b

/-- A JSON text. -/
def IsJson (t : Bytes) : Prop := ∃ v, Says v t

end Json
end Aitch.Spec

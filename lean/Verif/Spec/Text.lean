import Verif.Model.Basic
/-
Specification vocabulary for text: the five character references, decoding them, decimal numerals.
Nothing here refers to the model of the code.
-/
namespace Aitch.Spec

/-- The five character references. -/
def refs : List Bytes := [b%"&quot;", b%"&apos;", b%"&amp;", b%"&lt;", b%"&gt;"]

/-- Text that cannot be taken for markup: it has none of `<`, `>`, `"`, `'`, NUL, and each `&` in it starts one of
the five references. -/
def MarkupSafe (w : Bytes) : Prop :=
  (∀ c ∈ w, c ≠ c%'<' ∧ c ≠ c%'>' ∧ c ≠ c%'"' ∧ c ≠ c%'\'' ∧ c ≠ 0) ∧
  ∀ pre post, w = pre ++ c%'&' :: post → ∃ r ∈ refs, r <+: c%'&' :: post

/-- Replaces each of the five character references by its character. -/
def decode : Bytes → Bytes
  | 38 :: 113 :: 117 :: 111 :: 116 :: 59 :: rest => c%'"' :: decode rest   -- &quot;
  | 38 :: 97 :: 112 :: 111 :: 115 :: 59 :: rest => c%'\'' :: decode rest   -- &apos;
  | 38 :: 97 :: 109 :: 112 :: 59 :: rest => c%'&' :: decode rest           -- &amp;
  | 38 :: 108 :: 116 :: 59 :: rest => c%'<' :: decode rest                 -- &lt;
  | 38 :: 103 :: 116 :: 59 :: rest => c%'>' :: decode rest                 -- &gt;
  | c :: rest => c :: decode rest
  | [] => []

/-- A byte that is an ASCII digit. -/
def IsDigit (c : UInt8) : Prop := c%'0' ≤ c ∧ c ≤ c%'9'

/-- The number a string of digits denotes. -/
def digitsVal (w : Bytes) : Nat := w.foldl (fun acc c => 10 * acc + (c.toNat - 48)) 0

/-- A canonical decimal numeral of a natural number: digits, at least one, no superfluous leading zero. -/
def CanonNat (w : Bytes) (n : Nat) : Prop :=
  w ≠ [] ∧ (∀ c ∈ w, IsDigit c) ∧ (w.head? = some c%'0' → w = [c%'0']) ∧ digitsVal w = n

/-- A canonical decimal numeral of an integer: that of a natural number, or `-` and that of a positive one. -/
def CanonInt (w : Bytes) (i : Int) : Prop :=
  (∃ n : Nat, i = n ∧ CanonNat w n) ∨ (∃ n : Nat, 0 < n ∧ i = -n ∧ ∃ w', w = c%'-' :: w' ∧ CanonNat w' n)

end Aitch.Spec

import Verif.Spec.Library
import Verif.Model.Htmx
import Verif.Spec.Text
/-
What header maps stand for.
-/
namespace Aitch.Spec

/-- The keys of a map. -/
def keysOf (m : GoMap) : List Bytes := m.map (·.1)

/-- A list of entries is a map when its keys are different. -/
def IsMap (m : GoMap) : Prop := (keysOf m).Nodup

/-- The runtime visits every entry of a map once, in any order, possibly another one each time. -/
def Visits (ord : Nat → GoMap → GoMap) : Prop := ∀ i m, (ord i m).Perm m

/-- The value for a key: that of the last map that has it. -/
def lastValue (maps : List GoMap) (k : Bytes) : Option Any := maps.reverse.findSome? (·.lookup k)

/-- Alphabetical order by bytes: a proper prefix comes first, otherwise the first difference decides. -/
def Before (a b : Bytes) : Prop :=
  (∃ x s, b = a ++ x :: s) ∨ ∃ p x y s t, a = p ++ x :: s ∧ b = p ++ y :: t ∧ x < y

/-- A key with every double quote written as a character reference. -/
def safeKey (k : Bytes) : Bytes := k.flatMap fun c => if c = c%'"' then b%"&quot;" else [c]

/-- The text of an object with keys `ks` in this order. -/
def objectText (val : Bytes → Bytes) (ks : List Bytes) : Bytes :=
  b%"{" ++ List.intercalate b%", " (ks.map fun k => b%"'" ++ safeKey k ++ b%"': " ++ val k) ++ b%"}"

/-- The bytes of the value that a list of maps has for a key. -/
def headerBytes (P : Fns) (c : Ctx) (dl : Nat → List Value) (maps : List GoMap) (k : Bytes) : Bytes :=
  argsBytes P c dl [(lastValue maps k).getD .nil]

/-- Reading to the single quote that ends a JavaScript string without escapes. -/
def readToQuote : Bytes → Option (Bytes × Bytes)
  | [] => none
  | c :: s =>
    if c = c%'\'' then some ([], s)
    else if c = c%'\\' ∨ c = c%'\n' ∨ c = c%'\r' then none
    else (readToQuote s).map fun p => (c :: p.1, p.2)

/-- Reading a JavaScript string without escapes, in single quotes, at the start of a text: what it denotes, and the
rest of the text. -/
def readString : Bytes → Option (Bytes × Bytes)
  | 39 :: s => readToQuote s
  | _ => none

end Aitch.Spec

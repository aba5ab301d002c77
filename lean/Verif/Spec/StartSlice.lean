import Verif.Model.StartSlice
import Verif.Spec.Slice
import Verif.Spec.Each
/-
Attribute nodes in memory with slices, and the lists of values they stand for.
-/
namespace Aitch.Spec

/-- The attribute `a`, its values being in memory `m`, is the attribute `b` (whose values, if it is delimited, are in
`dl`). -/
inductive IsAttr (m : Arrays Value) (dl : Nat → List Value) : SliceAttr → Attr → Prop
  | plain (n s) : IsAttr m dl (.plain n s) (.plain n (m.read s))
  | bool (n) : IsAttr m dl (.bool n) (.bool n)
  | delim (n d s r) : dl r = m.read s → IsAttr m dl (.delim n d s) (.delim n d r)

/-- The slice of an attribute. -/
def sliceOf : SliceAttr → Option Slice
  | .plain _ s => some s
  | .bool _ => none
  | .delim _ _ s => some s

/-- What `Start` has collected, read from memory. -/
def readEntries (m : Arrays Value) (es : List (Bytes × Option Slice)) : List (Bytes × Option (List Value)) :=
  es.map fun e => (e.1, e.2.map m.read)

/-- `t` shows nothing after the end of `s`: it is a slice of another array, or ends where `s` ends or before. -/
def EndsBefore (t s : Slice) : Prop := t.cap = 0 ∨ s.cap = 0 ∨ t.arr ≠ s.arr ∨ t.off + t.len ≤ s.off + s.len

/-- Attributes as constructors make them: their values are in memory, and the values of a plain attribute are in an array
of their own (all slices showing it end where they do). -/
structure OwnArrays (m : Arrays Value) (attrs : List SliceAttr) : Prop where
  inMemory : ∀ a ∈ attrs, ∀ s, sliceOf a = some s → InMemory m s
  before : ∀ n s a t, .plain n s ∈ attrs → a ∈ attrs → sliceOf a = some t → EndsBefore t s
  names : ∀ n s n' s', .plain n s ∈ attrs → .plain n' s' ∈ attrs → n ≠ n' → s.cap = 0 ∨ s'.cap = 0 ∨ s.arr ≠ s'.arr

end Aitch.Spec

import Verif.Model.Slice
/-
Which slices a program can hold, and what it can see through them.
-/
namespace Aitch.Spec

/-- `s` is a slice of an array that exists in memory (or an empty slice without capacity). -/
def InMemory {α : Type} (m : Arrays α) (s : Slice) : Prop :=
  s.len ≤ s.cap ∧ (s.cap = 0 ∨ s.arr < m.next ∧ s.off + s.cap ≤ (m.arrs s.arr).length)

/-- The whole of the memory behind a slice, up to its capacity. -/
def behind {α : Type} (m : Arrays α) (s : Slice) : List α := ((m.arrs s.arr).drop s.off).take s.cap

end Aitch.Spec

import Verif.Model.Basic
/-
Go slices: a view of an array in memory.  Used where the code appends to a slice that somebody else can see.
-/
namespace Aitch

/-- the slices of html/attributes.go:190,279, htmx/attributes.go:117, css/units.go:25, text.go:46,
imperative.go:81-114 — A Go slice `[]T`: backing array, position in it, length, capacity. -/
structure Slice where
  arr : Nat
  off : Nat
  len : Nat
  cap : Nat

/-- text.go:46 — The nil slice. -/
def Slice.nil : Slice := ⟨0, 0, 0, 0⟩

/-- imperative.go:91,93,108,110, css/units.go:25, text.go:46 — The arrays of element type `α` in memory; those below
`next` are in use. -/
structure Arrays (α : Type) where
  arrs : Nat → List α
  next : Nat

/-- imperative.go:91,93,108,110, css/units.go:25, text.go:46 — The elements of a slice. -/
def Arrays.read {α : Type} (m : Arrays α) (s : Slice) : List α := ((m.arrs s.arr).drop s.off).take s.len

/-- text.go:56, imperative.go:91,93,108,110, css/units.go:25, text.go:46 — Overwriting part of a list: `xs` from
position `i` on. -/
def splice {α : Type} (l : List α) (i : Nat) (xs : List α) : List α := l.take i ++ xs ++ l.drop (i + xs.length)

/-- imperative.go:91,93,108,110, css/units.go:25, text.go:46 — Overwriting part of an array. -/
def Arrays.store {α : Type} (m : Arrays α) (a i : Nat) (xs : List α) : Arrays α :=
  { m with arrs := fun b => if b = a then splice (m.arrs b) i xs else m.arrs b }

/-- imperative.go:91,93,108,110, css/units.go:25, text.go:46 — A new array. -/
def Arrays.alloc {α : Type} (m : Arrays α) (xs : List α) : Arrays α :=
  { arrs := fun b => if b = m.next then xs else m.arrs b, next := m.next + 1 }

/-- html/attributes.go:190,279, htmx/attributes.go:117, css/units.go:25, text.go:46, imperative.go:91,93,108,110 — The
Go built-in `append(s, xs...)`: in place when the capacity suffices, else into a new array.  `grow` is the runtime's
choice of the spare capacity of the new array (arbitrary), `zero` the zero value of the element type. -/
def append {α : Type} (grow : Slice → Nat → Nat) (zero : α) (s : Slice) (xs : List α) (m : Arrays α) :
    Slice × Arrays α :=
  if xs = [] then (s, m)
  else if s.len + xs.length ≤ s.cap then
    ({ s with len := s.len + xs.length }, m.store s.arr (s.off + s.len) xs)
  else
    ({ arr := m.next, off := 0, len := s.len + xs.length, cap := s.len + xs.length + grow s xs.length },
     m.alloc (m.read s ++ xs ++ List.replicate (grow s xs.length) zero))

/-- css/units.go:24 — The slice made by the compiler for variadic arguments `f(x, y, z)`: a new array without spare
capacity. -/
def variadic {α : Type} (xs : List α) (m : Arrays α) : Slice × Arrays α :=
  if xs = [] then (.nil, m)
  else ({ arr := m.next, off := 0, len := xs.length, cap := xs.length }, m.alloc xs)

end Aitch

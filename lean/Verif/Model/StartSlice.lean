import Verif.Model.Slice
import Verif.Model.Render
/-
`Start` on the level of slices: attributes hold slices of values, and `append` writes into arrays that others may see.
The rest of the model has lists of values instead (`startCollect`); that they agree is C73.
-/
namespace Aitch

/-- The zero value of type `Value` (value.go:15-19). -/
def zeroValue : Value := .mk [] none []

/-- attribute.go:7-10, 58-60, 99-103 — an attribute node, its values being a slice. -/
inductive SliceAttr where
  | plain (name : Bytes) (values : Slice)
  | bool (name : Bytes)
  | delim (name delimiter : Bytes) (values : Slice)

/-- attribute.go:30-32, 74-76, 127-129 — `Name`. -/
def SliceAttr.name : SliceAttr → Bytes
  | .plain n _ => n
  | .bool n => n
  | .delim n _ _ => n

/-- value.go:67, imperative.go:105 — The Go built-in `make([]Value, 0, capacity)`. -/
def makeValues (capacity : Nat) (m : Arrays Value) : Slice × Arrays Value :=
  (⟨m.next, 0, 0, capacity⟩, m.alloc (List.replicate capacity zeroValue))

/-- value.go:66-74 — `newValues`; `parts` are the results of `newValue` for the contents (`none` for nil). -/
def newValuesS (grow : Slice → Nat → Nat) (parts : List (Option (List Value))) (m : Arrays Value) :
    Slice × Arrays Value :=
  let rec loop : List (Option (List Value)) → Slice → Arrays Value → Slice × Arrays Value
    | [], s, m => (s, m)
    | none :: ps, s, m => loop ps s m
    | some vs :: ps, s, m =>
      let (s, m) := append grow zeroValue s vs m
      loop ps s m
  let (s, m) := makeValues parts.length m
  loop parts s m

/-- imperative.go:89-94 (`first = false`) and 106-111 (`first = true`) — appending the values of a delimited attribute
to `avs`, from number `i` on; `todo` is how many are left.  `none` is a nil slice.  The elements are read when their
turn comes. -/
def delimLoop (grow : Slice → Nat → Nat) (first : Bool) (delimiter : Bytes) (values : Slice) :
    (i todo : Nat) → Option Slice → Arrays Value → Option Slice × Arrays Value
  | _, 0, avs, m => (avs, m)
  | i, todo + 1, avs, m =>
    let v := ((m.arrs values.arr)[values.off + i]?).getD zeroValue
    let s := avs.getD .nil
    let (s, m) := if 0 < (if first then i else s.len) then append grow zeroValue s [.mk delimiter none []] m else (s, m)
    let (s, m) := append grow zeroValue s [v] m
    delimLoop grow first delimiter values (i + 1) todo (some s) m

/-- imperative.go:85-119 — one round of the loop over `attrs` (attributes only).  As in `startAdd`, the slices
`attNames` and `attValues` with the map `attIndices` are one list of entries. -/
def startAddS (grow : Slice → Nat → Nat) (a : SliceAttr) :
    List (Bytes × Option Slice) → Arrays Value → List (Bytes × Option Slice) × Arrays Value
  | [], m =>
    match a with
    | .delim n d vs =>
      let (avs, m) := makeValues (vs.len * 2) m
      let (avs, m) := delimLoop grow true d vs 0 vs.len (some avs) m
      ([(n, avs)], m)
    | .plain n vs => ([(n, some vs)], m)
    | .bool n => ([(n, none)], m)
  | (n, avs) :: rest, m =>
    if n = a.name then
      match a with
      | .delim _ d vs =>
        let (avs, m) := delimLoop grow false d vs 0 vs.len avs m
        ((n, avs) :: rest, m)
      | .plain _ vs => ((n, some vs) :: rest, m)
      | .bool _ => ((n, none) :: rest, m)
    else
      let (rest, m) := startAddS grow a rest m
      ((n, avs) :: rest, m)

/-- imperative.go:84-120 — the loop over `attrs`. -/
def startCollectS (grow : Slice → Nat → Nat) :
    List SliceAttr → List (Bytes × Option Slice) → Arrays Value → List (Bytes × Option Slice) × Arrays Value
  | [], acc, m => (acc, m)
  | a :: rest, acc, m =>
    let (acc, m) := startAddS grow a acc m
    startCollectS grow rest acc m

end Aitch

import Verif.Spec.Built
import Verif.Spec.Build
import Verif.Spec.Finite
import Verif.Spec.Determined
/-
Memory: what stays the same, and functions that do not look at the delimited attributes.
-/
namespace Aitch.Spec

/-- The memory of a program is the same in both states: all nodes, all data maps, everything else, and the contexts up
to the field `Error` of the current one. -/
structure SameMemory (s s' : St) : Prop where
  attributes : s'.dl = s.dl ∧ s'.dlNext = s.dlNext
  maps : s'.maps = s.maps
  world : s'.world = s.world
  context : s'.frame.data = s.frame.data ∧ s'.frame.cargo = s.frame.cargo ∧ s'.parents = s.parents

/-- The context with other values of the delimited attributes. -/
def withDl (c : Ctx) (dl : Nat → List Value) : Ctx := { c with dl := dl }

/-- A user function whose result does not depend on the values of delimited attributes. -/
def Blind (P : Fns) : Action → Prop
  | .dyn f => ∀ c dl, P.dyn f (withDl c dl) = P.dyn f c
  | .cond f => ∀ c dl, P.cond f (withDl c dl) = P.cond f c
  | .items f => ∀ c dl, P.items f (withDl c dl) = P.items f c
  | .yields f => ∀ c dl, P.yields f (withDl c dl) = P.yields f c
  | _ => False

/-- Rendering `n` again and again, `k` times. -/
inductive RunsTimes (env : Env) (n : Node) : Nat → St → St → Prop
  | zero {s} : RunsTimes env n 0 s s
  | succ {k s s' s''} : Runs env n s none s' → RunsTimes env n k s' s'' → RunsTimes env n (k + 1) s s''

/-- Among the attributes `as`, the delimited one at address `r` is followed by another delimited one of its name. -/
def Absorbs (as : List Attr) (r : Nat) : Prop :=
  ∃ n d d' r' pre mid post, as = pre ++ .delim n d r :: mid ++ .delim n d' r' :: post

/-- The memory after building delimited attributes one after another: name, delimiter and values of each. -/
def buildAttrs : List (Bytes × Bytes × List Any) → Heap → Heap
  | [], h => h
  | (name, delimiter, values) :: rest, h => buildAttrs rest (NewDelimitedAttribute name delimiter values h).2

end Aitch.Spec

import Verif.Spec.Library
import Verif.Model.Htmx
import Verif.Spec.Format
/-
Calling an attribute function several times.
-/
namespace Aitch.Spec

/-- Calling an attribute function once for each list of arguments, one after the other. -/
def calls (f : AttrFn) : List (List Any) → Heap → List Node × Heap
  | [], h => ([], h)
  | args :: rest, h => ((f.call args h).1 :: (calls f rest (f.call args h).2).1, (calls f rest (f.call args h).2).2)

/-- What the arguments of these calls stand for, one after the other. -/
def callParts (P : Fns) (c : Ctx) (f : AttrFn) : List (List Any) → Heap → List Bytes
  | [], _ => []
  | args :: rest, h => (newValues h.dl args).map (valueBytes P c) ++ callParts P c f rest (f.call args h).2

/-- The arguments of `htmx.Vars` made by `htmx.Var`. -/
def varArgs (dl : Nat → List Value) (vars : List (Bytes × Any)) : List Any :=
  vars.map fun v => .value (Var dl v.1 v.2)

/-- How a variable is declared: its name, a colon, and its value. -/
def varText (P : Fns) (c : Ctx) (v : Bytes × Any) : Bytes := escaped v.1 ++ b%": " ++ argsBytes P c (fun _ => []) [v.2]

end Aitch.Spec

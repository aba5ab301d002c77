import Verif.Spec.OwnElement
import Verif.Spec.Build
/-
Elements with conditional attributes that have any `Render` methods.
-/
namespace Aitch.Spec.Own

mutual
/-- The attributes a node brings to the element it is given to, each with the conditions around it (outermost first; `cs` are those
around the node itself). -/
def declares (cs : List Cond) : Own.ONode → List (Own.OAttr × List Cond)
  | .attr a => [(a, cs)]
  | .collection ns => allDeclares cs ns
  | .conditional ns as fn => as.map (fun a => (a, cs ++ [fn])) ++ allDeclares (cs ++ [fn]) ns
  | _ => []
/-- Those of a list of nodes. -/
def allDeclares (cs : List Cond) : List Own.ONode → List (Own.OAttr × List Cond)
  | [] => []
  | n :: ns => declares cs n ++ allDeclares cs ns
end

/-- The attributes without conditions. -/
def broughtAlways (ns : List Own.ONode) : List Own.OAttr := ((allDeclares [] ns).filter fun p => p.2.isEmpty).map (·.1)

/-- The attributes with conditions. -/
def broughtWhen (ns : List Own.ONode) : List (Own.OAttr × List Cond) := (allDeclares [] ns).filter fun p => !p.2.isEmpty

mutual
/-- How many conditional nodes there are in a node, looking through collections only. -/
def conditionals : Own.ONode → Nat
  | .collection ns => allConditionals ns
  | .conditional _ _ _ => 1
  | _ => 0
/-- In a list of nodes. -/
def allConditionals : List Own.ONode → Nat
  | [] => 0
  | n :: ns => conditionals n + allConditionals ns
end

mutual
/-- Conditional nodes may stand in others, but where there are `k` around a place, and `k` is neither 0 nor a power of two, at
most one more is in that place (`Separate`: others share the memory for their conditions).  So up to three may be nested in
any way. -/
def Apart (k : Nat) : Own.ONode → Prop
  | .collection ns => AllApart k ns
  | .conditional ns _ _ => (Tight (k + 1) ∨ allConditionals ns ≤ 1) ∧ AllApart (k + 1) ns
  | _ => True
/-- In all of the nodes. -/
def AllApart (k : Nat) : List Own.ONode → Prop
  | [] => True
  | n :: ns => Apart k n ∧ AllApart k ns
end

mutual
/-- How many conditional nodes are in each other in a node, looking through collections only. -/
def levels : Own.ONode → Nat
  | .collection ns => allLevels ns
  | .conditional ns _ _ => allLevels ns + 1
  | _ => 0
/-- The most of a list of nodes. -/
def allLevels : List Own.ONode → Nat
  | [] => 0
  | n :: ns => max (levels n) (allLevels ns)
end

/-- Calling conditions, in order, until one does not hold; whether all do. -/
def allHold : List Cond → Prog Bool
  | [] => return true
  | c :: cs => do
    let b ← runCond c
    if b then allHold cs else return false

/-- Calling the conditions of each attribute, in order; the attributes whose conditions all hold. -/
def holding : List (Own.OAttr × List Cond) → Prog (List Own.OAttr)
  | [] => return []
  | p :: ps => do
    let b ← allHold p.2
    let held ← holding ps
    return if b then p.1 :: held else held

/-- The last attribute of this name. -/
def lastNamed (n : Bytes) (as : List Own.OAttr) : Option Own.OAttr := (as.filter fun a => a.name = n).getLast?

/-- The names of attributes. -/
def namesOf (as : List Own.OAttr) : List Bytes := as.map Own.OAttr.name

/-- The attributes of a tag with attributes `as` and conditional attributes `whens`.  If the conditions of none hold, `Render` of the last
declaration of each name, in the order of the first declarations.  Otherwise, for each name declared without condition, in
the order of a map, `Render` of the last of those whose conditions hold, or else of the last declared without condition; then
for each other name, in the order of a map, `Render` of the last of those whose conditions hold. -/
def attributesOf (as : List Own.OAttr) (whens : List (Own.OAttr × List Cond)) : Prog Unit := do
  let held ← holding whens
  match held with
  | [] => each (lastDeclared as)
  | _ :: _ => do
    let names ← Do.order (distinct (namesOf as))
    each (names.filterMap fun n => if n ∈ namesOf as then lastNamed n (as ++ held) else none)
    let names ← Do.order (distinct (namesOf held))
    each (names.filterMap fun n => if n ∈ namesOf as then none else lastNamed n held)

/-- Writing `<name`, the attributes and `>`. -/
def tagWhen (name : Bytes) (as : List Own.OAttr) (whens : List (Own.OAttr × List Cond)) : Prog Unit := do
  ctxWrite b%"<"
  ctxWrite name
  attributesOf as whens
  ctxWrite b%">"

end Aitch.Spec.Own

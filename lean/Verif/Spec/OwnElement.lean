import Verif.Spec.Own
/-
Elements with contents whose attributes have any `Render` methods.
-/
namespace Aitch.Spec.Own

mutual
/-- The attributes a node brings to the element it is given to: an attribute itself, a collection those of its nodes. -/
def brought : Own.ONode → List Own.OAttr
  | .attr a => [a]
  | .collection ns => allBrought ns
  | _ => []
/-- Those of a list of nodes. -/
def allBrought : List Own.ONode → List Own.OAttr
  | [] => []
  | n :: ns => brought n ++ allBrought ns
end

mutual
/-- Not a conditional node, nor a collection with one. -/
def Unconditional : Own.ONode → Prop
  | .conditional _ _ _ => False
  | .collection ns => AllUnconditional ns
  | _ => True
/-- None of the nodes is. -/
def AllUnconditional : List Own.ONode → Prop
  | [] => True
  | n :: ns => Unconditional n ∧ AllUnconditional ns
end

/-- The nodes that are not attributes. -/
def within : List Own.ONode → List Own.ONode
  | [] => []
  | .attr _ :: ns => within ns
  | n :: ns => n :: within ns

/-- Calling `Render` of each node, in order, and making what it returns `ctx.Error`. -/
inductive RunsEach (env : Env) : List Own.ONode → St → St → Prop
  | nil (s : St) : RunsEach env [] s s
  | cons {n : Own.ONode} {ns : List Own.ONode} {s s₁ s' : St} {e : Option Err} : Runs env n s e s₁ →
      RunsEach env ns { s₁ with frame := { s₁.frame with err := e } } s' → RunsEach env (n :: ns) s s'

/-- Writing `</name>`. -/
def endTagOf (name : Bytes) : Prog Unit := do
  ctxWrite b%"</"
  ctxWrite name
  ctxWrite b%">"

/-- The same, returning `ctx.Error`. -/
def endTag (name : Bytes) : Prog (Option Err) := do
  endTagOf name
  retErr

end Aitch.Spec.Own

import Verif.Model.Types
/-
Go values of types with a String method.
-/
namespace Aitch.Spec

/-- `x` is the value `v`, but for its String method if it has one. -/
inductive Bare : Any → Any → Prop where
  | same {v} : Bare v v
  | stringer {ty out v x} : Bare v x → Bare (.stringer ty out v) x

end Aitch.Spec

import Verif.Spec.Obs
/-
Lists related item by item.
-/
namespace Aitch.Spec

/-- `R` holds between the items of two lists of the same length. -/
inductive Each {α β : Type} (R : α → β → Prop) : List α → List β → Prop
  | nil : Each R [] []
  | cons {a b l m} : R a b → Each R l m → Each R (a :: l) (b :: m)

/-- What a list of nodes can write, one after the other. -/
def RendersAll (P : Fns) (c : Ctx) (ns : List Node) (w : Bytes) : Prop :=
  ∃ ws, Each (Renders P c) ns ws ∧ w = ws.flatten

end Aitch.Spec

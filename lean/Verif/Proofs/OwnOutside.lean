import Verif.Spec.OwnElement
/-
Attributes of the user's own where there is no tag.
-/
namespace Aitch.Own

open Aitch.Spec Aitch.Spec.Own

theorem iterSplit_within (ns : List ONode) : iterSplit (within ns) = iterSplit ns := by
  induction ns with
  | nil => rfl
  | cons n ns ih =>
    simp only [iterSplit] at ih
    cases n with
    | attr a => exact ih
    | _ => simp only [within, iterSplit, List.filter_cons, ih]

theorem condSplit_within (ns : List ONode) : (condSplit (within ns)).1 = (condSplit ns).1 := by
  induction ns with
  | nil => rfl
  | cons n ns ih => cases n <;> simp only [within, condSplit, ih]

theorem collectionLoop_within (rec : ONode → Prog (Option Err)) (ns : List ONode) :
    collectionLoop rec (within ns) = collectionLoop rec ns := by
  induction ns with
  | nil => rfl
  | cons n ns ih =>
    cases n with
    | attr a => simp only [within, collectionLoop, ONode.isAttr, if_true, ih]
    | _ => simp only [within, collectionLoop, ih]

end Aitch.Own

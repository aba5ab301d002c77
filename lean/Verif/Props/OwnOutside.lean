import Verif.Proofs.OwnOutside
import Verif.Props.OwnElement
/-
Attributes of the user's own where there is no tag.
-/
namespace Aitch.Props

open Aitch.Spec Aitch.Spec.Own

/-- C89. Where there is no tag to put them in, attributes with any `Render` methods whatever are left out and `Render` is not called:
a collection, a conditional node, and the iterations render as without the attributes they are given. -/
theorem C89_outside (ns : List Own.ONode) (fn : Cond) (src : ItemSrc) (f : FnId) (env : Env) (s : St) (e : Option Err) (s' : St) :
    (Own.Runs env (.collection ns) s e s' ↔ Own.Runs env (.collection (within ns)) s e s') ∧
    (Own.Runs env (Own.Conditional fn ns) s e s' ↔ Own.Runs env (Own.Conditional fn (within ns)) s e s') ∧
    (Own.Runs env (Own.Iterate src ns) s e s' ↔ Own.Runs env (Own.Iterate src (within ns)) s e s') ∧
    (Own.Runs env (Own.IterateYield f ns) s e s' ↔ Own.Runs env (Own.IterateYield f (within ns)) s e s') := by
  refine ⟨?_, ?_, ?_, ?_⟩
  · have h : ∀ fuel, Own.renderProg fuel (.collection (within ns)) = Own.renderProg fuel (.collection ns) := by
      intro fuel
      cases fuel with
      | zero => simp only [Own.renderProg]
      | succ fuel => simp only [Own.renderProg, Own.collectionLoop_within]
    simp only [Spec.Own.Runs, h]
  · have h : ∀ fuel, Own.renderProg fuel (Own.Conditional fn (within ns)) = Own.renderProg fuel (Own.Conditional fn ns) := by
      intro fuel
      cases fuel with
      | zero => simp only [Own.renderProg]
      | succ fuel => simp only [Own.Conditional, Own.renderProg, Own.condSplit_within]
    simp only [Spec.Own.Runs, h]
  · rw [Own.Iterate, Own.Iterate, Own.iterSplit_within]
  · rw [Own.IterateYield, Own.IterateYield, Own.iterSplit_within]

/-- Contents with two attributes and two other nodes. -/
example : (within quotedContents).length = 2 ∧ quotedContents.length = 4 := ⟨rfl, rfl⟩

/-- Outside of an element: the texts and elements in the collection, without the attributes in and beside it. -/
example : Own.Writes Sample.env (.collection quotedContents) Sample.st b%"a<b title='u'></b>" := by
  refine ⟨_, ⟨4, rfl⟩, ?_, ?_⟩ <;> rfl

end Aitch.Props

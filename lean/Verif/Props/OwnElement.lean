import Verif.Proofs.OwnElement
import Verif.Props.Own
/-
Elements with contents whose attributes have any `Render` methods.
-/
namespace Aitch.Props

open Aitch.Spec Aitch.Spec.Own

/-- C89. Attributes with any `Render` methods whatever, given to an element with contents, directly or in collections, and in any
order (those of the package not delimited; without conditional nodes).  The element renders as `<name`, then for every name, in the
order of the first declarations, exactly one call of the `Render` method of its last declaration, then `>`, then one call of the
`Render` method of every node that is not an attribute, in order, then `</name>`.  This is all it does, and it does so whenever
these end. -/
theorem C89_any_element (name : Bytes) (cs : List Own.ONode) (hc : AllUnconditional cs)
    (hd : ∀ n d r, Own.OAttr.std (.delim n d r) ∉ allBrought cs) (h : Heap) (env : Env) (s : St) (e : Option Err) (s' : St) :
    Own.Runs env (Own.NewElement name cs h).1 s e s' ↔
      ∃ s₁ s₂, exec env (tagOf name (lastDeclared (allBrought cs))) s = some ((), s₁) ∧ RunsEach env (within cs) s₁ s₂ ∧
        exec env (endTag name) s₂ = some (e, s') := by
  constructor
  · rintro ⟨fuel, hf⟩
    cases fuel with
    | zero => simp [Own.renderProg, exec] at hf
    | succ fuel =>
      rw [(Own.element_any name cs hc hd h fuel).1, exec_bind] at hf
      obtain ⟨⟨⟨⟩, s₁⟩, h₁, hf⟩ := Option.bind_eq_some_iff.mp hf
      rw [exec_bind] at hf
      obtain ⟨⟨⟨⟩, s₂⟩, h₂, hf⟩ := Option.bind_eq_some_iff.mp hf
      exact ⟨s₁, s₂, h₁, Own.runsEach_of_loop _ h₂, hf⟩
  · rintro ⟨s₁, s₂, h₁, h₂, h₃⟩
    obtain ⟨fuel, h₂⟩ := Own.loop_of_runsEach h₂
    refine ⟨fuel + 1, ?_⟩
    rw [(Own.element_any name cs hc hd h fuel).1, exec_bind, h₁]
    simp only [Option.bind_some]
    rw [exec_bind, h₂]
    exact h₃

/-- C89. A void element given such nodes: its start tag only, with one call for every name. -/
theorem C89_any_void (name : Bytes) (cs : List Own.ONode) (hc : AllUnconditional cs)
    (hd : ∀ n d r, Own.OAttr.std (.delim n d r) ∉ allBrought cs) (h : Heap) (env : Env) (s : St) (e : Option Err) (s' : St) :
    Own.Runs env (Own.NewVoidElement name cs h).1 s e s' ↔
      exec env (tag name (lastDeclared (allBrought cs))) s = some (e, s') := by
  constructor
  · rintro ⟨fuel, hf⟩
    cases fuel with
    | zero => simp [Own.renderProg, exec] at hf
    | succ fuel => rwa [(Own.element_any name cs hc hd h fuel).2] at hf
  · intro hf
    exact ⟨1, by rwa [(Own.element_any name cs hc hd h 0).2]⟩

/-- The contents of `NewElement("p", id, "a", Collection(id2, hidden, NewElement("b", title)), title)`. -/
def quotedContents : List Own.ONode :=
  [.attr (quoted b%"id" b%"x"), .other (.text [.mk b%"a" none []]),
    .collection [.attr (quoted b%"id" b%"y"), .attr (.std (.bool b%"hidden")),
      (Own.NewElement b%"b" [.attr (quoted b%"title" b%"u")] .empty).1],
    .attr (quoted b%"title" b%"t")]

example : AllUnconditional quotedContents := by
  simp [quotedContents, AllUnconditional, Unconditional, Own.NewElement]

example (n d : Bytes) (r : Nat) : Own.OAttr.std (.delim n d r) ∉ allBrought quotedContents := by
  simp [quotedContents, allBrought, brought, quoted, Own.NewElement]

example : lastDeclared (allBrought quotedContents) =
    [quoted b%"id" b%"y", .std (.bool b%"hidden"), quoted b%"title" b%"t"] := rfl

example : Own.Writes Sample.env (Own.NewElement b%"p" quotedContents .empty).1 Sample.st
    b%"<p id='y' hidden title='t'>a<b title='u'></b></p>" := by
  refine ⟨_, ⟨4, rfl⟩, ?_, ?_⟩ <;> rfl

end Aitch.Props

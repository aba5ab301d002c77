import Verif.Proofs.OwnWhen
import Verif.Props.OwnElement
/-
Elements with conditional attributes that have any `Render` methods.
-/
namespace Aitch.Props

open Aitch.Spec Aitch.Spec.Own

/-- C89. Attributes with any `Render` methods whatever, some of them in conditional nodes (those of the package not delimited;
conditional nodes may be in others, see `Apart`).  The element renders as its tag, in which the conditions are called for every conditional
attribute and then `Render` is called at most once for every name, of the last conditional attribute that is in
effect, or else the last one without condition (`attributesOf`), then one call of the `Render` method of every node that is not
an attribute, in order, then `</name>`.  This is all it does, and it does so whenever these end. -/
theorem C89_any_when (name : Bytes) (cs : List Own.ONode) (hc : AllApart 0 cs)
    (hd : ∀ n d r, Own.OAttr.std (.delim n d r) ∉ broughtAlways cs)
    (hw : ∀ n d r, Own.OAttr.std (.delim n d r) ∉ (broughtWhen cs).map (·.1))
    (h : Heap) (env : Env) (s : St) (e : Option Err) (s' : St) :
    Own.Runs env (Own.NewElement name cs h).1 s e s' ↔
      ∃ s₁ s₂, exec env (tagWhen name (broughtAlways cs) (broughtWhen cs)) s = some ((), s₁) ∧
        RunsEach env (within cs) s₁ s₂ ∧ exec env (endTag name) s₂ = some (e, s') := by
  constructor
  · rintro ⟨fuel, hf⟩
    cases fuel with
    | zero => simp [Own.renderProg, exec] at hf
    | succ fuel =>
      rw [(Own.element_when name cs hc hd hw h fuel).1, exec_bind] at hf
      obtain ⟨⟨⟨⟩, s₁⟩, h₁, hf⟩ := Option.bind_eq_some_iff.mp hf
      rw [exec_bind] at hf
      obtain ⟨⟨⟨⟩, s₂⟩, h₂, hf⟩ := Option.bind_eq_some_iff.mp hf
      exact ⟨s₁, s₂, h₁, Own.runsEach_of_loop _ h₂, hf⟩
  · rintro ⟨s₁, s₂, h₁, h₂, h₃⟩
    obtain ⟨fuel, h₂⟩ := Own.loop_of_runsEach h₂
    refine ⟨fuel + 1, ?_⟩
    rw [(Own.element_when name cs hc hd hw h fuel).1, exec_bind, h₁]
    simp only [Option.bind_some]
    rw [exec_bind, h₂]
    exact h₃

/-- C89. A void element given such nodes: its start tag only. -/
theorem C89_any_when_void (name : Bytes) (cs : List Own.ONode) (hc : AllApart 0 cs)
    (hd : ∀ n d r, Own.OAttr.std (.delim n d r) ∉ broughtAlways cs)
    (hw : ∀ n d r, Own.OAttr.std (.delim n d r) ∉ (broughtWhen cs).map (·.1))
    (h : Heap) (env : Env) (s : St) (e : Option Err) (s' : St) :
    Own.Runs env (Own.NewVoidElement name cs h).1 s e s' ↔
      exec env (do tagWhen name (broughtAlways cs) (broughtWhen cs); retErr) s = some (e, s') := by
  constructor
  · rintro ⟨fuel, hf⟩
    cases fuel with
    | zero => simp [Own.renderProg, exec] at hf
    | succ fuel => rwa [(Own.element_when name cs hc hd hw h fuel).2] at hf
  · intro hf
    exact ⟨1, by rwa [(Own.element_when name cs hc hd hw h 0).2]⟩

/-- C89. The condition `Apart` is met wherever no more than three conditional nodes are in each other. -/
theorem C89_three (cs : List Own.ONode) (h : allLevels cs ≤ 3) : AllApart 0 cs :=
  Own.apart_of_eraseAll 0 cs (separateAll_of_depth _ 0 (by rw [Own.levels_eraseAll]; omega))

/-- The contents of
`NewElement("p", id, "a", When("name", id2, title, When("n", title2), When("!name", title3)), Collection(When("name", rel)))`. -/
def whenContents : List Own.ONode :=
  [.attr (quoted b%"id" b%"x"), .other (.text [.mk b%"a" none []]),
    Own.Conditional (.has b%"name") [.attr (quoted b%"id" b%"y"), .attr (quoted b%"title" b%"t"),
      Own.Conditional (.has b%"n") [.attr (quoted b%"title" b%"u")],
      Own.Conditional (.hasNot b%"name") [.attr (quoted b%"title" b%"v")]],
    .collection [Own.Conditional (.has b%"name") [.attr (quoted b%"rel" b%"r")]]]

example : allLevels whenContents = 2 := rfl

example : AllApart 0 whenContents := by
  have h1 : Tight 1 := Or.inr ⟨0, rfl⟩
  have h2 : Tight 2 := Or.inr ⟨1, rfl⟩
  simp [whenContents, AllApart, Apart, allConditionals, Own.Conditional, Own.condSplit, h1, h2]

example (n d : Bytes) (r : Nat) : Own.OAttr.std (.delim n d r) ∉ broughtAlways whenContents := by
  simp [whenContents, broughtAlways, allDeclares, declares, quoted, Own.Conditional, Own.condSplit]

example (n d : Bytes) (r : Nat) : Own.OAttr.std (.delim n d r) ∉ (broughtWhen whenContents).map (·.1) := by
  simp [whenContents, broughtWhen, allDeclares, declares, quoted, Own.Conditional, Own.condSplit]

example : Own.Writes Sample.env (Own.NewElement b%"p" whenContents .empty).1 Sample.st
    b%"<p id='y' title='u' rel='r'>a</p>" := by
  refine ⟨_, ⟨4, rfl⟩, ?_, ?_⟩ <;> rfl

/-- The contents of `NewElement("p", When("name", When("name", When("name", When("name", title), When("off", rel)))))`. -/
def sharedContents : List Own.ONode :=
  [Own.Conditional (.has b%"name") [Own.Conditional (.has b%"name") [Own.Conditional (.has b%"name")
    [Own.Conditional (.has b%"name") [.attr (quoted b%"title" b%"t")],
      Own.Conditional (.has b%"off") [.attr (quoted b%"rel" b%"r")]]]]]

/-- C89. The condition `Apart` in `C89_any_when` is needed: with two conditional nodes on the fourth level, the title is not
rendered although all the conditions around it hold, since it gets the condition of its neighbour. -/
theorem C89_apart_needed : ¬ AllApart 0 sharedContents ∧
    Own.Writes Sample.env (Own.NewElement b%"p" sharedContents .empty).1 Sample.st b%"<p></p>" ∧
    ∃ s', exec Sample.env (tagWhen b%"p" (broughtAlways sharedContents) (broughtWhen sharedContents)) Sample.st = some ((), s') ∧
      s'.out = Sample.st.out ++ b%"<p title='t'>" := by
  refine ⟨?_, ⟨_, ⟨6, rfl⟩, rfl, rfl⟩, ⟨_, rfl, rfl⟩⟩
  intro h
  simp only [sharedContents, Own.Conditional, Own.condSplit, AllApart, Apart, allConditionals, conditionals] at h
  have h3 : ¬ Tight 3 := by
    rintro (h | ⟨j, hj⟩)
    · cases h
    · match j, hj with
      | 0, hj => simp at hj
      | 1, hj => simp at hj
      | j + 2, hj => rw [Nat.pow_succ, Nat.pow_succ] at hj; omega
  rcases h.1.2.1.2.1.1 with h | h
  · exact h3 h
  · simp at h

end Aitch.Props

import Verif.Proofs.OwnDropped
import Verif.Props.OwnWhen
/-
A conditional attribute of the user's own with the name of a delimited attribute.
-/
namespace Aitch.Props

open Aitch.Spec Aitch.Spec.Own

/-- C89. What becomes of a conditional attribute of the user's own in an element that has delimited attributes of its name, and no
others without condition: its `Render` method does not matter at all, so it is never called, whether the condition holds or
not.  This is the loss that `C89_false` shows an instance of, in any element with any other contents. -/
theorem C89_dropped (name n : Bytes) (pre post : List Own.ONode) (fn : Cond) (p p' : Prog Unit)
    (hn : n ∈ namesOf (broughtAlways (pre ++ post)))
    (hd : ∀ a ∈ broughtAlways (pre ++ post), a.name = n → ∃ d r, a = .std (.delim n d r))
    (h : Heap) (env : Env) (s : St) (e : Option Err) (s' : St) :
    (Own.Runs env (Own.NewElement name (pre ++ Own.Conditional fn [.attr (.own n p)] :: post) h).1 s e s' ↔
      Own.Runs env (Own.NewElement name (pre ++ Own.Conditional fn [.attr (.own n p')] :: post) h).1 s e s') ∧
    (Own.Runs env (Own.NewVoidElement name (pre ++ Own.Conditional fn [.attr (.own n p)] :: post) h).1 s e s' ↔
      Own.Runs env (Own.NewVoidElement name (pre ++ Own.Conditional fn [.attr (.own n p')] :: post) h).1 s e s') := by
  have H := Own.element_dropped name n pre post fn p p' hn hd h
  constructor
  · simp only [Spec.Own.Runs, fun fuel => (H fuel).1]
  · simp only [Spec.Own.Runs, fun fuel => (H fuel).2]

/-- An element with a delimited class, and texts. -/
def classPre : List Own.ONode := [.attr (.std (.delim b%"class" b%" " 0)), .other (.text [.mk b%"a" none []])]

example : b%"class" ∈ namesOf (broughtAlways (classPre ++ [])) := by
  simp [classPre, broughtAlways, allDeclares, declares, namesOf, Own.OAttr.name, Attr.name]

example (a : Own.OAttr) (ha : a ∈ broughtAlways (classPre ++ [])) (_ : a.name = b%"class") :
    ∃ d r, a = .std (.delim b%"class" d r) := by
  simp [classPre, broughtAlways, allDeclares, declares] at ha
  exact ⟨_, _, ha⟩

/-- The condition holds, and the attribute is lost all the same. -/
example : Own.Writes Sample.env
    (Own.NewElement b%"p" (classPre ++ [Own.Conditional (.has b%"name") [.attr (quoted b%"class" b%"b")]]) classHeap).1
    classState b%"<p class=\"a\">a</p>" := by
  refine ⟨_, ⟨4, rfl⟩, ?_, ?_⟩ <;> rfl

end Aitch.Props

import Verif.Proofs.Own
import Verif.Proofs.Leaf
import Verif.Spec.Sample
/-
Attribute types of the user's own.
-/
namespace Aitch.Props

open Aitch.Spec Aitch.Spec.Own

/-- C89. Wrapping attributes in a type of one's own that passes everything on makes no difference to what a template renders.
The code does not keep this, see `C89_false`; for what it keeps see `C89_partial`. -/
def C89_claim : Prop :=
  ∀ (c : Src) (h : Heap) (env : Env) (s : St) (e : Option Err) (s' : St),
    Own.Runs env (asWritten c h).1 s e s' ↔ Runs env (unwrapped c h).1 s e s'

/-- `NewVoidElement("br", class, When("name", wrapped))` with a delimited attribute `class` and a wrapped plain one. -/
def wrappedClass : Src :=
  .voidElement b%"br" [.attr (.delim b%"class" b%" " 0) false,
    .conditional (.has b%"name") [.attr (.plain b%"class" [.mk b%"b" none []]) true]]

/-- The memory with the values of the delimited attribute. -/
def classHeap : Heap := ⟨fun _ => [.mk b%"a" none []], 1⟩

/-- The state at the start of rendering. -/
def classState : St := { Sample.st with dl := classHeap.dl, dlNext := 1 }

/-- What was built left the memory as it was: the state is one that rendering starts in. -/
example : (asWritten wrappedClass classHeap).2 = classHeap ∧ (unwrapped wrappedClass classHeap).2 = classHeap :=
  ⟨rfl, rfl⟩

/-- Wrapped, the value of the conditional attribute is lost. -/
theorem wrappedClass_written :
    Own.Writes Sample.env (asWritten wrappedClass classHeap).1 classState b%"<br class=\"a\">" := by
  refine ⟨_, ⟨2, rfl⟩, ?_, ?_⟩ <;> rfl

theorem wrappedClass_unwrapped :
    Writes Sample.env (unwrapped wrappedClass classHeap).1 classState b%"<br class=\"a b\">" := by
  refine ⟨_, ⟨2, rfl⟩, ?_, ?_⟩ <;> rfl

/-- C89. The claim is false: with a conditional wrapped attribute in effect that has the name of a delimited attribute, the tag
is without its value. -/
theorem C89_false : ¬ C89_claim := by
  intro h
  obtain ⟨s', hr, ho, hm⟩ := wrappedClass_written
  have := writes_unique ⟨s', (h wrappedClass classHeap _ _ _ _).mp hr, ho, hm⟩ wrappedClass_unwrapped
  exact absurd this (by decide)

/-- C89. In a template in which every wrapped attribute gets on with the other attributes of its name in its element — it is a
boolean attribute, or a plain one and the others are not delimited; or there are no others — wrapping makes no difference: with
any writer and any user functions, rendering does the same and returns the same. -/
theorem C89_partial (c : Src) (h : Heap) (hc : Clear c) :
    (asWritten c h).2 = (unwrapped c h).2 ∧
      ∀ (env : Env) (s : St) (e : Option Err) (s' : St),
        Own.Runs env (asWritten c h).1 s e s' ↔ Runs env (unwrapped c h).1 s e s' := by
  obtain ⟨he, ds, hr, _⟩ := Own.build c h hc
  refine ⟨he, fun env s e s' => ?_⟩
  constructor
  · rintro ⟨fuel, hf⟩
    exact ⟨fuel, by rw [render, ← Own.render_eq fuel _ _ _ hr]; exact hf⟩
  · rintro ⟨fuel, hf⟩
    exact ⟨fuel, by rw [Own.render_eq fuel _ _ _ hr]; exact hf⟩

/-- `<div>` with a wrapped `id` declared twice, a wrapped boolean attribute with the name of a delimited one, a wrapped
delimited attribute without others of its name, and a paragraph with a wrapped conditional attribute. -/
def wrappedPage : Src :=
  .element b%"div" [.attr (.plain b%"id" [.mk b%"x" none []]) true, .attr (.delim b%"class" b%" " 0) false,
    .attr (.plain b%"id" [.mk b%"y" none []]) false, .attr (.delim b%"style" b%";" 0) true,
    .collection [.conditional (.has b%"off") [.attr (.bool b%"class") true]],
    .element b%"p" [.conditional (.has b%"name") [.attr (.plain b%"title" [.mk b%"t" none []]) true,
      .other (.text [.mk b%"hello" none []]) trivial]]]

theorem wrappedPage_clear : Clear wrappedPage := by
  simp [wrappedPage, Clear, AllClear, allDeclared, Own.declared, Compatible, Fits, Attr.name]

example : Own.Writes Sample.env (asWritten wrappedPage classHeap).1 classState
    b%"<div id=\"y\" class=\"a\" style=\"a\"><p title=\"t\">hello</p></div>" := by
  refine ⟨_, ⟨6, rfl⟩, ?_, ?_⟩ <;> rfl

example : Writes Sample.env (unwrapped wrappedPage classHeap).1 classState
    b%"<div id=\"y\" class=\"a\" style=\"a\"><p title=\"t\">hello</p></div>" := by
  refine ⟨_, ⟨6, rfl⟩, ?_, ?_⟩ <;> rfl

/-- C89. Attributes with any `Render` methods whatever: a void element with these attributes (those of the package not
delimited) renders as `<name`, then for every name, in the order of the first declarations, exactly one call of the `Render`
method of its last declaration, then `>`. -/
theorem C89_any (name : Bytes) (as : List Own.OAttr) (hd : ∀ n d r, Own.OAttr.std (.delim n d r) ∉ as) (h : Heap) (env : Env)
    (s : St) (e : Option Err) (s' : St) :
    Own.Runs env (Own.NewVoidElement name (as.map .attr) h).1 s e s' ↔
      exec env (tag name (lastDeclared as)) s = some (e, s') := by
  constructor
  · rintro ⟨fuel, hf⟩
    cases fuel with
    | zero => simp [Own.renderProg, exec] at hf
    | succ fuel => rwa [(Own.voidElement_any name as hd h fuel).1] at hf
  · intro hf
    exact ⟨1, by rwa [(Own.voidElement_any name as hd h 0).1]⟩

/-- An attribute type whose `Render` writes its value in single quotes. -/
def quoted (name value : Bytes) : Own.OAttr :=
  .own name do
    ctxWrite (b%" " ++ name ++ b%"='" ++ value ++ b%"'")

example : lastDeclared [quoted b%"id" b%"x", .std (.bool b%"hidden"), quoted b%"id" b%"y"] =
    [quoted b%"id" b%"y", .std (.bool b%"hidden")] := rfl

example : Own.Writes Sample.env
    (Own.NewVoidElement b%"br" ([quoted b%"id" b%"x", .std (.bool b%"hidden"), quoted b%"id" b%"y"].map .attr) .empty).1
    Sample.st b%"<br id='y' hidden>" := by
  refine ⟨_, ⟨1, rfl⟩, ?_, ?_⟩ <;> rfl

/-- C89. `Start` writes the name only of an attribute of the user's own, and does not call its `Render` method: it does the same
as with the boolean attribute of the same name in its place. -/
theorem C89_start (name : Bytes) (attrs : List (Option Own.ONode)) (env : Env) (s : St) :
    exec env (Own.startTag name attrs) s = exec env (startTag name (attrs.map startArg)) s := by
  have : Own.startTag name attrs = startTag name (attrs.map startArg) := by
    simp only [Own.startTag, startTag, Own.startCollect_eq]
  rw [this]

example : (exec Sample.env (Own.startTag b%"p" [some (.attr (quoted b%"id" b%"x")), none,
    some (.attr (.std (.plain b%"title" [.mk b%"t" none []])))]) Sample.st).map (·.2.out) = some b%"<p id title=\"t\">" := rfl

end Aitch.Props

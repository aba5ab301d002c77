import Verif.Spec.Swap
import Verif.Proofs.Swap
import Verif.Props.Attributes
/-
C60 Replacing a part of a template by one with the same output does not change the output of the template.
-/
namespace Aitch
open Spec

namespace Props

/-- C60 as stated: a part that is no attribute and brings no attributes can be replaced by any other such part with the same
output, in any number of places of any template. -/
def C60_claim : Prop :=
  ∀ n₁ n₂ m₁ m₂, Built n₁ → Built n₂ → n₁.isAttr = false → n₂.isAttr = false → declared [] n₁ = [] → declared [] n₂ = [] →
    SameOutput n₁ n₂ → Swap False n₁ n₂ m₁ m₂ → SameOutput m₁ m₂

/-- It holds when neither part is a conditional (or a collection holding one).  What is missing: conditionals, whose
conditions can overwrite those of attributes around them (see `C60_false` and C17). -/
theorem C60_partial {n₁ n₂ m₁ m₂ : Node} (b₁ : Built n₁) (b₂ : Built n₂) (i₁ : Inert n₁) (i₂ : Inert n₂)
    (hs : SameOutput n₁ n₂) (h : Swap False n₁ n₂ m₁ m₂) : SameOutput m₁ m₂ :=
  swap_sameOutput b₁ b₂ i₁.1 i₂.1 (splits_inert i₁ i₂) (splits_inert i₂ i₁) hs h

/-- It holds for conditionals too, and for parts that bring attributes (the same ones, under the same conditions), when in
the templates around them no two conditionals share a slot. -/
theorem C60_apart_partial {n₁ n₂ m₁ m₂ : Node} (b₁ : Built n₁) (b₂ : Built n₂) (i₁ : n₁.isAttr = false)
    (i₂ : n₂.isAttr = false) (hd : declared [] n₁ = declared [] n₂)
    (hs : SameOutput n₁ n₂) (h : Swap True n₁ n₂ m₁ m₂) : SameOutput m₁ m₂ :=
  swap_sameOutput b₁ b₂ i₁ i₂ (splits_apart i₁ i₂ hd) (splits_apart i₂ i₁ hd.symm) hs h

/-- A conditional without any contents, and an empty text: both write nothing. -/
def idleCond : Node := mkCond 1 []
def idleText : Node := Text (fun _ => []) []

theorem built_idleCond : Built idleCond := built_mkCond (fun _ hn => nomatch hn)
theorem built_idleText : Built idleText := .text _ _

theorem sameOutput_idle : SameOutput idleCond idleText := by
  intro P c w F he
  rw [built_idleCond.renders_iff F he, built_idleText.renders_iff F he]
  constructor
  · intro h
    have : w = [] := by
      cases h with
      | conditionalOn _ ho => cases ho; rfl
      | conditionalOff _ => rfl
    subst this
    exact .text
  · intro h
    have : w = [] := by
      cases h; rfl
    subst this
    cases hh : holds P c (.user 1) with
    | true => exact .conditionalOn hh .nil
    | false => exact .conditionalOff hh

/-- An attribute under four conditions, and a part next to the innermost. -/
def swapContents (n : Node) : List Any :=
  [.node (mkCond 0 [mkCond 0 [mkCond 0 [mkCond 0 [NewBooleanAttribute b%"x"], n]]])]

theorem swap_mkCond {apart : Prop} {n₁ n₂ : Node} {f : FnId} {as bs : List Node}
    (h : SwapNodes apart n₁ n₂ (as.map some) (bs.map some)) : Swap apart n₁ n₂ (mkCond f as) (mkCond f bs) := by
  refine .conditional (fn := some f) h ?_ ?_ <;>
  · simp only [Conditional, mkConditional, condSplit_some]; rfl

theorem built_mkCondX : Built (mkCond 0 [NewBooleanAttribute b%"x"]) :=
  built_mkCond fun n hn => by
    simp only [List.mem_cons, List.not_mem_nil, or_false] at hn
    subst hn; exact .newBooleanAttribute _

theorem swap_swapContents (n₁ n₂ : Node) :
    Swap False n₁ n₂ (NewVoidElement b%"p" (swapContents n₁) .empty).1 (NewVoidElement b%"p" (swapContents n₂) .empty).1 :=
  .newVoidElement _ _ (.node (swap_mkCond (.some (swap_mkCond (.some (swap_mkCond
    (.some (.same built_mkCondX) (.some .here .nil))) .nil)) .nil)) .nil) False.elim

/-- It is false of conditionals: one that writes nothing, next to another conditional three levels deep, still changes the
conditions of that one's attributes. -/
theorem C60_false : ¬ C60_claim := by
  intro hc
  have h := hc _ _ _ _ built_idleCond built_idleText rfl rfl rfl rfl sameOutput_idle (swap_swapContents _ _)
  have hr : Renders Sample.fns Sample.ctx (NewVoidElement b%"p" (swapContents idleCond) .empty).1 b%"<p>" :=
    ⟨Sample.env, Sample.healthy, Sample.computes, Sample.st, _, rfl, ⟨1, rfl⟩, rfl⟩
  have h2 := (h Sample.fns Sample.ctx _ Sample.built rfl).1 hr
  have hb := swap_built built_idleText (swap_swapContents idleText idleText)
  rw [hb.renders_iff Sample.built rfl] at h2
  generalize hw : b%"<p>" = w at h2
  cases h2 with
  | @voidElement _ _ l ht =>
    obtain ⟨l₁, l₂, -, h3, rfl⟩ := ht
    have h4 := h3.length_eq
    rw [show (shownExtras Sample.fns Sample.ctx _ _).length = 1 from rfl] at h4
    obtain ⟨q, rfl⟩ := List.length_eq_one_iff.1 h4
    have := congrArg List.length hw
    obtain ⟨m, v⟩ := q
    rw [show ElemHead.name _ = b%"p" from rfl] at this
    cases v <;> simp [tagBytes, Shown.bytes] at this <;> omega

/-- Texts and fragments of the same strings, and collections of texts, are interchangeable. -/
theorem sameOutput_text_collection (vs ws : List Value) :
    SameOutput (.text (vs ++ ws)) (.collection [.text vs, .text ws]) := by
  intro P c w F he
  have wf : WF (.collection [.text vs, .text ws]) := ⟨trivial, trivial, trivial⟩
  rw [renders_iff_out F.wf (by trivial) he, renders_iff_out F.wf wf he]
  constructor
  · intro h
    cases h
    rw [valuesBytes_append, ← List.append_nil (valuesBytes P c ws)]
    exact .collection (.cons .text (.cons .text .nil))
  · intro h
    cases h with
    | collection h =>
      cases h with
      | cons h1 h2 =>
        cases h1
        cases h2 with
        | cons h3 h4 =>
          cases h3; cases h4
          rw [List.append_nil, ← valuesBytes_append]
          exact .text

example : Inert (.text []) ∧ Inert (.collection [.text [], .text []]) := ⟨⟨rfl, rfl, rfl⟩, rfl, rfl, rfl⟩

/-- Replaced in two places of an element. -/
example (n₁ n₂ : Node) : Swap False n₁ n₂
    (NewElement b%"p" [.str b%"a", .node n₁, .node (Collection [some n₁, none])] .empty).1
    (NewElement b%"p" [.str b%"a", .node n₂, .node (Collection [some n₂, none])] .empty).1 :=
  .newElement _ _ (.same (fun _ h => nomatch h) (.node .here (.node (.collection (.some .here (.none .nil))) .nil))) False.elim

end Props
end Aitch

import Verif.Spec.GenComplete
import Verif.Props.Generator
/-
C94: GenerateCode knows the functions of the packages.
-/
namespace Aitch.Props

open Spec

/-- The full claim: for an element (attribute) that the package has a function for, in any case, `GenerateCode` writes a
call of that function. -/
def C94_claim : Prop := ∀ p, IsPkg p →
  (∀ f ∈ elementsOf p, ∀ name, toLower name = toLower f.tag → ∀ args,
    elemExpr p name args = .call (p.pre ++ usual f.name) args) ∧
  (∀ f ∈ attributesOf p, ∀ name, toLower name = toLower f.attr → ∀ v,
    attrExpr p (name, v) = .call (p.pre ++ f.name) (if f.kind = .bool then [] else [.lit v]))

/-- **C94** (part: `Known`).  For the elements that are `Known` it does. -/
theorem C94_element_partial {p : GenPkg} (hp : IsPkg p) {f : ElemFn} (hf : f ∈ elementsOf p)
    (hk : Known unknownElements f.tag) {name : Bytes} (hn : toLower name = toLower f.tag) (args : List Expr) :
    elemExpr p name args = .call (p.pre ++ usual f.name) args := by
  have h : ∀ f ∈ elementsOf p, Known unknownElements f.tag → p.elems.lookup (toLower f.tag) = some (usual f.name) := by
    rcases hp with rfl | rfl <;> decide +kernel
  unfold elemExpr
  rw [hn, h f hf hk]

/-- For the others it writes a call of `aitch.Element` with the name: the list cannot be shorter. -/
theorem C94_element_unknown {p : GenPkg} (hp : IsPkg p) {f : ElemFn} (hf : f ∈ elementsOf p)
    (hk : ¬ Known unknownElements f.tag) {name : Bytes} (hn : toLower name = toLower f.tag) (args : List Expr) :
    elemExpr p name args = .call b%"aitch.Element" (.lit name :: args) := by
  have h : ∀ f ∈ elementsOf p, ¬ Known unknownElements f.tag → p.elems.lookup (toLower f.tag) = none := by
    rcases hp with rfl | rfl <;> decide +kernel
  unfold elemExpr
  rw [hn, h f hf hk]

/-- **C94** (part: `Known`).  For the attributes that are `Known` it writes a call of their function: without a value
exactly if the function takes none. -/
theorem C94_attribute_partial {p : GenPkg} (hp : IsPkg p) {f : AttrFn} (hf : f ∈ attributesOf p)
    (hk : Known unknownAttributes f.attr) {name : Bytes} (hn : toLower name = toLower f.attr) (v : Bytes) :
    attrExpr p (name, v) = .call (p.pre ++ f.name) (if f.kind = .bool then [] else [.lit v]) := by
  have h : ∀ f ∈ attributesOf p, Known unknownAttributes f.attr → p.attrs.lookup (toLower f.attr) = some f.name ∧
      p.bools.contains (toLower f.attr) = decide (f.kind = .bool) := by
    rcases hp with rfl | rfl <;> decide +kernel
  unfold attrExpr
  simp only [hn, h f hf hk, decide_eq_true_eq]

/-- For the others it writes a call of `aitch.Attribute` with name and value. -/
theorem C94_attribute_unknown {p : GenPkg} (hp : IsPkg p) {f : AttrFn} (hf : f ∈ attributesOf p)
    (hk : ¬ Known unknownAttributes f.attr) {name : Bytes} (hn : toLower name = toLower f.attr) (v : Bytes) :
    attrExpr p (name, v) = .call b%"aitch.Attribute" [.lit name, .lit v] := by
  have h : ∀ f ∈ attributesOf p, ¬ Known unknownAttributes f.attr → p.attrs.lookup (toLower f.attr) = none := by
    rcases hp with rfl | rfl <;> decide +kernel
  unfold attrExpr
  simp only [hn, h f hf hk]

/-- Nothing else is taken for a function of the package: a name for which there is no function is passed on. -/
theorem C94_others {p : GenPkg} (hp : IsPkg p) {name : Bytes} :
    ((∀ f ∈ elementsOf p, f.tag ≠ toLower name) → ∀ args,
      elemExpr p name args = .call b%"aitch.Element" (.lit name :: args)) ∧
    ((∀ f ∈ attributesOf p, f.attr ≠ toLower name) → toLower name ≠ b%"aria-" → toLower name ≠ b%"data-" → ∀ v,
      attrExpr p (name, v) = .call b%"aitch.Attribute" [.lit name, .lit v]) := by
  have h1 : ∀ r ∈ p.elems, ∃ f ∈ elementsOf p, f.tag = r.1 := by rcases hp with rfl | rfl <;> decide +kernel
  have h2 : ∀ r ∈ p.attrs, r.1 ≠ b%"aria-" → r.1 ≠ b%"data-" → ∃ f ∈ attributesOf p, f.attr = r.1 := by
    rcases hp with rfl | rfl <;> decide +kernel
  constructor
  · intro h args
    unfold elemExpr
    cases hl : p.elems.lookup (toLower name) with
    | none => rfl
    | some f' =>
      obtain ⟨f, hf, e⟩ := h1 _ (mem_of_lookup hl)
      exact absurd e (h f hf)
  · intro h ha hd v
    unfold attrExpr
    cases hl : p.attrs.lookup (toLower name) with
    | none => rfl
    | some f' =>
      obtain ⟨f, hf, e⟩ := h2 _ (mem_of_lookup hl) ha hd
      exact absurd e (h f hf)

/-- There is no function call for `<ruby>`, although there is `html.Ruby`. -/
theorem C94_false : ¬ C94_claim := by
  intro h
  have hr : (⟨b%"Ruby", b%"ruby", false⟩ : ElemFn) ∈ elementsOf htmlPkg := by decide +kernel
  have h1 := (h htmlPkg (.inl rfl)).1 _ hr b%"ruby" rfl []
  rw [C94_element_unknown (.inl rfl) hr (by decide) rfl] at h1
  simp at h1

/-- Calls for `<ARTICLE>` and for `fill`. -/
example (args : List Expr) : elemExpr htmlPkg b%"ARTICLE" args = .call b%"html.Article" args :=
  C94_element_partial (p := htmlPkg) (.inl rfl) (f := ⟨b%"Article", b%"article", false⟩) (by decide +kernel) (by decide)
    (by decide) args

example (v : Bytes) : attrExpr svgPkg (b%"fill", v) = .call b%"svg.Fill" [.lit v] :=
  C94_attribute_partial (p := svgPkg) (.inr rfl) (f := ⟨b%"Fill", b%"fill", .plain⟩) (by decide +kernel) (by decide) rfl v

/-- The functions that are used are most of them. -/
example : ((elementsOf htmlPkg).filter fun f => Known unknownElements f.tag).length = 105 ∧
    ((attributesOf htmlPkg).filter fun f => Known unknownAttributes f.attr).length = 170 := by decide +kernel

end Aitch.Props

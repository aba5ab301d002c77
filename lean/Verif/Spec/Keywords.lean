import Verif.Spec.Library
/-
The keywords of some css properties, from the CSS standards, and the words of some htmx attributes, from the htmx
reference.
-/
namespace Aitch.Spec

/-- A css property, the prefix of the constants for it, and its keywords. -/
structure Keywords where
  pre : Bytes
  property : Bytes
  words : List Bytes

/-- Keywords of CSS Display 3, Positioned Layout 3, Text 3, Backgrounds and Borders 3, Fonts 4, Box Alignment 3,
Overflow 3. -/
def cssKeywords : List Keywords := [
  ⟨b%"Display", b%"display", [b%"block", b%"inline", b%"inline-block", b%"flex", b%"inline-flex", b%"grid",
    b%"inline-grid", b%"table", b%"inline-table", b%"flow-root", b%"list-item", b%"contents", b%"none"]⟩,
  ⟨b%"Position", b%"position", [b%"static", b%"relative", b%"absolute", b%"sticky", b%"fixed"]⟩,
  ⟨b%"Text", b%"text-align", [b%"start", b%"end", b%"left", b%"right", b%"center", b%"justify", b%"match-parent",
    b%"justify-all"]⟩,
  ⟨b%"Border", b%"border-style", [b%"none", b%"hidden", b%"dotted", b%"dashed", b%"solid", b%"double", b%"groove",
    b%"ridge", b%"inset", b%"outset"]⟩,
  ⟨b%"FontWeight", b%"font-weight", [b%"normal", b%"bold", b%"bolder", b%"lighter"]⟩,
  ⟨b%"Justify", b%"justify-content", [b%"normal", b%"space-between", b%"space-around", b%"space-evenly", b%"stretch",
    b%"center", b%"start", b%"end", b%"flex-start", b%"flex-end", b%"left", b%"right"]⟩,
  ⟨b%"Align", b%"align-items", [b%"normal", b%"stretch", b%"baseline", b%"center", b%"start", b%"end", b%"self-start",
    b%"self-end", b%"flex-start", b%"flex-end"]⟩,
  ⟨b%"Overflow", b%"overflow", [b%"visible", b%"hidden", b%"clip", b%"scroll", b%"auto"]⟩,
  ⟨b%"Visibility", b%"visibility", [b%"visible", b%"hidden", b%"collapse"]⟩,
  ⟨b%"TextTransform", b%"text-transform", [b%"none", b%"capitalize", b%"uppercase", b%"lowercase", b%"full-width",
    b%"full-size-kana"]⟩,
  ⟨b%"WhiteSpace", b%"white-space", [b%"normal", b%"pre", b%"nowrap", b%"pre-wrap", b%"break-spaces", b%"pre-line"]⟩]

/-- The constants for css that have another word in their names than in their values. -/
def cssAbbreviations : List (Bytes × Bytes) := [
  (b%"FontWeightLight", b%"lighter"), (b%"JustifyStart", b%"flex-start"), (b%"JustifyEnd", b%"flex-end"),
  (b%"JustifyBetween", b%"space-between"), (b%"JustifyAround", b%"space-around")]

/-- The styles of `hx-swap`. -/
def htmxSwapWords : List Bytes := [b%"innerHTML", b%"outerHTML", b%"textContent", b%"beforebegin", b%"afterbegin",
  b%"beforeend", b%"afterend", b%"delete", b%"none"]

/-- The strategies of `hx-sync`. -/
def htmxSyncWords : List Bytes := [b%"drop", b%"abort", b%"replace", b%"queue", b%"queue first", b%"queue last",
  b%"queue all"]

/-- A name written with spaces between its words instead of capitals. -/
def spaced (s : Bytes) : Bytes := (kebab s).map fun c => if c = c%'-' then c%' ' else c

end Aitch.Spec

import Verif.Spec.Generator
/-
The functions of the packages that `GenerateCode` does not know.  Used by C94.
-/
namespace Aitch.Spec

/-- The element functions of a package. -/
def elementsOf (p : GenPkg) : List ElemFn := if p.pre = b%"html." then htmlElements else svgElements

/-- The attribute functions of a package. -/
def attributesOf (p : GenPkg) : List AttrFn := if p.pre = b%"html." then htmlAttributes else svgAttributes

/-- Elements with a function that `GenerateCode` does not use; besides, all those with capital letters. -/
def unknownElements : List Bytes :=
  [b%"bdi", b%"bdo", b%"map", b%"output", b%"rp", b%"rt", b%"ruby", b%"search", b%"track", b%"switch", b%"view"]

/-- Attributes with a function that `GenerateCode` does not use; besides, all those with capital letters. -/
def unknownAttributes : List Bytes :=
  [b%"onpointerdown", b%"onpointerup", b%"onpointermove", b%"onpointerenter", b%"onpointerleave", b%"onpointerover",
   b%"onpointerout", b%"onpointercancel", b%"ontouchstart", b%"ontouchmove", b%"ontouchend", b%"ontouchcancel",
   b%"onanimationstart", b%"onanimationend", b%"onanimationiteration", b%"ontransitionend", b%"onbeforeinput",
   b%"onslotchange", b%"onformdata", b%"accesskey", b%"autocapitalize", b%"autocorrect", b%"enterkeyhint",
   b%"exportparts", b%"inputmode", b%"is", b%"itemid", b%"itemprop", b%"itemref", b%"itemtype", b%"nonce", b%"part",
   b%"writingsuggestions"]

/-- `GenerateCode` uses the function of the element `tag`. -/
def Known (unknown : List Bytes) (tag : Bytes) : Prop := tag ∉ unknown ∧ ∀ c ∈ tag, ¬ (65 ≤ c ∧ c ≤ 90)

instance (u t) : Decidable (Known u t) := by unfold Known; infer_instance

/-- Of two functions for one element (`html.P` and `html.Para`) the one that is used. -/
def usual (f : Bytes) : Bytes := if f = b%"Para" then b%"P" else f

end Aitch.Spec

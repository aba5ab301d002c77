import Verif.Spec.Library
import Verif.Model.HtmlTables
import Verif.Model.SvgTables
import Verif.Model.HtmxTables
import Verif.Props.Elements
import Verif.Props.Attributes
/-
C53: the attribute functions of the packages html, svg and htmx.
-/
namespace Aitch.Props
open Spec

/-- A boolean attribute function makes an attribute that is written as its name; a plain one writes its arguments; a
delimited one joins them. -/
theorem C53_renders {P : Fns} (F : BuiltFns P) (c : Ctx) (he : c.frame.err = none) (f : AttrFn) (values : List Any)
    (h : Heap) (hcur : c.dl h.next = (f.call values h).2.dl h.next) :
    RendersExactly P c (f.call values h).1 (match f.kind with
      | .bool => b%" " ++ f.attr
      | .plain => b%" " ++ f.attr ++ b%"=\"" ++ argsBytes P c h.dl values ++ b%"\""
      | .delim d => b%" " ++ f.attr ++ b%"=\"" ++ delimJoin d ((newValues h.dl values).map (valueBytes P c)) ++ b%"\"") := by
  obtain ⟨fn, name, kind⟩ := f
  cases kind with
  | bool =>
    refine rendersExactly_of_out (n := NewBooleanAttribute name) F.wf trivial he ?_ fun w h => ?_
    · exact Out.attr
    · cases h; rfl
  | plain =>
    refine rendersExactly_of_out (n := NewAttribute h.dl name values) F.wf trivial he ?_ fun w h => ?_
    · exact Out.attr
    · cases h; rfl
  | delim d =>
    have := C13_delimiter F c he name d values h hcur
    simp only [← delimJoin_eq] at this
    exact this

example : Renders Sample.fns Sample.ctx ((⟨b%"Href", b%"href", .plain⟩ : AttrFn).call [.str b%"a&b", .dynKey b%"n"] .empty).1
    b%" href=\"a&amp;b-12\"" :=
  (C53_renders Sample.built Sample.ctx rfl ⟨b%"Href", b%"href", .plain⟩ [.str b%"a&b", .dynKey b%"n"] .empty rfl _).2
    (by decide +kernel)

/-- html: the letters of the attribute's name are those of the function's; a few functions end in `Attr` to avoid a
clash with an element function. -/
theorem C53_html (f : AttrFn) (hf : f ∈ htmlAttributes) :
    lower f.name = plainLetters f.attr ∨ lower f.name = plainLetters f.attr ++ b%"attr" := by
  have : ∀ f ∈ htmlAttributes, lower f.name = plainLetters f.attr ∨ lower f.name = plainLetters f.attr ++ b%"attr" := by
    decide +kernel
  exact this f hf

example := C53_html ⟨b%"CiteAttr", b%"cite", .plain⟩ (by decide +kernel)

/-- The same for svg. -/
theorem C53_svg (f : AttrFn) (hf : f ∈ svgAttributes) :
    lower f.name = plainLetters f.attr ∨ lower f.name = plainLetters f.attr ++ b%"attr" := by
  have : ∀ f ∈ svgAttributes, lower f.name = plainLetters f.attr ∨ lower f.name = plainLetters f.attr ++ b%"attr" := by
    decide +kernel
  exact this f hf

example := C53_svg ⟨b%"ClipPathAttr", b%"clip-path", .plain⟩ (by decide +kernel)

/-- htmx: the same after the prefix `hx-`. -/
theorem C53_htmx (f : AttrFn) (hf : f ∈ htmxAttributes) : ∃ rest, f.attr = b%"hx-" ++ rest ∧ lower f.name = plainLetters rest := by
  have : ∀ f ∈ htmxAttributes, f.attr = b%"hx-" ++ f.attr.drop 3 ∧ lower f.name = plainLetters (f.attr.drop 3) := by
    decide +kernel
  exact ⟨_, this f hf⟩

example := C53_htmx ⟨b%"SwapOob", b%"hx-swap-oob", .plain⟩ (by decide +kernel)

/-- Different functions of a package make attributes with different names. -/
theorem C53_distinct : (htmlAttributes.map (·.attr)).Nodup ∧ (svgAttributes.map (·.attr)).Nodup ∧
    (htmxAttributes.map (·.attr)).Nodup := by
  refine ⟨?_, ?_, ?_⟩ <;> decide +kernel

/-- Every attribute function and the generic constructor for its kind with the same name return the same node: all
the names are valid. -/
theorem C53_same (f : AttrFn) (hf : f ∈ htmlAttributes ++ svgAttributes ++ htmxAttributes) (strict : Bool)
    (values : List Any) (h : Heap) :
    match f.kind with
    | .plain => Attribute strict h.dl f.attr values = .val (some (f.call values h).1)
    | .bool => BooleanAttribute strict f.attr = .val (some (f.call values h).1)
    | .delim d => DelimitedAttribute strict f.attr d values h = .val (some (f.call values h).1, (f.call values h).2) := by
  have hm : htmlTagMatch f.attr = true := by
    have : ∀ f ∈ htmlAttributes ++ svgAttributes ++ htmxAttributes, htmlTagMatch f.attr = true := by decide +kernel
    exact this f hf
  have hv := (htmlTagMatch_iff _).1 hm
  obtain ⟨fn, name, kind⟩ := f
  cases kind with
  | bool => exact (C09_booleanAttribute strict name).1 hv
  | plain => exact (C09_attribute strict h.dl name values).1 hv
  | delim d => exact (C09_delimitedAttribute strict name d values h).1 hv

example := C53_same ⟨b%"Class", b%"class", .delim b%" "⟩ (by decide +kernel) true [.str b%"a"] .empty

/-- The delimiter of a delimited attribute function. -/
def delimiterOf (f : AttrFn) : Option (Bytes × Bytes) :=
  match f.kind with
  | .delim d => some (f.attr, d)
  | _ => none

/-- The attributes whose repeated declarations are joined: classes, styles and five htmx lists, each with its
delimiter.  (`class` is not among them in package svg.) -/
theorem C53_delimited : htmlAttributes.filterMap delimiterOf = [(b%"class", b%" "), (b%"style", b%"; ")] ∧
    svgAttributes.filterMap delimiterOf = [(b%"style", b%"; ")] ∧
    htmxAttributes.filterMap delimiterOf = [(b%"hx-trigger", b%" "), (b%"hx-params", b%" "), (b%"hx-vars", b%", "),
      (b%"hx-inherit", b%" "), (b%"hx-disinherit", b%" ")] := by
  refine ⟨?_, ?_, ?_⟩ <;> decide +kernel

example : (⟨b%"CiteAttr", b%"cite", .plain⟩ : AttrFn) ∈ htmlAttributes ∧
    (⟨b%"ClipPathAttr", b%"clip-path", .plain⟩ : AttrFn) ∈ svgAttributes := by decide +kernel

/-! ### C74 — the functions of html for boolean attributes (false for three others) -/

/-- The full claim: the functions of html that take no value are those of the boolean attributes of HTML. -/
def C74_claim : Prop := ∀ f ∈ htmlAttributes, f.kind = .bool ↔ f.attr ∈ htmlBooleanNames

/-- It is false: `html.Spellcheck` and `html.Translate` take no value, although the attributes stand for "on" when they
have none and are of use only with the values `false` and `no`; so does `html.Hidden`, which can have the value
`until-found`. -/
theorem C74_false : ¬ C74_claim := by
  intro h
  have := (h ⟨b%"Spellcheck", b%"spellcheck", .bool⟩ (by decide +kernel)).1 rfl
  revert this
  decide +kernel

/-- What holds: the functions of all boolean attributes take no value.  Missing: `spellcheck`, `translate` and `hidden`
(and no others) take none either. -/
theorem C74_boolean_partial (f : AttrFn) (hf : f ∈ htmlAttributes) :
    f.kind = .bool ↔ f.attr ∈ htmlBooleanNames ++ [b%"hidden", b%"spellcheck", b%"translate"] := by
  have : ∀ f ∈ htmlAttributes,
      f.kind = .bool ↔ f.attr ∈ htmlBooleanNames ++ [b%"hidden", b%"spellcheck", b%"translate"] := by decide +kernel
  exact this f hf

example := C74_boolean_partial ⟨b%"Disabled", b%"disabled", .bool⟩ (by decide +kernel)

example := C74_boolean_partial ⟨b%"Href", b%"href", .plain⟩ (by decide +kernel)

/-- No function of svg or htmx makes an attribute without a value. -/
theorem C74_others (f : AttrFn) (hf : f ∈ svgAttributes ++ htmxAttributes) : f.kind ≠ .bool := by
  have : ∀ f ∈ svgAttributes ++ htmxAttributes, f.kind ≠ .bool := by decide +kernel
  exact this f hf

example := C74_others ⟨b%"ClipPathAttr", b%"clip-path", .plain⟩ (by decide +kernel)

/-- So nothing makes `html.Spellcheck` write `spellcheck="false"`. -/
theorem C74_spellcheck {P : Fns} (F : BuiltFns P) (c : Ctx) (he : c.frame.err = none) (f : AttrFn)
    (hf : f ∈ htmlAttributes) (hn : f.attr = b%"spellcheck") (values : List Any) (h : Heap)
    (hcur : c.dl h.next = (f.call values h).2.dl h.next) :
    RendersExactly P c (f.call values h).1 b%" spellcheck" := by
  have hk := (C74_boolean_partial f hf).2 (by rw [hn]; decide +kernel)
  have := C53_renders F c he f values h hcur
  rw [hk, hn] at this
  exact this

example := C74_spellcheck Sample.built Sample.ctx rfl ⟨b%"Spellcheck", b%"spellcheck", .bool⟩ (by decide +kernel) rfl
  [.str b%"false"] .empty rfl

example : (htmlAttributes.filter fun f => f.kind = .bool).length = 27 ∧
    (⟨b%"Disabled", b%"disabled", .bool⟩ : AttrFn) ∈ htmlAttributes ∧
    (⟨b%"Href", b%"href", .plain⟩ : AttrFn) ∈ htmlAttributes := by decide +kernel

end Aitch.Props

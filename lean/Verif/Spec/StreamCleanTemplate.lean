import Verif.Spec.StreamClean
import Verif.Spec.StreamTemplate
/-
`html/template` templates that keep to the rules of C110: their text is read with a stack of open elements.
-/
namespace Aitch.Spec.Stream
open Aitch.Stream Markup

/-- Where in a page the text of a template has come to: among elements, with `opened` still to be ended, the last one first;
in an element like `title` in which there is only text; in a quoted value of an attribute, `names` being the attributes of the
tag so far. -/
inductive Reading where
  | content (opened : List Bytes)
  | inText (opened : List Bytes) (name : Bytes)
  | inValue (opened : List Bytes) (name : Bytes) (names : List Bytes)

section
variable (Q : Rules)

/-- A tag with this name and these attributes is allowed: allowed names, no attribute twice. -/
structure NeatTag (name : Bytes) (names : List Bytes) : Prop where
  element : name ∈ Q.elements
  attributes : ∀ a ∈ names, a ∈ Q.attributes
  distinct : names.Nodup

/-- The text leads from one place to the other.  (Tags are written as aitch writes them.) -/
inductive Leads : Reading → Bytes → Reading → Prop
  | nil {r} : Leads r [] r
  | trees {st w v r} : Q.Fits .content w → Leads (.content st) v r → Leads (.content st) (w ++ v) r
  | start {st name} {attrs : List (Bytes × Option Bytes)} {v r} : NeatTag Q name (attrs.map (·.1)) → lower name ∉ textNames →
      Leads (.content (name :: st)) v r → Leads (.content st) (writeTag name attrs ++ v) r
  | close {st name v r} : Leads (.content st) v r → Leads (.content (name :: st)) (endBytes name ++ v) r
  | startText {st name} {attrs : List (Bytes × Option Bytes)} {v r} : NeatTag Q name (attrs.map (·.1)) → lower name ∈ textNames →
      Leads (.inText st name) v r → Leads (.content st) (writeTag name attrs ++ v) r
  | text {st name s v r} : Leads (.inText st name) v r → Leads (.inText st name) (escaped s ++ v) r
  | closeText {st name v r} : Leads (.content st) v r → Leads (.inText st name) (endBytes name ++ v) r
  | openValue {st name} {attrs : List (Bytes × Option Bytes)} {a v r} : Leads (.inValue st name (attrs.map (·.1) ++ [a])) v r →
      Leads (.content st) (b%"<" ++ name ++ attrs.flatMap writeAttr ++ b%" " ++ a ++ b%"=\"" ++ v) r
  | value {st name names s v r} : Leads (.inValue st name names) v r → Leads (.inValue st name names) (escaped s ++ v) r
  | nextValue {st name names} {attrs : List (Bytes × Option Bytes)} {a v r} : Leads (.inValue st name (names ++ attrs.map (·.1) ++ [a])) v r →
      Leads (.inValue st name names) (b%"\"" ++ attrs.flatMap writeAttr ++ b%" " ++ a ++ b%"=\"" ++ v) r
  | endTag {st name names} {attrs : List (Bytes × Option Bytes)} {v r} : NeatTag Q name (names ++ attrs.map (·.1)) → lower name ∉ textNames →
      Leads (.content (name :: st)) v r →
      Leads (.inValue st name names) (b%"\"" ++ attrs.flatMap writeAttr ++ b%">" ++ v) r
  | endVoid {st name names} {attrs : List (Bytes × Option Bytes)} {v r} : NeatTag Q name (names ++ attrs.map (·.1)) → lower name ∉ textNames →
      Leads (.content st) v r → Leads (.inValue st name names) (b%"\"" ++ attrs.flatMap writeAttr ++ b%">" ++ v) r
  | endTextTag {st name names} {attrs : List (Bytes × Option Bytes)} {v r} : NeatTag Q name (names ++ attrs.map (·.1)) → lower name ∈ textNames →
      Leads (.inText st name) v r → Leads (.inValue st name names) (b%"\"" ++ attrs.flatMap writeAttr ++ b%">" ++ v) r

/-- The template: its text ends all elements that it begins, and every node may stand where its action stands. -/
inductive NeatParts : Reading → List Part → Prop
  | nil : NeatParts (.content []) []
  | text {r w r' ps} : Leads Q r w r' → NeatParts r' ps → NeatParts r (.text w :: ps)
  | node {st n ps} : Neat Q .content n → n.isAttr = false → NeatParts (.content st) ps →
      NeatParts (.content st) (.call n .text :: ps)
  | inText {st name n ps} : Neat Q .text n → n.isAttr = false → NeatParts (.inText st name) ps →
      NeatParts (.inText st name) (.call n .text :: ps)
  | inValue {st name names n ps} : Neat Q .text n → n.isAttr = false → NeatParts (.inValue st name names) ps →
      NeatParts (.inValue st name names) (.call n .quoted :: ps)

end

end Aitch.Spec.Stream

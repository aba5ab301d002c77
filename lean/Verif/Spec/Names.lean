import Verif.Model.Basic
/-
Names of elements and attributes.
-/
namespace Aitch.Spec

/-- The ASCII letters. -/
def letters : Bytes := b%"abcdefghijklmnopqrstuvwxyzABCDEFGHIJKLMNOPQRSTUVWXYZ"

/-- The characters allowed after the first. -/
def nameChars : Bytes := letters ++ b%"0123456789._-:"

/-- A letter followed by letters, digits and `. _ - :`. -/
def ValidName (name : Bytes) : Prop := ∃ c cs, name = c :: cs ∧ c ∈ letters ∧ ∀ d ∈ cs, d ∈ nameChars

/-- The void elements of HTML. -/
def htmlVoidNames : List Bytes :=
  [b%"area", b%"base", b%"br", b%"col", b%"embed", b%"hr", b%"img", b%"input", b%"link", b%"meta", b%"param",
   b%"source", b%"track", b%"wbr"]

/-- The boolean attributes of HTML (the index of attributes of the HTML standard). -/
def htmlBooleanNames : List Bytes :=
  [b%"allowfullscreen", b%"async", b%"autofocus", b%"autoplay", b%"checked", b%"controls", b%"default", b%"defer",
   b%"disabled", b%"formnovalidate", b%"inert", b%"ismap", b%"itemscope", b%"loop", b%"multiple", b%"muted",
   b%"nomodule", b%"novalidate", b%"open", b%"playsinline", b%"readonly", b%"required", b%"reversed", b%"selected",
   b%"shadowrootclonable", b%"shadowrootdelegatesfocus", b%"shadowrootserializable"]

end Aitch.Spec

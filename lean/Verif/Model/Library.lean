import Verif.Model.Construct
import Verif.Model.Slice
/-
Model of the packages html, svg, htmx and css: functions that call a constructor with a fixed name.
The names are in the tables (HtmlTables, SvgTables, HtmxTables, CssTables).
-/
namespace Aitch

/-- An element function, e.g. html/elements.go:10-12 — `func A(contents ...any) aitch.Node { return
aitch.NewElement(tagA, contents...) }`. -/
structure ElemFn where
  /-- the name of the Go function -/
  name : Bytes
  tag : Bytes
  isVoid : Bool
deriving DecidableEq

/-- html/elements.go:10-12 and all functions like it — Calling an element function. -/
def ElemFn.call (f : ElemFn) (contents : List Any) (h : Heap) : Node × Heap :=
  if f.isVoid then NewVoidElement f.tag contents h else NewElement f.tag contents h

/-- html/attributes.go:10-12, 173-175 and all functions like them — The constructor that an attribute function calls. -/
inductive AttrKind where
  | plain
  | bool
  | delim (delimiter : Bytes)
deriving DecidableEq

/-- An attribute function, e.g. html/attributes.go:10-12 — `func Async() aitch.Node { return
aitch.NewBooleanAttribute(attrAsync) }`. -/
structure AttrFn where
  /-- the name of the Go function -/
  name : Bytes
  attr : Bytes
  kind : AttrKind
deriving DecidableEq

/-- html/attributes.go:10-12, 173-175 and all functions like them — Calling an attribute function (one of boolean kind
takes no arguments). -/
def AttrFn.call (f : AttrFn) (values : List Any) (h : Heap) : Node × Heap :=
  match f.kind with
  | .plain => (NewAttribute h.dl f.attr values, h)
  | .bool => (NewBooleanAttribute f.attr, h)
  | .delim d => NewDelimitedAttribute f.attr d values h

/-- html/attributes.go:189-191 `Aria`, html/attributes.go:278-280 `Data`, htmx/attributes.go:116-118 `On` — the name
that is passed to `NewAttribute`: `append(prefix, name...)`, where `prefix` is a package variable. -/
def prefixedName (grow : Slice → Nat → Nat) (pre : Slice) (name : Bytes) (m : Arrays UInt8) : Slice × Arrays UInt8 :=
  append grow 0 pre name m

/-- css/units.go:24-26 and the same for every other unit — `aitch.NewConcatValue(append(value, unit)...)`.  `value` is
the slice of arguments, in memory `m`; `dl` as for `NewConcatValue`. -/
def unitFn (grow : Slice → Nat → Nat) (dl : Nat → List Value) (unit : Bytes) (value : Slice) (m : Arrays Any) :
    Value × Arrays Any :=
  let (s, m) := append grow .nil value [.bytes unit] m
  (NewConcatValue dl (m.read s), m)

/-- css/properties.go:670-672 — `styleAttribute`: `aitch.NewDelimitedAttribute(attrStyle, stylesDelim,
aitch.NewConcatValue(append([]any{name}, value...)...))`.  (The appended-to slice is a new one, so this is just a
longer list.) -/
def styleAttribute (name : Bytes) (value : List Any) (h : Heap) : Node × Heap :=
  NewDelimitedAttribute b%"style" b%"; " [.value (NewConcatValue h.dl (.bytes name :: value))] h

end Aitch

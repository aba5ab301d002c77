import Verif.Spec.Build
import Verif.Spec.Built
/-
The attributes that a tag shows, told from the declarations in the contents of its element.
-/
namespace Aitch.Spec

/-- The values that delimited attributes have, `dl` being the memory. -/
def valuesOf (dl : Nat → List Value) (as : List Attr) : List Value := as.flatMap (Attr.values dl)

/-- What a name shows, when `ds` are its unconditional declarations and `es` the conditional ones in effect, both in
order.  `dl` is the memory before the element was built, `c` the context of the rendering.

* `ds` ends with delimited declarations: all their values, then the values of `es`, joined with the delimiter of the
  first of them.
* `ds` ends otherwise: the last of `es`, or the last of `ds` if `es` is empty.
* `ds` is empty and `es` starts with a delimited declaration: the values of all `es`, joined with its delimiter.
* `ds` is empty and `es` starts otherwise: the last of `es`. -/
def nameShows (P : Fns) (c : Ctx) (dl : Nat → List Value) (ds es : List Attr) : Option Shown :=
  match ds, delimSuffix ds with
  | _ :: _, .delim n d _ :: _ =>
    some (n, some (delimJoin d ((valuesOf dl (delimSuffix ds) ++ valuesOf c.dl es).map (valueBytes P c))))
  | _ :: _, _ => (es.getLast?.or ds.getLast?).map (shown P c)
  | [], _ =>
    match es with
    | .delim n d _ :: _ => some (n, some (delimJoin d ((valuesOf c.dl es).map (valueBytes P c))))
    | _ => es.getLast?.map (shown P c)

/-- What the tag of an element may show, `statics` being the unconditional attributes and `act` the conditional ones
in effect: every name once.  The unconditional names come first; names are in order of first declaration if no
conditional attribute is in effect, else in any order. -/
def TagSpec (P : Fns) (c : Ctx) (dl : Nat → List Value) (statics act : List Attr) (l : List Shown) : Prop :=
  let names := distinct (statics.map Attr.name)
  let extra := distinct ((act.map Attr.name).filter fun n => n ∉ statics.map Attr.name)
  let shows := List.filterMap fun n => nameShows P c dl (named n statics) (named n act)
  if act = [] then l = shows names
  else ∃ l₁ l₂, l₁.Perm (shows names) ∧ l₂.Perm (shows extra) ∧ l = l₁ ++ l₂

/-- The attributes in an element's contents that are in effect conditionally: those under conditions that all hold. -/
def inEffect (P : Fns) (c : Ctx) (ns : List Node) : List Attr :=
  ((declaredAll [] ns).filter fun p => !p.2.isEmpty && p.2.all (holds P c)).map (·.1)

/-- In memory `dl`, the delimited attributes of an element have the values that they had after its construction. -/
def Current (dl : Nat → List Value) (statics : List Attr) (h : Heap) : Prop :=
  ∀ r ∈ statics.filterMap refOf, dl r = h.dl r

end Aitch.Spec

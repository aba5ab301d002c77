import Verif.Spec.Tag
import Verif.Spec.Each
/-
What the start tag written by `Start` shows, told from the attributes it is given.
-/
namespace Aitch.Spec

/-- The attributes among the arguments of `Start`; the others are ignored. -/
def startAttrs (attrs : List (Option Node)) : List Attr := attrsIn (attrs.filterMap id)

/-- The delimiter of a delimited attribute. -/
def delimiterOf : Attr → Bytes
  | .delim _ d _ => d
  | _ => []

/-- Parts one after the other, each with the delimiter before it; the first one without, unless something has been
`written` already. -/
def joinParts (written : Bool) : List (Bytes × Bytes) → Bytes
  | [] => []
  | (d, w) :: ps => (if written then d else []) ++ w ++ joinParts true ps

/-- The values of delimited attributes, each with the delimiter of its attribute. -/
def partsOf (P : Fns) (c : Ctx) (ds : List Attr) : List (Bytes × Bytes) :=
  ds.flatMap fun a => (a.values c.dl).map fun v => (delimiterOf a, valueBytes P c v)

/-- What `Start` shows as the value of a name whose declarations are `ds`: the value of the last plain or boolean one,
if there is one, then the values of the delimited ones after it, each with its delimiter before it (except at the
very beginning).  A boolean attribute has no value unless delimited values follow. -/
def startValue (P : Fns) (c : Ctx) (ds : List Attr) : Option Bytes :=
  let parts := partsOf P c (delimSuffix ds)
  match (ds.filter fun a => !isDelim a).getLast? with
  | some (.plain _ vs) => some (valuesBytes P c vs ++ joinParts (!vs.isEmpty) parts)
  | some (.bool _) => if parts = [] then none else some (joinParts false parts)
  | _ => some (joinParts false parts)

/-- What `Start` shows: every name once, in order of first declaration. -/
def startShows (P : Fns) (c : Ctx) (as : List Attr) : List Shown :=
  (distinct (as.map Attr.name)).map fun n => (n, startValue P c (named n as))

/-- Attribute `a`, in memory `dl`, says the same as attribute `b` in memory `dl'`: same kind, name, delimiter and
values (two attribute nodes made by the same call). -/
inductive Alike (dl dl' : Nat → List Value) : Attr → Attr → Prop
  | plain (n vs) : Alike dl dl' (.plain n vs) (.plain n vs)
  | bool (n) : Alike dl dl' (.bool n) (.bool n)
  | delim (n d r r') : dl r = dl' r' → Alike dl dl' (.delim n d r) (.delim n d r')

/-- The declarations of one name on which `Start` and elements agree: the last one is plain or boolean; or all are
delimited, with the same delimiter, and every value but the last one writes something. -/
def Plainly (P : Fns) (c : Ctx) (ds : List Attr) : Prop :=
  (∃ a, ds.getLast? = some a ∧ isDelim a = false) ∨
  ∃ d, (∀ a ∈ ds, isDelim a = true ∧ delimiterOf a = d) ∧
    ∀ v ∈ (valuesOf c.dl ds).dropLast, valueBytes P c v ≠ []

end Aitch.Spec

import Verif.Model.Construct
/-
Model of context/context.go: `Get` and `MustGet`.
-/
namespace Aitch

/-- The fields (all unexported) of the struct a node points to (element.go:61-66, 120-126; attribute.go:7-10, 58-60,
99-103; text.go:14-16; comment.go:7-9; fragment.go:17-19; pi.go:7-10; collection.go:7-9, 43-45; conditional.go:10-14;
imperative.go:34-36; iterate.go:69-72, 138-141; html/document.go:8-11). -/
def Node.fields : Node → List Bytes
  | .element _ _ => [b%"name", b%"attributes", b%"attIndices", b%"conditionals", b%"contents"]
  | .voidElement _ => [b%"name", b%"attributes", b%"attIndices", b%"conditionals"]
  | .attr (.plain _ _) => [b%"name", b%"values"]
  | .attr (.bool _) => [b%"name"]
  | .attr (.delim _ _ _) => [b%"name", b%"delimiter", b%"values"]
  | .text _ => [b%"values"]
  | .comment _ => [b%"values"]
  | .fragment _ => [b%"values"]
  | .pi _ _ => [b%"name", b%"values"]
  | .collection _ => [b%"nodes"]
  | .conditional _ _ _ => [b%"nodes", b%"attributes", b%"fn"]
  | .collector _ => [b%"collector"]
  | .imperative _ => [b%"fn"]
  | .iterator _ _ => [b%"nodes", b%"fn"]
  | .yieldIterator _ _ => [b%"fn", b%"nodes"]
  | .document _ _ => [b%"prologue", b%"contents"]

/-- context/context.go:50,64,72 — The result of a type assertion `v.(T)` as a found value; `isT` tells which values
have type `T`. -/
def typed (isT : Any → Bool) (v : Any) : Option Any := if isT v then some v else none

/-- context/context.go:60-77 — the `switch` on the kind of the reflected Cargo `v`, after a pointer has been
followed.  `MapIndex` panics when the key type is not `string`, `FieldByIndex` when it meets a nil pointer, `Interface`
when the field is unexported. -/
def getCargo (isT : Any → Bool) (maps : MapId → List (Bytes × Any)) (key : Bytes) (v : Any) : Result (Option Any) :=
  match v.beneath with
  | .map m =>
    match (maps m).lookup key with
    | some v => .val (typed isT v)
    | none => .val none
  | .strMap _ keyIsString entries =>
    if keyIsString then
      match entries.lookup key with
      | some v => .val (typed isT v)
      | none => .val none
    else .panic
  | .struct _ fields =>
    match fields.lookup key with
    | some (some (exported, v)) => if exported then .val (typed isT v) else .panic
    | some none => .panic
    | none => .val none
  | .value _ => if key ∈ [b%"value", b%"dynamicFunc", b%"concats"] then .panic else .val none
  | _ => .val none

/-- context/context.go:55-59 — following a pointer once, then `getCargo`; a nil pointer gives the invalid kind, a node
is a pointer to a struct. -/
def getCargoElem (isT : Any → Bool) (maps : MapId → List (Bytes × Any)) (key : Bytes) (v : Any) :
    Result (Option Any) :=
  match v.beneath with
  | .ptr (some v) => getCargo isT maps key v
  | .ptr none => .val none
  | .node n => if key ∈ n.fields then .panic else .val none
  | _ => getCargo isT maps key v

/-- context/context.go:43-80 — `Get[T](ctx, key)`; `none` is `(zero, false)`, `some v` is `(v, true)`, and a nil `ctx`
is `none`. -/
def Get (isT : Any → Bool) (ctx : Option Ctx) (key : Bytes) : Result (Option Any) :=
  match ctx with
  | none => .val none
  | some c =>
    let fromData : Option Any :=
      match c.frame.data with
      | some m =>
        match (c.maps m).lookup key with
        | some v => typed isT v
        | none => none
      | none => none
    match fromData with
    | some v => .val (some v)
    | none => getCargoElem isT c.maps key c.frame.cargo

/-- context/context.go:83-89 — `MustGet[T](ctx, key)`. -/
def MustGet (isT : Any → Bool) (ctx : Option Ctx) (key : Bytes) : Result Any :=
  match Get isT ctx key with
  | .panic => .panic
  | .val none => .panic
  | .val (some v) => .val v

end Aitch

import Verif.Model.Get
import Verif.Spec.Bare
/-
Where a value for a key is found.
-/
namespace Aitch.Spec

/-- The value that a map or struct has for a key, `maps` being the contents of the `map[string]any` maps. -/
inductive Has (maps : MapId → List (Bytes × Any)) (k : Bytes) : Any → Any → Prop where
  | map {m v} : (maps m).lookup k = some v → Has maps k (.map m) v
  | strMap {ty es v} : es.lookup k = some v → Has maps k (.strMap ty true es) v
  | field {ty fs v} : fs.lookup k = some (some (true, v)) → Has maps k (.struct ty fs) v

/-- The Cargo is `x` or a pointer to `x`, whether or not they have String methods. -/
def IsOrPointsTo (cargo x : Any) : Prop := Bare cargo x ∨ ∃ y, Bare cargo (.ptr (some y)) ∧ Bare y x

/-- A key the reflection of Go refuses to read: any key of a map whose key type is not `string` itself, an unexported
field, a field behind a nil embedded pointer. -/
inductive Refused (k : Bytes) : Any → Prop where
  | key {ty es} : Refused k (.strMap ty false es)
  | unexported {ty fs v} : fs.lookup k = some (some (false, v)) → Refused k (.struct ty fs)
  | nilEmbedded {ty fs} : fs.lookup k = some none → Refused k (.struct ty fs)
  | value {v} : k ∈ [b%"value", b%"dynamicFunc", b%"concats"] → Refused k (.value v)

/-- The unexported fields of the structs that nodes are pointers to. -/
inductive NodeField : Node → Bytes → Prop
  | elementName {h ns} : NodeField (.element h ns) b%"name"
  | voidElementName {h} : NodeField (.voidElement h) b%"name"
  | attrName {a} : NodeField (.attr a) b%"name"
  | piName {n vs} : NodeField (.pi n vs) b%"name"
  | attributes {h ns} : NodeField (.element h ns) b%"attributes"
  | voidAttributes {h} : NodeField (.voidElement h) b%"attributes"
  | conditionalAttributes {ns as f} : NodeField (.conditional ns as f) b%"attributes"
  | attIndices {h ns} : NodeField (.element h ns) b%"attIndices"
  | voidAttIndices {h} : NodeField (.voidElement h) b%"attIndices"
  | conditionals {h ns} : NodeField (.element h ns) b%"conditionals"
  | voidConditionals {h} : NodeField (.voidElement h) b%"conditionals"
  | contents {h ns} : NodeField (.element h ns) b%"contents"
  | documentContents {p ns} : NodeField (.document p ns) b%"contents"
  | prologue {p ns} : NodeField (.document p ns) b%"prologue"
  | plainValues {n vs} : NodeField (.attr (.plain n vs)) b%"values"
  | delimValues {n d r} : NodeField (.attr (.delim n d r)) b%"values"
  | delimiter {n d r} : NodeField (.attr (.delim n d r)) b%"delimiter"
  | textValues {vs} : NodeField (.text vs) b%"values"
  | commentValues {vs} : NodeField (.comment vs) b%"values"
  | fragmentValues {vs} : NodeField (.fragment vs) b%"values"
  | piValues {n vs} : NodeField (.pi n vs) b%"values"
  | collectionNodes {ns} : NodeField (.collection ns) b%"nodes"
  | conditionalNodes {ns as f} : NodeField (.conditional ns as f) b%"nodes"
  | iteratorNodes {ns f} : NodeField (.iterator ns f) b%"nodes"
  | yieldNodes {ns f} : NodeField (.yieldIterator ns f) b%"nodes"
  | conditionalFn {ns as f} : NodeField (.conditional ns as f) b%"fn"
  | iteratorFn {ns f} : NodeField (.iterator ns f) b%"fn"
  | yieldFn {ns f} : NodeField (.yieldIterator ns f) b%"fn"
  | imperativeFn {f} : NodeField (.imperative f) b%"fn"
  | collector {f} : NodeField (.collector f) b%"collector"

/-- The same for a Cargo: nodes are pointers to structs with unexported fields only. -/
def CargoRefused (k : Bytes) (cargo : Any) : Prop :=
  (∃ x, IsOrPointsTo cargo x ∧ Refused k x) ∨ ∃ n, Bare cargo (.node n) ∧ NodeField n k

/-- The context's Data has `v` under key `k`. -/
def DataHas (c : Ctx) (k : Bytes) (v : Any) : Prop := ∃ m, c.frame.data = some m ∧ (c.maps m).lookup k = some v

/-- The context's Cargo has `v` under key `k`. -/
def CargoHas (c : Ctx) (k : Bytes) (v : Any) : Prop := ∃ x, IsOrPointsTo c.frame.cargo x ∧ Has c.maps k x v

end Aitch.Spec

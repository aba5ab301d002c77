import Verif.Model.Construct
/-
Model of htmx/attributes.go: header maps and variables.
-/
namespace Aitch

/-- htmx/attributes.go:313 — A Go map `map[string]any` as a list of entries with different keys. -/
abbrev GoMap := List (Bytes × Any)

/-- htmx/attributes.go:273,306 — `m[k] = v`. -/
def GoMap.put (m : GoMap) (k : Bytes) (v : Any) : GoMap :=
  if k ∈ m.map (·.1) then m.map fun e => if e.1 = k then (k, v) else e else m ++ [(k, v)]

/-- htmx/attributes.go:328 — `m[k]`; nil when there is no such key. -/
def GoMap.get (m : GoMap) (k : Bytes) : Any := (m.lookup k).getD .nil

/-- The number of the type `HeadersMap` (htmx/attributes.go:313) among the map types of `Any.strMap`. -/
def headersMapType : Nat := 1

/-- htmx/attributes.go:267, the type assertion `v.(HeadersMap)`. -/
def asHeadersMap : Any → Option GoMap
  | .strMap ty true m => if ty = headersMapType then some m else none
  | _ => none

/-- htmx/attributes.go:272-274 and 305-307 — `for k, val := range hm { merged[k] = val }`.  `ord` is the order in which
the runtime visits the entries. -/
def mergeInto (ord : GoMap → GoMap) (hm merged : GoMap) : GoMap :=
  (ord hm).foldl (fun (m : GoMap) e => m.put e.1 e.2) merged

/-- htmx/attributes.go:266-281 — the loop of `Headers`.  `ord i` is the order in which the runtime visits the map in
the `i`th `range` over a map; the results are `foundHeadersMap`, `foundOthers`, `mergedHeadersMap`. -/
def headersLoop (ord : Nat → GoMap → GoMap) : Nat → List Any → Bool → Bool → GoMap → Bool × Bool × GoMap
  | _, [], fm, fo, merged => (fm, fo, merged)
  | i, v :: vs, fm, fo, merged =>
    match asHeadersMap v with
    | some hm => if fo then (true, fo, merged) else headersLoop ord (i + 1) vs true fo (mergeInto (ord i) hm merged)
    | none => if fm then (fm, true, merged) else headersLoop ord (i + 1) vs fm true merged

/-- htmx/attributes.go:325 — The order of Go strings: bytewise, a prefix before its extensions. -/
def bytesLe : Bytes → Bytes → Bool
  | [], _ => true
  | _ :: _, [] => false
  | a :: as, b :: bs => a < b || (a == b && bytesLe as bs)

/-- htmx/attributes.go:325 — One step of `sortStrings`. -/
def insertString (k : Bytes) : List Bytes → List Bytes
  | [] => [k]
  | l :: ls => if bytesLe k l then k :: l :: ls else l :: insertString k ls

/-- htmx/attributes.go:325 — `sort.Strings`.  Simplified: the library's algorithm is replaced by insertion sort (equal
strings are indistinguishable, so the result is the same). -/
def sortStrings : List Bytes → List Bytes
  | [] => []
  | k :: ks => insertString k (sortStrings ks)

/-- htmx/attributes.go:328 — ``strings.ReplaceAll(key, `"`, `&quot;`)``. -/
def quoteKey (key : Bytes) : Bytes := key.flatMap fun c => if c = c%'"' then b%"&quot;" else [c]

/-- htmx/attributes.go:327-330 — the loop of `serialize` over the sorted keys. -/
def serializeKeys (m : GoMap) (delimit : Bytes) : List Bytes → List Any
  | [] => []
  | key :: keys => .bytes (delimit ++ b%"'" ++ quoteKey key ++ b%"': ") :: m.get key :: serializeKeys m b%", " keys

/-- htmx/attributes.go:315-333 — `serialize`; `ord` is the order in which the keys are collected. -/
def serialize (ord : GoMap → GoMap) (m : GoMap) (pre : Bytes) : List Any :=
  (if pre = [] then [] else [.bytes pre]) ++ [.bytes b%"{"] ++
    serializeKeys m [] (sortStrings ((ord m).map (·.1))) ++ [.bytes b%"}"]

/-- htmx/attributes.go:262-289 — `Headers`. -/
def Headers (ord : Nat → GoMap → GoMap) (dl : Nat → List Value) (value : List Any) : Result Node :=
  let (foundHeadersMap, foundOthers, merged) := headersLoop ord 0 value false false []
  if foundOthers && foundHeadersMap then .panic
  else if foundHeadersMap then
    .val (NewAttribute dl b%"hx-headers" [.value (NewConcatValue dl (serialize (ord value.length) merged []))])
  else .val (NewAttribute dl b%"hx-headers" value)

/-- htmx/attributes.go:303-308 — the loop of `HeadersJS`. -/
def mergeMaps (ord : Nat → GoMap → GoMap) : Nat → List GoMap → GoMap → GoMap
  | _, [], merged => merged
  | i, hm :: hms, merged => mergeMaps ord (i + 1) hms (mergeInto (ord i) hm merged)

/-- htmx/attributes.go:299-309 — `mergedHeadersMap` in `HeadersJS`. -/
def mergedJS (ord : Nat → GoMap → GoMap) : List GoMap → GoMap
  | [hm] => hm
  | hms => mergeMaps ord 0 hms []

/-- htmx/attributes.go:298-311 — `HeadersJS`. -/
def HeadersJS (ord : Nat → GoMap → GoMap) (dl : Nat → List Value) (value : List GoMap) : Node :=
  NewAttribute dl b%"hx-headers"
    [.value (NewConcatValue dl (serialize (ord value.length) (mergedJS ord value) b%"js:"))]

/-- htmx/attributes.go:252-254 — `Var`. -/
def Var (dl : Nat → List Value) (name : Bytes) (value : Any) : Value :=
  NewConcatValue dl [.str name, .bytes b%": ", value]

end Aitch

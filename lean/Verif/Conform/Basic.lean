import Verif.Model.Render
import Verif.Model.Library
import Verif.Model.Html
import Verif.Spec.Sample
/-
Running the model on the unit tests of the repository.  The files in this directory evaluate the model on the
arguments of the tests `*_test.go` and compare with the results that those tests require.  This is no proof of any
property: it tests that the model is a model of this code.
-/
namespace Aitch.Conform
open Aitch.Spec

/-- An argument of a constructor, built with the memory of the program: an expression of Go. -/
abbrev Arg := Heap → Any × Heap

/-- Go evaluates arguments from left to right. -/
def args : List Arg → Heap → List Any × Heap
  | [], h => ([], h)
  | a :: as, h => let (v, h) := a h; let (vs, h) := args as h; (v :: vs, h)

/-- A value that needs no memory. -/
def lit (v : Any) : Arg := fun h => (v, h)

instance : Coe Any Arg := ⟨lit⟩

/-- A string. -/
def str (s : Bytes) : Arg := lit (.str s)

/-- An `int`. -/
def int (i : Int) : Arg := lit (.int .int i)

/-- `aitch.DynamicValueFunc`, `aitch.DynamicValueKey`. -/
def dynKey (k : Bytes) : Arg := lit (.dynKey k)

/-- A constructor that takes values and reads the memory. -/
def withValues (c : (Nat → List Value) → List Any → Node) (as : List Arg) : Arg := fun h =>
  let (vs, h) := args as h
  (.node (c h.dl vs), h)

def text (as : List Arg) : Arg := withValues Text as
def comment (as : List Arg) : Arg := withValues Comment as
def fragment (as : List Arg) : Arg := withValues Fragment as
def pi (name : Bytes) (as : List Arg) : Arg := withValues (fun dl => PI dl name) as
def attr (name : Bytes) (as : List Arg) : Arg := withValues (fun dl => NewAttribute dl name) as

/-- `aitch.NewElement`. -/
def elem (name : Bytes) (as : List Arg) : Arg := fun h =>
  let (vs, h) := args as h
  let (n, h) := NewElement name vs h
  (.node n, h)

/-- `aitch.NewVoidElement`. -/
def void (name : Bytes) (as : List Arg) : Arg := fun h =>
  let (vs, h) := args as h
  let (n, h) := NewVoidElement name vs h
  (.node n, h)

/-- `aitch.NewDelimitedAttribute`. -/
def delim (name d : Bytes) (as : List Arg) : Arg := fun h =>
  let (vs, h) := args as h
  let (n, h) := NewDelimitedAttribute name d vs h
  (.node n, h)

/-- Values as arguments of type `Node`; nil stays nil. -/
def asNodes : List Any → List (Option Node)
  | [] => []
  | .node n :: vs => some n :: asNodes vs
  | _ :: vs => none :: asNodes vs

/-- A constructor that takes nodes.  (A panic shows as an argument that renders nothing, see `shows`.) -/
def withNodes (c : List (Option Node) → Result Node) (as : List Arg) : Arg := fun h =>
  let (vs, h) := args as h
  match c (asNodes vs) with
  | .val n => (.node n, h)
  | .panic => (.other 0, h)

def collection (as : List Arg) : Arg := withNodes (fun ns => .val (Collection ns)) as
def conditional (f : Option FnId) (as : List Arg) : Arg := withNodes (Conditional f) as
def whenKey (k : Bytes) (as : List Arg) : Arg := withNodes (When k) as
def iterate (f : Option FnId) (as : List Arg) : Arg := withNodes (Iterate f) as
def iterateKey (k : Bytes) (as : List Arg) : Arg := withNodes (IterateKey k) as
def iterateYield (f : Option FnId) (as : List Arg) : Arg := withNodes (IterateYield f) as
def contentCollect (f : Option FnId) : Arg := lit (.node (ContentCollect f))
def imperative (f : Option FnId) : Arg := lit (.node (Imperative f))

/-- An attribute or element function of a package, by its Go name. -/
def attrFn (table : List AttrFn) (name : Bytes) (as : List Arg) : Arg := fun h =>
  match table.find? (·.name = name) with
  | some f => let (vs, h) := args as h; let (n, h) := f.call vs h; (.node n, h)
  | none => (.other 0, h)

@[inherit_doc attrFn] def elemFn (table : List ElemFn) (name : Bytes) (as : List Arg) : Arg := fun h =>
  match table.find? (·.name = name) with
  | some f => let (vs, h) := args as h; let (n, h) := f.call vs h; (.node n, h)
  | none => (.other 0, h)

/-- The state at the start of a test: `data` is map 0, if any. -/
def start (data : Option (List (Bytes × Any))) (cargo : Any) (h : Heap) : St where
  frame := { err := none, data := data.map fun _ => 0, cargo := cargo }
  parents := []
  maps := fun _ => data.getD []
  dl := h.dl
  dlNext := h.next
  world := 0
  log := []
  tick := 0

/-- What a test sees of a render: the error and the output.  `none` when the construction panicked. -/
def run (env : Env) (data : Option (List (Bytes × Any))) (cargo : Any) (a : Arg) : Option (Option Err × Bytes) :=
  match a Heap.empty with
  | (.node n, h) => (render env 100 n (start data cargo h)).map fun r => (r.1, r.2.out)
  | _ => none

/-- The output of a render without error (`testRender` of the tests). -/
def shows (env : Env) (data : Option (List (Bytes × Any))) (a : Arg) : Option Bytes :=
  match run env data .nil a with
  | some (none, out) => some out
  | _ => none

/-- `Name()` and `Type()` of the node. -/
def nodeOf (a : Arg) : Option Node :=
  match a Heap.empty with
  | (.node n, _) => some n
  | _ => none

end Aitch.Conform

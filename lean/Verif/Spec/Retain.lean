import Verif.Model.Retain
import Verif.Spec.Obs
/-
Programs that build nodes and reuse their byte slices.
-/
namespace Aitch.Spec.Retain

open Aitch.Retain (Kept Mem KNode KAny KHeap Fixed)

/-- An argument in a program. -/
inductive Arg where
  | nil
  /-- the `[]byte` number `r` of the program -/
  | slice (r : Nat)
  /-- a `func() any` returning it -/
  | thunk (a : Arg)
  /-- the result of the `i`-th call before -/
  | var (i : Nat)
  | dynFunc (named : Bool) (f : Option FnId)
  | dynKey (k : Bytes)
  /-- a string, a number, ... -/
  | fixed (a : Any) (h : Fixed a)

/-- A call of the library.  Names are slices of the program, or `own` bytes (strings, and the names in packages html and
svg). -/
inductive Call where
  | value (a : Arg)
  | concat (as : List Arg)
  | text (as : List Arg)
  | comment (as : List Arg)
  | fragment (as : List Arg)
  | pi (name : Bytes) (as : List Arg)
  | attr (name : Kept) (as : List Arg)
  | boolAttr (name : Kept)
  | delimAttr (name delimiter : Kept) (as : List Arg)
  | collection (as : List Arg)
  | conditional (fn : Cond) (as : List Arg)
  | iterator (fn : ItemSrc) (as : List Arg)
  | yieldIterator (f : FnId) (as : List Arg)
  | collector (f : FnId)
  | imperative (f : Option FnId)
  | element (name : Kept) (as : List Arg)
  | voidElement (name : Kept) (as : List Arg)

/-- A step of a program: writing into one of its slices, or a call of the library. -/
inductive Step where
  | set (r : Nat) (b : Bytes)
  | call (c : Call)

/-- Memory after writing into a slice. -/
def put (m : Mem) (r : Nat) (b : Bytes) : Mem := fun x => if x = r then b else m x

/-- Memory after some steps. -/
def after (m : Mem) : List Step → Mem
  | [] => m
  | .set r b :: p => after (put m r b) p
  | .call _ :: p => after m p

/-! ### The program with the library as it is -/

/-- The results of the calls so far and the delimited attributes. -/
structure Vars where
  vars : List KAny
  heap : KHeap

/-- An argument. -/
def Arg.get (vs : List KAny) : Arg → KAny
  | .nil => .nil
  | .slice r => .bytes (.slice r)
  | .thunk a => .thunk (a.get vs)
  | .var i => (vs[i]?).getD .nil
  | .dynFunc named f => .dynFunc named f
  | .dynKey k => .dynKey k
  | .fixed a h => .fixed a h

/-- Arguments of type `Node`; others do not compile, and nil is left out here. -/
def nodesOf : List KAny → List KNode
  | [] => []
  | .node n :: as => n :: nodesOf as
  | _ :: as => nodesOf as

/-- A call at a moment when memory is `m`. -/
def Call.run (m : Mem) (v : Vars) : Call → KAny × KHeap
  | .value a => (.value (Aitch.Retain.NewValue v.heap.dl (a.get v.vars)), v.heap)
  | .concat as => (.value (Aitch.Retain.NewConcatValue v.heap.dl (as.map (·.get v.vars))), v.heap)
  | .text as => (.node (.text (Aitch.Retain.newValues v.heap.dl (as.map (·.get v.vars)))), v.heap)
  | .comment as => (.node (.comment (Aitch.Retain.newValues v.heap.dl (as.map (·.get v.vars)))), v.heap)
  | .fragment as => (.node (.fragment (Aitch.Retain.newValues v.heap.dl (as.map (·.get v.vars)))), v.heap)
  | .pi name as => (.node (.pi name (Aitch.Retain.newValues v.heap.dl (as.map (·.get v.vars)))), v.heap)
  | .attr name as => (.node (.attr (.plain name (Aitch.Retain.newValues v.heap.dl (as.map (·.get v.vars))))), v.heap)
  | .boolAttr name => (.node (.attr (.bool name)), v.heap)
  | .delimAttr name d as =>
    let r := Aitch.Retain.NewDelimitedAttribute name d (as.map (·.get v.vars)) v.heap
    (.node r.1, r.2)
  | .collection as => (.node (.collection (nodesOf (as.map (·.get v.vars)))), v.heap)
  | .conditional fn as => (.node (Aitch.Retain.mkConditional fn (nodesOf (as.map (·.get v.vars)))), v.heap)
  | .iterator fn as => (.node (.iterator (Aitch.Retain.iterSplit (nodesOf (as.map (·.get v.vars)))) fn), v.heap)
  | .yieldIterator f as => (.node (.yieldIterator (Aitch.Retain.iterSplit (nodesOf (as.map (·.get v.vars)))) f), v.heap)
  | .collector f => (.node (.collector f), v.heap)
  | .imperative f => (.node (.imperative f), v.heap)
  | .element name as =>
    let r := Aitch.Retain.NewElement m name (as.map (·.get v.vars)) v.heap
    (.node r.1, r.2)
  | .voidElement name as =>
    let r := Aitch.Retain.NewVoidElement m name (as.map (·.get v.vars)) v.heap
    (.node r.1, r.2)

/-- Running a program. -/
def run (m : Mem) (v : Vars) : List Step → Vars
  | [] => v
  | .set r b :: p => run (put m r b) v p
  | .call c :: p => run m ⟨v.vars ++ [(c.run m v).1], (c.run m v).2⟩ p

/-! ### The program with a library that copies what it is given -/

/-- The results of the calls so far and the delimited attributes: nodes as in the rest of the model. -/
structure Copies where
  vars : List Any
  heap : Heap

/-- An argument: slices are read at this moment. -/
def Arg.copy (m : Mem) (vs : List Any) : Arg → Any
  | .nil => .nil
  | .slice r => .bytes (m r)
  | .thunk a => .thunk (a.copy m vs)
  | .var i => (vs[i]?).getD .nil
  | .dynFunc named f => .dynFunc named f
  | .dynKey k => .dynKey k
  | .fixed a _ => a

@[inherit_doc nodesOf] def nodesIn : List Any → List (Option Node)
  | [] => []
  | .node n :: as => some n :: nodesIn as
  | _ :: as => nodesIn as

/-- The node made by a constructor that panics on nil (there is none here). -/
def made : Result Node → Any
  | .val n => .node n
  | .panic => .nil

/-- A call at a moment when memory is `m`: the constructors of the rest of the model, with copied arguments. -/
def Call.copied (m : Mem) (v : Copies) : Call → Any × Heap
  | .value a => (.value (NewValue v.heap.dl (a.copy m v.vars)), v.heap)
  | .concat as => (.value (NewConcatValue v.heap.dl (as.map (·.copy m v.vars))), v.heap)
  | .text as => (.node (Text v.heap.dl (as.map (·.copy m v.vars))), v.heap)
  | .comment as => (.node (Comment v.heap.dl (as.map (·.copy m v.vars))), v.heap)
  | .fragment as => (.node (Fragment v.heap.dl (as.map (·.copy m v.vars))), v.heap)
  | .pi name as => (.node (PI v.heap.dl name (as.map (·.copy m v.vars))), v.heap)
  | .attr name as => (.node (NewAttribute v.heap.dl (name.now m) (as.map (·.copy m v.vars))), v.heap)
  | .boolAttr name => (.node (NewBooleanAttribute (name.now m)), v.heap)
  | .delimAttr name d as =>
    let r := NewDelimitedAttribute (name.now m) (d.now m) (as.map (·.copy m v.vars)) v.heap
    (.node r.1, r.2)
  | .collection as => (.node (Collection (nodesIn (as.map (·.copy m v.vars)))), v.heap)
  | .conditional fn as => (made (mkConditional fn (nodesIn (as.map (·.copy m v.vars)))), v.heap)
  | .iterator (.user f) as => (made (Iterate (some f) (nodesIn (as.map (·.copy m v.vars)))), v.heap)
  | .iterator (.key k) as => (made (IterateKey k (nodesIn (as.map (·.copy m v.vars)))), v.heap)
  | .yieldIterator f as => (made (IterateYield (some f) (nodesIn (as.map (·.copy m v.vars)))), v.heap)
  | .collector f => (.node (ContentCollect (some f)), v.heap)
  | .imperative f => (.node (Imperative f), v.heap)
  | .element name as =>
    let r := NewElement (name.now m) (as.map (·.copy m v.vars)) v.heap
    (.node r.1, r.2)
  | .voidElement name as =>
    let r := NewVoidElement (name.now m) (as.map (·.copy m v.vars)) v.heap
    (.node r.1, r.2)

/-- Running a program. -/
def copied (m : Mem) (v : Copies) : List Step → Copies
  | [] => v
  | .set r b :: p => copied (put m r b) v p
  | .call c :: p => copied m ⟨v.vars ++ [(c.copied m v).1], (c.copied m v).2⟩ p

/-- The calls alone. -/
def calls : List Step → List Step
  | [] => []
  | .set _ _ :: p => calls p
  | .call c :: p => .call c :: calls p

/-! ### What is rendered -/

/-- Before anything is built. -/
def Vars.empty : Vars := ⟨[], ⟨fun _ => [], 0⟩⟩
@[inherit_doc Vars.empty] def Copies.empty : Copies := ⟨[], Heap.empty⟩

/-- After the program, which starts with memory `m`, the node that call `i` made renders with these results.  (The
state is `s`, with the delimited attributes that the program made.  Slices do not change during the rendering, and nodes
that user functions build meanwhile are taken to hold copies.) -/
def Rendered (m : Mem) (p : List Step) (i : Nat) (env : Env) (s : St) (e : Option Err) (s' : St) : Prop :=
  ∃ n, (run m .empty p).vars[i]? = some (.node n) ∧
    Runs env (n.now (after m p)) { s with
      dl := ((run m .empty p).heap.now (after m p)).dl, dlNext := (run m .empty p).heap.next } e s'

/-- The same for the library that copies. -/
def RenderedCopied (m : Mem) (p : List Step) (i : Nat) (env : Env) (s : St) (e : Option Err) (s' : St) : Prop :=
  ∃ n, (copied m .empty p).vars[i]? = some (.node n) ∧
    Runs env n { s with dl := (copied m .empty p).heap.dl, dlNext := (copied m .empty p).heap.next } e s'

/-! ### Slices used by a call -/

/-- The slice in an argument. -/
def Arg.slices : Arg → List Nat
  | .slice r => [r]
  | .thunk a => a.slices
  | _ => []

/-- The slice that is this name. -/
def keptSlices : Kept → List Nat
  | .own _ => []
  | .slice r => [r]

/-- The slices given as attribute names. -/
def Call.names : Call → List Nat
  | .attr name _ => keptSlices name
  | .boolAttr name => keptSlices name
  | .delimAttr name _ _ => keptSlices name
  | _ => []

/-- All slices given to a call. -/
def Call.slices : Call → List Nat
  | .value a => a.slices
  | .concat as | .text as | .comment as | .fragment as | .pi _ as | .collection as | .conditional _ as
  | .iterator _ as | .yieldIterator _ as => as.flatMap Arg.slices
  | .attr name as | .element name as | .voidElement name as => keptSlices name ++ as.flatMap Arg.slices
  | .boolAttr name => keptSlices name
  | .delimAttr name d as => keptSlices name ++ keptSlices d ++ as.flatMap Arg.slices
  | .collector _ | .imperative _ => []

/-- After slices are given to the library as attribute names, the program does not write into them. -/
def NamesLeft (p : List Step) : Prop :=
  ∀ before c rest, p = before ++ .call c :: rest → ∀ r ∈ c.names, ∀ b, .set r b ∉ rest

/-- After slices are given to the library, the program does not write into them. -/
def SlicesLeft (p : List Step) : Prop :=
  ∀ before c rest, p = before ++ .call c :: rest → ∀ r ∈ c.slices, ∀ b, .set r b ∉ rest

/-- Writing into a slice does not change its length. -/
def KeepsLengths (m : Mem) : List Step → Prop
  | [] => True
  | .set r b :: p => b.length = (m r).length ∧ KeepsLengths (put m r b) p
  | .call _ :: p => KeepsLengths m p

/-! ### Imperative -/

open Aitch.Retain (KImp)

/-- The function when `Start` gets a copy of the name. -/
def copyNames (m : Mem) : KImp → ImpProg
  | .ret e => .ret e
  | .set r b k => copyNames (put m r b) k
  | .user upd k => .user upd fun s => copyNames m (k s)
  | .start name isVoid attrs k => .call (.start (name.now m) isVoid attrs) fun s => copyNames m (k s)
  | .call op k => .call op fun s => copyNames m (k s)

/-- The names open after a method call. -/
def opened : ImpOp → List Kept → List Kept
  | .start n false _, stack => .own n :: stack
  | .end, stack => stack.tail
  | .endAll, _ => []
  | _, stack => stack

/-- The function writes into no slice that is the name of an element it has opened and not yet ended. -/
def OpenNamesLeft : KImp → List Kept → Prop
  | .ret _, _ => True
  | .set r _ k, stack => (∀ n ∈ stack, r ∉ keptSlices n) ∧ OpenNamesLeft k stack
  | .user _ k, stack => ∀ s, OpenNamesLeft (k s) stack
  | .start name isVoid _ k, stack => ∀ s, OpenNamesLeft (k s) (if isVoid then stack else name :: stack)
  | .call op k, stack => ∀ s, OpenNamesLeft (k s) (opened op stack)

/-- `p`, called by the rendering of an `Imperative` node in state `s` when the slices hold `m`, ends in state `s'` and
returns `e`. -/
def ImpRuns (m : Mem) (p : KImp) (env : Env) (s : St) (e : Option Err) (s' : St) : Prop :=
  ∃ fuel, exec env (Aitch.Retain.runImp (renderProg fuel) p m []) s = some (e, s')

/-- The same when `Start` copies the name. -/
def ImpRunsCopied (m : Mem) (p : KImp) (env : Env) (s : St) (e : Option Err) (s' : St) : Prop :=
  ∃ fuel, exec env (runImp (renderProg fuel) (copyNames m p) []) s = some (e, s')

end Aitch.Spec.Retain

import Verif.Model.Own
import Verif.Spec.Obs
import Verif.Spec.Out
/-
Attribute types of the user's own: templates in which some attributes are wrapped in such a type.
-/
namespace Aitch.Spec.Own

/-- A node that is neither an attribute nor a grouping. -/
def Other : Node → Prop
  | .attr _ | .collection _ | .conditional _ _ _ => False
  | _ => True

/-- A template as a program writes it.  An attribute may be wrapped: given as a value of a type of the user's own (such as
`struct{ aitch.Node }`) whose `Type`, `Name` and `Render` methods are those of the attribute. -/
inductive Src where
  | element (name : Bytes) (contents : List Src)
  | voidElement (name : Bytes) (contents : List Src)
  | attr (a : Attr) (wrapped : Bool)
  | collection (nodes : List Src)
  | conditional (fn : Cond) (nodes : List Src)
  | iterator (fn : ItemSrc) (nodes : List Src)
  | yieldIterator (f : FnId) (nodes : List Src)
  | document (nodes : List Src)
  /-- a node that is no attribute and no grouping -/
  | other (n : Node) (ok : Other n)

/-- Such an attribute. -/
def wrap (a : Attr) : Own.OAttr := .own a.name (renderAttr a)

/-- The attribute as it is given. -/
def given (a : Attr) (wrapped : Bool) : Own.OAttr := if wrapped then wrap a else .std a

mutual
/-- The template as it is written: arguments are evaluated from left to right, then the constructor is called. -/
def asWritten : Src → Heap → Own.ONode × Heap
  | .element name cs, h => let (ns, h) := allAsWritten cs h; Own.NewElement name ns h
  | .voidElement name cs, h => let (ns, h) := allAsWritten cs h; Own.NewVoidElement name ns h
  | .attr a w, h => (.attr (given a w), h)
  | .collection cs, h => let (ns, h) := allAsWritten cs h; (.collection ns, h)
  | .conditional fn cs, h => let (ns, h) := allAsWritten cs h; (Own.Conditional fn ns, h)
  | .iterator fn cs, h => let (ns, h) := allAsWritten cs h; (Own.Iterate fn ns, h)
  | .yieldIterator f cs, h => let (ns, h) := allAsWritten cs h; (Own.IterateYield f ns, h)
  | .document cs, h => let (ns, h) := allAsWritten cs h; (.document ns, h)
  | .other n _, h => (.other n, h)
/-- The same for a list. -/
def allAsWritten : List Src → Heap → List Own.ONode × Heap
  | [], h => ([], h)
  | c :: cs, h =>
    let (n, h) := asWritten c h
    let (ns, h) := allAsWritten cs h
    (n :: ns, h)
end

/-- What a constructor returns when it does not panic. -/
def returned : Result Node → Node
  | .val n => n
  | .panic => .collection []

/-- `Iterate` and `IterateKey`. -/
def iterate : ItemSrc → List (Option Node) → Result Node
  | .user f, ns => Iterate (some f) ns
  | .key k, ns => IterateKey k ns

mutual
/-- The template without the wrapping: every attribute is given itself. -/
def unwrapped : Src → Heap → Node × Heap
  | .element name cs, h => let (ns, h) := allUnwrapped cs h; NewElement name (ns.map .node) h
  | .voidElement name cs, h => let (ns, h) := allUnwrapped cs h; NewVoidElement name (ns.map .node) h
  | .attr a _, h => (.attr a, h)
  | .collection cs, h => let (ns, h) := allUnwrapped cs h; (Collection (ns.map some), h)
  | .conditional fn cs, h => let (ns, h) := allUnwrapped cs h; (returned (mkConditional fn (ns.map some)), h)
  | .iterator fn cs, h => let (ns, h) := allUnwrapped cs h; (returned (iterate fn (ns.map some)), h)
  | .yieldIterator f cs, h => let (ns, h) := allUnwrapped cs h; (returned (IterateYield (some f) (ns.map some)), h)
  | .document cs, h => let (ns, h) := allUnwrapped cs h; (.document none ns, h)
  | .other n _, h => (n, h)
/-- The same for a list. -/
def allUnwrapped : List Src → Heap → List Node × Heap
  | [], h => ([], h)
  | c :: cs, h =>
    let (n, h) := unwrapped c h
    let (ns, h) := allUnwrapped cs h
    (n :: ns, h)
end

/-- As `Runs`: with this environment, `n.Render(ctx)` called in `s` ends in `s'` and returns `e`. -/
def Runs (env : Env) (n : Own.ONode) (s : St) (e : Option Err) (s' : St) : Prop :=
  ∃ fuel, exec env (Own.renderProg fuel n) s = some (e, s')

/-- As `Writes`: called in state `s`, it ends, returns nil, writes `w` and leaves all memory as it was. -/
def Writes (env : Env) (n : Own.ONode) (s : St) (w : Bytes) : Prop :=
  ∃ s', Runs env n s none s' ∧ s'.out = s.out ++ w ∧ s'.toCtx = s.toCtx

mutual
/-- The attributes that an element gets from one of its arguments, each with whether it is wrapped: those given directly and
those in collections and conditionals, at any depth. -/
def declared : Src → List (Attr × Bool)
  | .attr a w => [(a, w)]
  | .collection cs => allDeclared cs
  | .conditional _ cs => allDeclared cs
  | _ => []
/-- The same for a list. -/
def allDeclared : List Src → List (Attr × Bool)
  | [] => []
  | c :: cs => declared c ++ allDeclared cs
end

/-- A wrapped attribute `a` gets on with another attribute `b` of the same name in the same element: it is a boolean attribute,
or it is a plain one and `b` is not delimited. -/
def Fits : Attr → Attr → Prop
  | .bool _, _ => True
  | .plain _ _, .delim _ _ _ => False
  | .plain _ _, _ => True
  | .delim _ _ _, _ => False

/-- Two attributes of one element, with whether they are wrapped. -/
def Compatible (x y : Attr × Bool) : Prop :=
  x.1.name = y.1.name → (x.2 = true → Fits x.1 y.1) ∧ (y.2 = true → Fits y.1 x.1)

mutual
/-- In every element of the template, every wrapped attribute gets on with the other attributes of its name, if there are
any. -/
def Clear : Src → Prop
  | .element _ cs => (allDeclared cs).Pairwise Compatible ∧ AllClear cs
  | .voidElement _ cs => (allDeclared cs).Pairwise Compatible ∧ AllClear cs
  | .attr _ _ => True
  | .collection cs => AllClear cs
  | .conditional _ cs => AllClear cs
  | .iterator _ cs => AllClear cs
  | .yieldIterator _ cs => AllClear cs
  | .document cs => AllClear cs
  | .other _ _ => True
/-- The same for a list. -/
def AllClear : List Src → Prop
  | [] => True
  | c :: cs => Clear c ∧ AllClear cs
end

/-! ### Any `Render` -/

/-- The attributes in effect: for every name, in the order of the first declarations, its last declaration. -/
def lastDeclared (as : List Own.OAttr) : List Own.OAttr :=
  (distinct (as.map Own.OAttr.name)).filterMap fun n => (as.filter fun a => a.name = n).getLast?

/-- Calling `Render` of each attribute, in order. -/
def each : List Own.OAttr → Prog Unit
  | [] => return ()
  | a :: as => do
    Own.renderAttr a
    each as

/-- Writing `<name`, calling `Render` of each attribute, in order, and writing `>`. -/
def tagOf (name : Bytes) (as : List Own.OAttr) : Prog Unit := do
  ctxWrite b%"<"
  ctxWrite name
  each as
  ctxWrite b%">"

/-- The same, returning `ctx.Error`. -/
def tag (name : Bytes) (as : List Own.OAttr) : Prog (Option Err) := do
  tagOf name as
  retErr

/-- An attribute of the user's own replaced by the boolean attribute of the same name. -/
def asBoolean : Own.OAttr → Attr
  | .std a => a
  | .own n _ => .bool n

/-- An argument of `Start` with such a replacement; nodes that are not attributes are left out. -/
def startArg : Option Own.ONode → Option Node
  | some (.attr a) => some (.attr (asBoolean a))
  | _ => none

end Aitch.Spec.Own

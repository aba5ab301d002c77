import Verif.Spec.Received
import Verif.Spec.Clean
import Verif.Spec.Out
/-
Templates all of whose elements may be where they are put: the hypotheses of C96.
-/
namespace Aitch.Spec.Markup

/-- Where a node is: directly in the `head`, or inside of elements with these names (the parent first). -/
inductive Place where
  | head
  | inside (path : List Bytes)

/-- A browser leaves the tree in that place. -/
def Place.fits : Place → Tree → Bool
  | .head, t => fitsHead t
  | .inside path, t => Markup.fits path t

/-- The place of the contents of an element. -/
def Place.into : Place → (name : Bytes) → Place
  | .head, name => .inside [lower name]
  | .inside path, name => .inside (lower name :: path)

/-- The place inside of elements that were started one after the other, the last one first. -/
def Place.under (p : Place) (stack : List Bytes) : Place := stack.foldr (fun n p => p.into n) p

/-- Elements of that name may be there. -/
def Place.Element (p : Place) (name : Bytes) : Prop := p.fits (.element name [] []) = true

/-- Elements of that name without content may be there. -/
def Place.Void (p : Place) (name : Bytes) : Prop := p.fits (.void name []) = true

/-- Any text may be there. -/
def Place.Text (p : Place) : Prop := ∀ s, p.fits (.text s) = true

/-- `Stands P p n`: every element that the node may write, whatever the data, may be where it then is, if the node is in
the place `p`. -/
inductive Stands (P : Fns) : Place → Node → Prop
  | attr {p} (a) : Stands P p (.attr a)
  | element {p} (h contents) : p.Element h.name → (∀ n ∈ contents, Stands P (p.into h.name) n) →
      Stands P p (.element h contents)
  | voidElement {p} (h) : p.Void h.name → Stands P p (.voidElement h)
  | text {p} (vs) : p.Text → Stands P p (.text vs)
  | fragment {p} (vs) : p.Text → Stands P p (.fragment vs)
  | comment {p} (vs) : Stands P p (.comment vs)
  | collection {p} (ns) : (∀ n ∈ ns, Stands P p n) → Stands P p (.collection ns)
  | conditional {p} (ns as fn) : (∀ n ∈ ns, Stands P p n) → Stands P p (.conditional ns as fn)
  | collector {p} (f) : (∀ c n, some n ∈ P.collect f c → Stands P p n) → Stands P p (.collector f)
  | iterator {p} (ns fn) : (∀ n ∈ ns, Stands P p n) → Stands P p (.iterator ns fn)
  | yieldIterator {p} (ns f) : (∀ n ∈ ns, Stands P p n) → Stands P p (.yieldIterator ns f)
  /-- the calls of the function, each with the elements that are open then -/
  | imperative {p} (f) :
      (∀ c before d after, P.imp f c = before ++ .writeString d :: after → (p.under (openAfter before [])).Text) →
      (∀ c before d after, P.imp f c = before ++ .writeRaw d :: after → (p.under (openAfter before [])).Text) →
      (∀ c before name attrs after, P.imp f c = before ++ .start name true attrs :: after →
        (p.under (openAfter before [])).Void name) →
      (∀ c before name attrs after, P.imp f c = before ++ .start name false attrs :: after →
        (p.under (openAfter before [])).Element name) →
      (∀ c before ns after n, P.imp f c = before ++ .writeNodes ns :: after → some n ∈ ns →
        Stands P (p.under (openAfter before [])) n) →
      Stands P p (.imperative (some f))

/-- What is asked of the arguments of `Document` in C58: names from `A` and `B`, and harmless data. -/
structure TidyPage (P : Fns) (A B : List Bytes) (lang : Any) (head body : List Any) : Prop where
  names : b%"html" ∈ A ∧ b%"head" ∈ A ∧ b%"body" ∈ A ∧ b%"lang" ∈ B
  lang : SafeArg lang
  args : ∀ v ∈ head ++ body, SafeArg v ∨ ∃ n, v = .node n
  head : ∀ n ∈ nodesIn head, Tidy P A B .html false n
  body : ∀ n ∈ nodesIn body, Tidy P A B .html false n

/-- The arguments of `Document`, where they are.  (In the head there are only nodes.) -/
structure PageStands (P : Fns) (head body : List Any) : Prop where
  nodes : ∀ v ∈ head, ∃ n, v = .node n
  head : ∀ n ∈ nodesIn head, Stands P .head n
  body : ∀ n ∈ nodesIn body, Stands P (.inside [b%"body", b%"html"]) n

mutual
/-- The elements of the DOM have names from `A`, their attributes names from `B`. -/
def MadeOf (A B : List Bytes) : Dom → Prop
  | .element name attrs children => name ∈ A ∧ (∀ a ∈ attrs, a.1 ∈ B) ∧ MadeOfAll A B children
  | _ => True
/-- `MadeOf` for all nodes. -/
def MadeOfAll (A B : List Bytes) : List Dom → Prop
  | [] => True
  | d :: ds => MadeOf A B d ∧ MadeOfAll A B ds
end

end Aitch.Spec.Markup

import Verif.Spec.Markup
import Verif.Spec.Text
import Verif.Spec.Built
import Verif.Spec.Nesting
/-
Templates whose names are known and that let nothing but escaped text through: the hypotheses of C58.
-/
namespace Aitch.Spec.Markup

mutual
/-- Data that cannot write markup: everything, but a `[]byte`, a number's text or the result of a `String()` has to be
harmless as it is (`MarkupSafe`). -/
def SafeData : Any → Prop
  | .bytes bs => MarkupSafe bs
  | .float _ txt => MarkupSafe txt
  | .stringer _ out v => MarkupSafe out ∧ SafeData v
  | .thunk r => SafeData r
  | .anySlice xs => SafeDatas xs
  | .slice _ xs => SafeDatas xs
  | _ => True
/-- `SafeData` for all items. -/
def SafeDatas : List Any → Prop
  | [] => True
  | x :: xs => SafeData x ∧ SafeDatas xs
end

/-- The same for an argument of a constructor; nodes and `Value`s count separately. -/
def SafeArg : Any → Prop
  | .node _ => False
  | .value _ => False
  | v => SafeData v

mutual
/-- The bytes in a `Value` are harmless. -/
def SafeValue : Value → Prop
  | .mk _ (some _) _ => True
  | .mk v none [] => MarkupSafe v
  | .mk _ none (x :: xs) => SafeValue x ∧ SafeValues xs
/-- `SafeValue` for all values. -/
def SafeValues : List Value → Prop
  | [] => True
  | v :: vs => SafeValue v ∧ SafeValues vs
end

/-- The data in the context, and the values of all delimited attributes in memory, are harmless. -/
structure SafeCtx (c : Ctx) : Prop where
  cargo : SafeData c.frame.cargo
  maps : ∀ m k v, (k, v) ∈ c.maps m → SafeData v
  delimited : ∀ r, SafeValues (c.dl r)

/-- The user functions return harmless data.  (A `DynamicValueFunc` has to escape what it returns.) -/
structure SafeFns (P : Fns) : Prop where
  dyn : ∀ f c, MarkupSafe (P.dyn f c)
  items : ∀ f c, ∀ v ∈ P.items f c, SafeData v
  yields : ∀ f c, ∀ v ∈ P.yields f c, SafeData v

/-- The names: element names `A` and attribute names `B`. -/
structure GoodNames (A B : List Bytes) : Prop where
  elements : ∀ a ∈ A, ValidName a ∧ lower a ≠ b%"plaintext"
  attributes : ∀ b ∈ B, ValidName b
  /-- no two attribute names differ only in case -/
  distinct : ∀ a ∈ B, ∀ b ∈ B, lower a = lower b → a = b

/-- What a template is written for. -/
inductive Syntax where
  | html
  | xml

/-- An attribute as it is declared: the name and arguments given to its constructor. -/
inductive Decl where
  | plain (name : Bytes) (values : List Any)
  | boolean (name : Bytes)
  | delimited (name delimiter : Bytes) (values : List Any)

/-- `TidyWith P A B L K text n`: the node was built through the API with element names from `A`, attribute names from
`B`, attributes that satisfy `K` and harmless data; if `text`, it writes only text. Elements like `script` and `title`
have only text in them. Only for HTML may there be void elements, boolean attributes, comments and DOCTYPEs. -/
inductive TidyWith (P : Fns) (A B : List Bytes) (L : Syntax) (K : Decl → Prop) : (text : Bool) → Node → Prop
  | newElement (name contents h) : name ∈ A → lower name ∉ textNames →
      (∀ v ∈ contents, SafeArg v ∨ ∃ n, v = .node n) → (∀ n ∈ nodesIn contents, TidyWith P A B L K false n) →
      TidyWith P A B L K false (NewElement name contents h).1
  | newTextElement (name contents h) : name ∈ A → lower name ∈ textNames →
      (∀ v ∈ contents, SafeArg v ∨ ∃ n, v = .node n) → (∀ n ∈ nodesIn contents, TidyWith P A B L K true n) →
      TidyWith P A B L K false (NewElement name contents h).1
  | newVoidElement (name contents h) : L = .html → name ∈ A → lower name ∉ textNames →
      (∀ n ∈ nodesIn contents, TidyWith P A B L K false n) → TidyWith P A B L K false (NewVoidElement name contents h).1
  | newAttribute (text dl name values) : name ∈ B → K (.plain name values) → (∀ v ∈ values, SafeArg v) →
      TidyWith P A B L K text (NewAttribute dl name values)
  | newBooleanAttribute (text name) : L = .html → name ∈ B → K (.boolean name) →
      TidyWith P A B L K text (NewBooleanAttribute name)
  | newDelimitedAttribute (text name delimiter values h) : name ∈ B → K (.delimited name delimiter values) →
      MarkupSafe delimiter →
      (∀ v ∈ values, SafeArg v) → TidyWith P A B L K text (NewDelimitedAttribute name delimiter values h).1
  | text (text dl contents) : (∀ v ∈ contents, SafeArg v) → TidyWith P A B L K text (Text dl contents)
  | fragment (text dl contents) : (∀ v ∈ contents, SafeArg v) → TidyWith P A B L K text (Fragment dl contents)
  | comment (dl contents) : L = .html → (∀ v ∈ contents, SafeArg v) → TidyWith P A B L K false (Comment dl contents)
  | docType (dl) : L = .html → TidyWith P A B L K false (DocType dl)
  | collection (text nodes) : (∀ n, some n ∈ nodes → TidyWith P A B L K text n) → TidyWith P A B L K text (Collection nodes)
  | contentCollect (text f) : (∀ c n, some n ∈ P.collect f c → TidyWith P A B L K text n) →
      TidyWith P A B L K text (ContentCollect (some f))
  | conditional (text fn nodes n) : (∀ n, some n ∈ nodes → TidyWith P A B L K text n) → Conditional fn nodes = .val n →
      TidyWith P A B L K text n
  | when (text key nodes n) : (∀ n, some n ∈ nodes → TidyWith P A B L K text n) → When key nodes = .val n → TidyWith P A B L K text n
  | iterate (text fn nodes n) : (∀ n, some n ∈ nodes → TidyWith P A B L K text n) → Iterate fn nodes = .val n →
      TidyWith P A B L K text n
  | iterateKey (text key nodes n) : (∀ n, some n ∈ nodes → TidyWith P A B L K text n) → IterateKey key nodes = .val n →
      TidyWith P A B L K text n
  | iterateYield (text fn nodes n) : (∀ n, some n ∈ nodes → TidyWith P A B L K text n) → IterateYield fn nodes = .val n →
      TidyWith P A B L K text n
  /-- the function ends all elements it starts -/
  | imperative (f) : (∀ c d, .writeRaw d ∈ P.imp f c → MarkupSafe d) →
      (∀ c ns n, .writeNodes ns ∈ P.imp f c → some n ∈ ns → TidyWith P A B L K false n) →
      (∀ c name v attrs, .start name v attrs ∈ P.imp f c → name ∈ A ∧ lower name ∉ textNames ∧ (v = true → L = .html)) →
      (∀ c name v attrs n, .start name v attrs ∈ P.imp f c → some n ∈ attrs → TidyWith P A B L K false n) →
      (∀ c, openAfter (P.imp f c) [] = []) → TidyWith P A B L K false (Imperative (some f))
  | document (lang head body h) : L = .html → b%"html" ∈ A → b%"head" ∈ A → b%"body" ∈ A → b%"lang" ∈ B →
      K (.plain b%"lang" [lang]) → SafeArg lang →
      (∀ v ∈ head ++ body, SafeArg v ∨ ∃ n, v = .node n) → (∀ n ∈ nodesIn head, TidyWith P A B L K false n) →
      (∀ n ∈ nodesIn body, TidyWith P A B L K false n) → TidyWith P A B L K false (Document lang head body h).1

/-- `TidyWith` with any attributes. -/
abbrev Tidy (P : Fns) (A B : List Bytes) (L : Syntax) : (text : Bool) → Node → Prop := TidyWith P A B L fun _ => True

mutual
/-- All element names of a tree are in `A`, all attribute names in `B`. -/
def Within (A B : List Bytes) : Tree → Prop
  | .element name attrs children => name ∈ A ∧ (∀ a ∈ attrs, a.1 ∈ B) ∧ WithinAll A B children
  | .void name attrs => name ∈ A ∧ ∀ a ∈ attrs, a.1 ∈ B
  | _ => True
/-- `Within` for all trees. -/
def WithinAll (A B : List Bytes) : List Tree → Prop
  | [] => True
  | t :: ts => Within A B t ∧ WithinAll A B ts
end

end Aitch.Spec.Markup

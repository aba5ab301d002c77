import Verif.Model.NodeName
import Verif.Model.Html
import Verif.Proofs.Element
import Verif.Proofs.Tag
import Verif.Proofs.Built
import Verif.Spec.Names
import Verif.Spec.Sample
/-
C71: what nodes say about themselves.
-/
namespace Aitch.Props
open Spec

/-! ### C71 — Name and Type -/

/-- `NewElement` and `NewVoidElement` make element nodes with the given name. -/
theorem C71_newElement (name : Bytes) (contents : List Any) (h : Heap) :
    ((NewElement name contents h).1.name = name ∧ (NewElement name contents h).1.type = .element) ∧
    ((NewVoidElement name contents h).1.name = name ∧ (NewVoidElement name contents h).1.type = .element) := by
  obtain ⟨e, h', h1, h2⟩ := newElement_head name contents h
  have h3 := newElement_name h2
  rw [h1, h2]
  exact ⟨⟨h3, rfl⟩, h3, rfl⟩

/-- A node that `Element` or `VoidElement` returns is an element with the name asked for. -/
theorem C71_element {strict : Bool} {name : Bytes} {contents : List Any} {h h' : Heap} {n : Node}
    (hn : Element strict name contents h = .val (some n, h') ∨ VoidElement strict name contents h = .val (some n, h')) :
    n.name = name ∧ n.type = .element ∧ ValidName n.name := by
  have h1 := C71_newElement name contents h
  rcases hn with hn | hn
  · unfold Element at hn
    split at hn
    · rename_i hv
      have hv := (htmlTagMatch_iff name).1 hv
      simp only at hn
      split at hn
      · cases hn; exact ⟨h1.2.1, h1.2.2, h1.2.1.symm ▸ hv⟩
      · cases hn; exact ⟨h1.1.1, h1.1.2, h1.1.1.symm ▸ hv⟩
    · split at hn <;> cases hn
  · unfold VoidElement at hn
    split at hn
    · rename_i hv
      have hv := (htmlTagMatch_iff name).1 hv
      cases hn; exact ⟨h1.2.1, h1.2.2, h1.2.1.symm ▸ hv⟩
    · split at hn <;> cases hn

example := C71_element (n := (NewElement b%"p" [.str b%"x"] .empty).1) (h := .empty) (.inl (show
  Element true b%"p" [.str b%"x"] .empty = .val (some (NewElement b%"p" [.str b%"x"] .empty).1, _) from rfl))

/-- A node that `Attribute`, `BooleanAttribute` or `DelimitedAttribute` returns is an attribute with the name asked
for. -/
theorem C71_attribute {strict : Bool} {name delimiter : Bytes} {values : List Any} {dl : Nat → List Value} {h h' : Heap}
    {n : Node}
    (hn : Attribute strict dl name values = .val (some n) ∨ BooleanAttribute strict name = .val (some n) ∨
      DelimitedAttribute strict name delimiter values h = .val (some n, h')) :
    n.name = name ∧ n.type = .attrib ∧ ValidName n.name := by
  rcases hn with hn | hn | hn
  · unfold Attribute at hn
    split at hn
    · rename_i hv; cases hn; exact ⟨rfl, rfl, (htmlTagMatch_iff name).1 hv⟩
    · split at hn <;> cases hn
  · unfold BooleanAttribute at hn
    split at hn
    · rename_i hv; cases hn; exact ⟨rfl, rfl, (htmlTagMatch_iff name).1 hv⟩
    · split at hn <;> cases hn
  · unfold DelimitedAttribute at hn
    split at hn
    · rename_i hv; cases hn; exact ⟨rfl, rfl, (htmlTagMatch_iff name).1 hv⟩
    · split at hn <;> cases hn

example := C71_attribute (h := .empty) (h' := .empty) (dl := fun _ => []) (values := []) (delimiter := b%" ")
  (.inr (.inl (show BooleanAttribute true b%"hidden" = .val (some (NewBooleanAttribute b%"hidden")) from rfl)))

/-- The name of any other node is no valid name: it cannot be taken for an element or attribute. -/
theorem C71_others (n : Node) (he : n.type ≠ .element) (ha : n.type ≠ .attrib) : ¬ ValidName n.name := by
  have h1 : ∀ c cs, c ∉ letters → ¬ ValidName (c :: cs) := by
    rintro c cs hc ⟨d, ds, h, hd, -⟩
    cases h
    exact hc hd
  cases n with
  | element => exact (he rfl).elim
  | voidElement => exact (he rfl).elim
  | attr => exact (ha rfl).elim
  | _ => exact h1 _ _ (by decide)

/-- Two nodes of the same name that are neither elements nor attributes nor processing instructions have the same type. -/
theorem C71_kinds (n m : Node) (hn : n.type ∉ [.element, .attrib, .pi]) (hm : m.type ∉ [.element, .attrib, .pi])
    (h : n.name = m.name) : n.type = m.type := by
  cases n <;> cases m <;> first
    | rfl
    | (exfalso; apply hn; simp [Node.type]; done)
    | (exfalso; apply hm; simp [Node.type]; done)
    | (simp [Node.name] at h; done)

example (n : Node) (hn : n.type ∉ [.element, .attrib, .pi]) (h : n.name = b%"#text") : n.type = .text :=
  C71_kinds n (Text (fun _ => []) []) hn (by decide) h

/-- The types and names of all other nodes: those of the exported types, ... -/
theorem C71_exported (dl : Nat → List Value) (name : Bytes) (vs : List Any) (lang : Any) (head body : List Any) (h : Heap) :
    ((Text dl vs).type = .text ∧ (Text dl vs).name = b%"#text") ∧
    ((Comment dl vs).type = .comment ∧ (Comment dl vs).name = b%"#comment") ∧
    ((Fragment dl vs).type = .fragment ∧ (Fragment dl vs).name = b%"#fragment") ∧
    ((PI dl name vs).type = .pi ∧ (PI dl name vs).name = b%"!" ++ name) ∧
    ((DocType dl).type = .pi ∧ (DocType dl).name = b%"!DOCTYPE") ∧
    ((Document lang head body h).1.type = .document ∧ (Document lang head body h).1.name = b%"#document") :=
  ⟨⟨rfl, rfl⟩, ⟨rfl, rfl⟩, ⟨rfl, rfl⟩, ⟨rfl, rfl⟩, ⟨rfl, rfl⟩, rfl, rfl⟩

/-- ... and those that are for collections, collectors, conditions, iterations and imperative nodes. -/
theorem C71_inner (f : FnId) (of : Option FnId) (key : Bytes) (ns : List (Option Node)) :
    ((Collection ns).type = .collection ∧ (Collection ns).name = b%"#collection") ∧
    ((ContentCollect none).type = .collection ∧ (ContentCollect none).name = b%"#collection") ∧
    ((ContentCollect (some f)).type = .dynamic ∧ (ContentCollect (some f)).name = b%"#collector") ∧
    (∀ n, Conditional none ns = .val n → n.type = .collection ∧ n.name = b%"#collection") ∧
    (∀ n, Conditional (some f) ns = .val n ∨ When key ns = .val n → n.type = .conditional ∧ n.name = b%"#conditional") ∧
    (∀ n, Iterate of ns = .val n ∨ IterateKey key ns = .val n → n.type = .iterator ∧ n.name = b%"!iterator") ∧
    (∀ n, IterateYield of ns = .val n → n.type = .iterator ∧ n.name = b%"!yield_iterator") ∧
    ((Imperative of).type = .imperative ∧ (Imperative of).name = b%"!imperative") := by
  have h1 : ∀ (c : Cond) n, mkConditional c ns = .val n → n.type = .conditional ∧ n.name = b%"#conditional" := by
    intro c n hn
    unfold mkConditional at hn
    split at hn <;> cases hn
    exact ⟨rfl, rfl⟩
  refine ⟨⟨rfl, rfl⟩, ⟨rfl, rfl⟩, ⟨rfl, rfl⟩, ?_, ?_, ?_, ?_, rfl, rfl⟩
  · rintro n hn; cases hn; exact ⟨rfl, rfl⟩
  · rintro n (hn | hn)
    · exact h1 _ _ hn
    · unfold When at hn
      split at hn
      · exact h1 _ _ hn
      · split at hn <;> exact h1 _ _ hn
  · rintro n (hn | hn)
    · unfold Iterate at hn
      split at hn
      · cases hn
      · split at hn <;> cases hn
        exact ⟨rfl, rfl⟩
    · unfold IterateKey at hn
      split at hn <;> cases hn
      exact ⟨rfl, rfl⟩
  · rintro n hn
    unfold IterateYield at hn
    split at hn
    · cases hn
    · split at hn <;> cases hn
      exact ⟨rfl, rfl⟩

/-- An element node writes a start tag of its name. -/
theorem C71_tag {P : Fns} (F : BuiltFns P) (c : Ctx) (he : c.frame.err = none) {n : Node} (hb : Built n)
    (ht : n.type = .element) {w : Bytes} (hr : Renders P c n w) :
    ∃ w', w = b%"<" ++ n.name ++ w' ∧ (w'.head? = some c%' ' ∨ w'.head? = some c%'>') := by
  rw [hb.renders_iff F he] at hr
  have h1 : ∀ (l : List Shown) (rest : Bytes), (l.flatMap Shown.bytes ++ (b%">" ++ rest)).head? = some c%' ' ∨
      (l.flatMap Shown.bytes ++ (b%">" ++ rest)).head? = some c%'>' := by
    intro l rest
    cases l with
    | nil => exact .inr rfl
    | cons x l =>
      obtain ⟨n, v⟩ := x
      cases v <;> exact .inl rfl
  cases hr with
  | @element _ h contents l w hs hc =>
    exact ⟨l.flatMap Shown.bytes ++ (b%">" ++ (w ++ endBytes h.name)), by simp [tagBytes, Node.name], h1 _ _⟩
  | @voidElement _ h l hs =>
    exact ⟨l.flatMap Shown.bytes ++ (b%">" ++ []), by simp [tagBytes, Node.name], h1 _ _⟩
  | _ => cases ht

example := C71_tag Sample.built Sample.ctx rfl (.newElement b%"p" [.str b%"x"] .empty (by simp [nodesIn])) rfl (w := b%"<p>x</p>")
  ⟨Sample.env, Sample.healthy, Sample.computes, Sample.st, _, rfl, ⟨2, rfl⟩, rfl⟩

/-- An attribute node writes its name after a space, and a value or nothing after it. -/
theorem C71_attr {P : Fns} (F : BuiltFns P) (c : Ctx) (he : c.frame.err = none) {n : Node} (hb : Built n)
    (ht : n.type = .attrib) {w : Bytes} (hr : Renders P c n w) :
    ∃ w', w = b%" " ++ n.name ++ w' ∧ (w' = [] ∨ b%"=\"" <+: w') := by
  rw [hb.renders_iff F he] at hr
  cases hr with
  | @attr _ a =>
    cases a with
    | plain n vs => exact ⟨b%"=\"" ++ (valuesBytes P c vs ++ b%"\""), by simp [Shown.bytes, shown, Node.name, Attr.name],
        .inr (List.prefix_append _ _)⟩
    | bool n => exact ⟨[], by simp [Shown.bytes, shown, Node.name, Attr.name], .inl rfl⟩
    | delim n d r => exact ⟨b%"=\"" ++ (_ ++ b%"\""), by simp [Shown.bytes, shown, Node.name, Attr.name]; rfl,
        .inr (List.prefix_append _ _)⟩
  | _ => cases ht

example := C71_attr Sample.built Sample.ctx rfl (.newBooleanAttribute b%"hidden") rfl (w := b%" hidden")
  ⟨Sample.env, Sample.healthy, Sample.computes, Sample.st, _, rfl, ⟨2, rfl⟩, rfl⟩

/-- An element with an attribute. -/
example : ∃ n h', Element false b%"p" [.node (NewBooleanAttribute b%"hidden")] .empty = .val (some n, h') ∧ Built n ∧
    n.name = b%"p" ∧ Writes Sample.env n Sample.st b%"<p hidden></p>" := by
  refine ⟨_, _, rfl, ?_, rfl, _, ⟨1, rfl⟩, rfl, rfl⟩
  refine .newElement b%"p" [.node (NewBooleanAttribute b%"hidden")] .empty fun n hn => ?_
  cases List.mem_singleton.1 hn
  exact .newBooleanAttribute _

example : ¬ ValidName (Imperative (some 0)).name := C71_others _ (by decide) (by decide)

end Aitch.Props

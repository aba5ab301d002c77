import Verif.Spec.Source
import Verif.Proofs.GenEval
import Verif.Proofs.Markup
/-
What the nodes of a source tree write.
-/
namespace Aitch

open Spec Markup

theorem part_bytes (P : Fns) (c : Ctx) (dl : Nat → List Value) (p : Part) (h : p.HasString c) :
    valuesBytes P c (newValue dl p.arg) = escaped (p.string c) := by
  cases p with
  | lit s => simp [Part.arg, newValue, valuesBytes, valueBytes, valueToBytes, escaped_eq, Part.string]
  | key k =>
    have e : valuesBytes P c (newValue dl (Part.key k).arg) = match keyValue c k with
        | some v => valueToBytes v
        | none => [] := by
      simp only [Part.arg, newValue]
      unfold keyValue
      by_cases hk : k = b%"."
      · simp only [if_pos hk, valuesBytes, valueBytes, dynBytes, List.append_nil]
      · simp only [if_neg hk, valuesBytes, valueBytes, dynBytes, List.append_nil]
        rfl
    rw [e]
    simp only [Part.string]
    simp only [Part.HasString] at h
    split at h <;> rename_i hs
    · rw [hs]; simp [valueToBytes, escaped_eq]
    · rw [hs]; rfl
    · rw [hs]; rfl
    · exact h.elim

theorem newValues_part (dl : Nat → List Value) (p : Part) (vs : List Any) :
    newValues dl (p.arg :: vs) = newValue dl p.arg ++ newValues dl vs := newValues_cons ..

theorem parts_bytes (P : Fns) (c : Ctx) (dl : Nat → List Value) (ps : List Part) (h : ∀ p ∈ ps, p.HasString c) :
    valuesBytes P c (newValues dl (ps.map Part.arg)) = escaped (stringOf c ps) := by
  induction ps with
  | nil => rfl
  | cons p ps ih =>
    rw [List.map_cons, newValues_part, valuesBytes_append, part_bytes P c dl p (h p (.head _)),
      ih fun q hq => h q (.tail _ hq)]
    exact (escaped_append _ _).symm

theorem parts_plain (ps : List Part) : ∀ v ∈ ps.map Part.arg, Plain v := by
  intro v hv
  obtain ⟨p, _, rfl⟩ := List.mem_map.1 hv
  cases p <;> trivial

/-- The attribute that is built. -/
def srcAttr (h : Heap) : Bytes × Option (List Part) → Attr
  | (n, some ps) => .plain n (newValues h.dl (ps.map Part.arg))
  | (n, none) => .bool n

theorem buildAttr_eq (h : Heap) (a : Bytes × Option (List Part)) : buildAttr h a = .attr (srcAttr h a) := by
  obtain ⟨n, _ | ps⟩ := a <;> rfl

theorem srcAttr_name (h : Heap) (a : Bytes × Option (List Part)) : (srcAttr h a).name = a.1 := by
  obtain ⟨n, _ | ps⟩ := a <;> rfl

theorem srcAttr_shown (P : Fns) (c : Ctx) (h : Heap) (a : Bytes × Option (List Part))
    (hs : ∀ p ∈ a.2.getD [], p.HasString c) :
    (shown P c (srcAttr h a)).bytes = Markup.writeAttr (attrOf c a) := by
  obtain ⟨n, _ | ps⟩ := a
  · rfl
  · simp only [srcAttr, shown, Shown.bytes, attrOf, Option.map_some, Markup.writeAttr]
    rw [parts_bytes P c h.dl ps (by simpa using hs)]

theorem srcAttr_uses (h : Heap) (ρ : Nat → Prop) (a : Bytes × Option (List Part)) : AttrUses noUse ρ (srcAttr h a) := by
  obtain ⟨n, _ | ps⟩ := a
  · trivial
  · exact valuesUse_plain (parts_plain ps)

/-- A built node: it brings no attributes to its parent, is well-formed, calls nothing and writes exactly `w` in `c`. -/
structure Made (c : Ctx) (n : Node) (w : Bytes) : Prop where
  leaf : carries n = false
  wf : WF n
  free : ∀ dl, CallbackFree dl n
  out : ∀ P w', Out P c n w' ↔ w' = w

/-- The same for a list. -/
structure MadeAll (c : Ctx) (ns : List Node) (w : Bytes) : Prop where
  leaf : ∀ n ∈ ns, carries n = false
  wf : ∀ n ∈ ns, WF n
  free : ∀ dl, ∀ n ∈ ns, CallbackFree dl n
  out : ∀ P w', OutAll P c ns w' ↔ w' = w

theorem madeNil (c : Ctx) : MadeAll c [] [] :=
  ⟨by simp, by simp, by simp, fun P w' => ⟨fun h => by cases h; rfl, by rintro rfl; exact .nil⟩⟩

theorem madeCons {c : Ctx} {n : Node} {ns : List Node} {w w' : Bytes} (h1 : Made c n w) (h2 : MadeAll c ns w') :
    MadeAll c (n :: ns) (w ++ w') := by
  refine ⟨?_, ?_, ?_, fun P v => ⟨?_, ?_⟩⟩
  · simpa using ⟨h1.leaf, h2.leaf⟩
  · simpa using ⟨h1.wf, h2.wf⟩
  · intro dl; simpa using ⟨h1.free dl, h2.free dl⟩
  · intro h
    cases h with
    | cons a b => rw [(h1.out P _).1 a, (h2.out P _).1 b]
  · rintro rfl
    exact .cons ((h1.out P _).2 rfl) ((h2.out P _).2 rfl)

theorem srcAttrs_nodup {c : Ctx} (h : Heap) {attrs : List (Bytes × Option (List Part))}
    (ha : ((attrs.map (attrOf c)).map fun a => a.1).Nodup) : ((attrs.map (srcAttr h)).map Attr.name).Nodup := by
  simp only [List.map_map] at ha ⊢
  have e : (Attr.name ∘ srcAttr h) = ((fun a => a.1) ∘ attrOf c) := by
    funext a; simp [srcAttr_name, attrOf]
  rw [e]; exact ha

theorem srcAttrs_shown (P : Fns) (c : Ctx) (h : Heap) {attrs : List (Bytes × Option (List Part))} (hs : AttrStrings c attrs) :
    ((attrs.map (srcAttr h)).map (shown P c)).flatMap Shown.bytes = (attrs.map (attrOf c)).flatMap Markup.writeAttr := by
  induction attrs with
  | nil => rfl
  | cons a attrs ih =>
    simp only [List.map_cons, List.flatMap_cons]
    rw [srcAttr_shown P c h a (hs a (.head _)), ih fun b hb => hs b (.tail _ hb)]

theorem made_tag {P : Fns} {c : Ctx} {h : Heap} {e : ElemHead} {name : Bytes} {attrs : List (Bytes × Option (List Part))}
    (h1 : e.name = name) (h2 : e.attributes = attrs.map (srcAttr h)) (h3 : e.conditionals = [])
    (hs : AttrStrings c attrs) :
    (∀ l, TagShows P c e l ↔ l = e.attributes.map (shown P c)) ∧
      tagBytes e.name (e.attributes.map (shown P c)) = writeTag name (attrs.map (attrOf c)) := by
  refine ⟨fun l => by simp [TagShows, h3, active], ?_⟩
  unfold tagBytes writeTag
  rw [h1, h2, srcAttrs_shown P c h hs]

theorem made_head {h : Heap} {e : ElemHead} {attrs : List (Bytes × Option (List Part))}
    (h2 : e.attributes = attrs.map (srcAttr h)) (h3 : e.conditionals = []) (ρ : Nat → Prop) : HeadUses noUse ρ e := by
  refine ⟨?_, by rw [h3]; simp⟩
  rw [h2]
  intro a ha
  obtain ⟨b, _, rfl⟩ := List.mem_map.1 ha
  exact srcAttr_uses h ρ b

theorem buildArgs_eq (h : Heap) (attrs : List (Bytes × Option (List Part))) (ns : List Node) :
    attrs.map (fun a => Any.node (buildAttr h a)) ++ ns.map Any.node = argsOf (attrs.map (srcAttr h)) ns := by
  unfold argsOf
  rw [List.map_map]
  congr 2
  funext a
  simp [buildAttr_eq]

mutual
theorem madeNamed {c : Ctx} (h : Heap) : (t : Src) → Strings c t → Named (treeOf c t) →
    Made c (build h t) (write (treeOf c t))
  | .element name attrs children, hs, hp => by
    have hc : MadeAll c (buildAll h children) (writeAll (treesOf c children)) := madeAllNamed h children hs.2 hp.2.2.2
    obtain ⟨e, n1, _, n3, n4, n5, n6⟩ := newElement_distinct name (srcAttrs_nodup h hp.2.2.1) hc.leaf h
    unfold build treeOf write
    rw [buildArgs_eq, n1]
    refine ⟨rfl, ⟨n6, (wfAll_iff _).2 hc.wf⟩,
      fun dl => ⟨made_head n4 n5 _, (nodesUse_iff _).2 (hc.free dl)⟩, fun P w' => ?_⟩
    obtain ⟨ht, hb⟩ := made_tag (P := P) n3 n4 n5 hs.1
    constructor
    · intro ho
      cases ho with
      | element h1 h2 => rw [(ht _).1 h1, hb, (hc.out P _).1 h2]; simp [endBytes, n3]
    · rintro rfl
      have := Out.element (P := P) (c := c) ((ht _).2 rfl) ((hc.out P _).2 rfl)
      rw [hb] at this
      simpa [endBytes, n3] using this
  | .void name attrs, hs, hp => by
    obtain ⟨e, _, n2, n3, n4, n5, n6⟩ :=
      newElement_distinct name (srcAttrs_nodup h hp.2.2) (ns := []) (by simp) h
    unfold build treeOf write
    have := buildArgs_eq h attrs []
    rw [List.map_nil, List.append_nil] at this
    rw [this, n2]
    refine ⟨rfl, n6, fun dl => made_head n4 n5 _, fun P w' => ?_⟩
    obtain ⟨ht, hb⟩ := made_tag (P := P) n3 n4 n5 hs
    constructor
    · intro ho
      cases ho with
      | voidElement h1 => rw [(ht _).1 h1, hb]
    · rintro rfl
      have := Out.voidElement (P := P) (c := c) ((ht _).2 rfl)
      rwa [hb] at this
  | .text ps, hs, _ => madeText h ps hs
  | .comment ps, hs, _ => by
    unfold build treeOf write
    refine ⟨rfl, trivial, fun dl => valuesUse_plain (parts_plain ps), fun P w' => ?_⟩
    constructor
    · intro ho; cases ho with | comment => rw [parts_bytes P c h.dl ps hs]
    · rintro rfl; rw [← parts_bytes P c h.dl ps hs]; exact .comment
theorem madeText {c : Ctx} (h : Heap) (ps : List Part) (hs : ∀ p ∈ ps, p.HasString c) :
    Made c (build h (.text ps)) (write (treeOf c (.text ps))) := by
  unfold build treeOf write
  refine ⟨rfl, trivial, fun dl => valuesUse_plain (parts_plain ps), fun P w' => ?_⟩
  constructor
  · intro ho; cases ho with | text => rw [parts_bytes P c h.dl ps hs]
  · rintro rfl; rw [← parts_bytes P c h.dl ps hs]; exact .text
theorem madeAllNamed {c : Ctx} (h : Heap) : (ts : List Src) → StringsAll c ts → NamedAll (treesOf c ts) →
    MadeAll c (buildAll h ts) (writeAll (treesOf c ts))
  | [], _, _ => madeNil c
  | t :: ts, hs, hp => madeCons (madeNamed h t hs.1 hp.1) (madeAllNamed h ts hs.2 hp.2)
end

theorem made {c : Ctx} (h : Heap) (t : Src) (hs : Strings c t) (hp : Proper (treeOf c t)) :
    Made c (build h t) (write (treeOf c t)) := madeNamed h t hs (Proper.named _ hp)

theorem madeAll {c : Ctx} (h : Heap) (ts : List Src) (hs : StringsAll c ts) (hp : ProperAll (treesOf c ts)) :
    MadeAll c (buildAll h ts) (writeAll (treesOf c ts)) := madeAllNamed h ts hs (properAll_named _ hp)

theorem escaped_simple {s : Bytes} (h : Simple s) : escaped s = seen s := by
  induction s with
  | nil => rfl
  | cons c s ih =>
    have hc := h c (.head _)
    have hs : escapedByte c = if c = 0 then [] else [c] := by
      simp only [List.mem_cons, List.not_mem_nil, or_false, not_or] at hc
      unfold escapedByte
      rw [if_neg hc.2.2.2.1, if_neg hc.2.2.2.2, if_neg hc.2.2.1, if_neg hc.1, if_neg hc.2.1]
    have e1 : escaped (c :: s) = escapedByte c ++ escaped s := rfl
    have e2 : seen (c :: s) = (if c = 0 then [] else [c]) ++ seen s := by
      unfold seen; rw [List.filter_cons]; split <;> split <;> simp_all
    rw [e1, e2, hs, ih fun d hd => h d (.tail _ hd)]

mutual
theorem toks_meant (raw : Bool) : (t : Tree) → Literal raw t → toks raw t = meant t
  | .element name attrs children, h => by
    unfold toks meant
    rw [toksAll_meant _ children h]
  | .void .., _ => rfl
  | .text s, h => by
    unfold toks meant
    split
    · rename_i hr; rw [escaped_simple (h hr)]
    · rfl
  | .comment s, h => by unfold toks meant; rw [escaped_simple h]
  | .doctype s, h => by unfold toks meant; rw [escaped_simple h]
theorem toksAll_meant (raw : Bool) : (ts : List Tree) → LiteralAll raw ts → toksAll raw ts = meantAll ts
  | [], _ => rfl
  | t :: ts, h => by unfold toksAll meantAll; rw [toks_meant raw t h.1, toksAll_meant raw ts h.2]
end

end Aitch

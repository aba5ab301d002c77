import Verif.Spec.StreamMade
import Verif.Proofs.StreamClean
import Verif.Proofs.Built
/-
The constructors make nodes that keep to the rules of C110.
-/
namespace Aitch.Stream
open Spec Spec.Stream Markup

variable {Q : Rules}

/-! ### Values -/

theorem neatValues_append {p : Spot} {a b : List Value} (ha : NeatValues Q p a) (hb : NeatValues Q p b) :
    NeatValues Q p (a ++ b) := by
  rw [neatValues_iff] at *
  intro v hv
  rcases List.mem_append.1 hv with h | h
  · exact ha v h
  · exact hb v h

theorem neat_newValue {p : Spot} (dl : Nat → List Value) (v : Any) (h : NeatArg Q p v) : NeatValues Q p (newValue dl v) := by
  cases v with
  | nil => trivial
  | value v => exact ⟨h, trivial⟩
  | dynFunc _ f =>
    cases f with
    | none => exact ⟨fits_nil p, trivial⟩
    | some f => exact ⟨h, trivial⟩
  | dynKey k =>
    simp only [newValue]
    split <;> exact ⟨h.1, trivial⟩
  | node n => exact h.elim
  | _ => exact ⟨fits_esc h.1 (esc_data _ h.2), trivial⟩

theorem neat_newValues {p : Spot} (dl : Nat → List Value) (vs : List Any) (h : ∀ v ∈ vs, NeatArg Q p v) :
    NeatValues Q p (newValues dl vs) := by
  induction vs with
  | nil => trivial
  | cons v vs ih =>
    rw [Aitch.newValues_cons]
    exact neatValues_append (neat_newValue dl v (h v (.head _))) (ih fun w hw => h w (.tail _ hw))

/-! ### Conditions -/

/-- All conditions in the arrays satisfy `K`. -/
def HeapConds (K : Cond → Prop) (hp : CondHeap) : Prop := ∀ a, ∀ c ∈ hp.arrs a, K c

theorem heapConds_append {K : Cond → Prop} {cs : CondSlice} {fn : Cond} {hp : CondHeap} (h : HeapConds K hp) (hf : K fn) :
    HeapConds K (condAppend cs fn hp).2 := by
  unfold condAppend
  split
  · intro a c hc
    dsimp only at hc
    split at hc
    · rcases List.mem_append.1 hc with hc | hc
      · exact h a c (List.mem_of_mem_take hc)
      · rcases List.mem_cons.1 hc with rfl | hc
        · exact hf
        · exact h a c (List.mem_of_mem_drop hc)
    · exact h a c hc
  · intro a c hc
    dsimp only at hc
    split at hc
    · rcases List.mem_append.1 hc with hc | hc
      · exact h _ c (List.mem_of_mem_take hc)
      · rw [List.mem_singleton.1 hc]; exact hf
    · exact h a c hc

mutual
theorem heapConds_item {K : Cond → Prop} : (n : Node) → CondsIn K n → (cs : CondSlice) → (hp : CondHeap) → HeapConds K hp →
    HeapConds K (splitItem cs n hp).2
  | .attr a, _, cs, hp, h => by
    unfold splitItem
    split <;> exact h
  | .collection ns, hn, cs, hp, h => by
    have := heapConds_items ns (by simpa [CondsIn] using hn) cs hp h
    unfold splitItem
    exact this
  | .conditional ns as fn, hn, cs, hp, h => by
    unfold CondsIn at hn
    have := heapConds_items ns hn.2 (condAppend cs fn hp).1 (condAppend cs fn hp).2 (heapConds_append h hn.1)
    unfold splitItem
    exact this
  | .element _ _, _, _, _, h | .voidElement _, _, _, _, h | .text _, _, _, _, h | .comment _, _, _, _, h
  | .fragment _, _, _, _, h | .pi _ _, _, _, _, h | .collector _, _, _, _, h | .imperative _, _, _, _, h
  | .iterator _ _, _, _, _, h | .yieldIterator _ _, _, _, _, h | .document _ _, _, _, _, h => by
    unfold splitItem
    exact h
theorem heapConds_items {K : Cond → Prop} : (ns : List Node) → CondsInAll K ns → (cs : CondSlice) → (hp : CondHeap) →
    HeapConds K hp → HeapConds K (splitItems cs ns hp).2
  | [], _, _, _, h => by unfold splitItems; exact h
  | n :: ns, hn, cs, hp, h => by
    unfold CondsInAll at hn
    have := heapConds_items ns hn.2 cs _ (heapConds_item n hn.1 cs hp h)
    unfold splitItems
    exact this
end

/-- The conditions of conditional attributes are conditions of the nodes. -/
theorem conds_attributes {K : Cond → Prop} {ns : List Node} (h : CondsInAll K ns) :
    ∀ ca ∈ (attributesAndContents ns).2.1, ∀ k ∈ ca.conditions, K k := by
  intro ca hca k hk
  unfold attributesAndContents at hca
  obtain ⟨p, _, rfl⟩ := List.mem_map.1 hca
  exact heapConds_items ns h ⟨0, 0, 0⟩ ⟨fun _ => [], 1⟩ (by intro a c hc; cases hc) _ k (List.mem_of_mem_take hk)

/-! ### Elements -/

theorem asNode_text (dl : Nat → List Value) {v : Any} (h : ¬ ∃ n, v = .node n) : asNode dl v = .text (newValues dl [v]) := by
  cases v <;> first | rfl | exact (h ⟨_, rfl⟩).elim

theorem declaredAll_asNode (dl : Nat → List Value) (contents : List Any) :
    declaredAll [] (contents.map (asNode dl)) = declaredAll [] (nodesIn contents) := by
  induction contents with
  | nil => rfl
  | cons v vs ih =>
    by_cases h : ∃ n, v = .node n
    · obtain ⟨n, rfl⟩ := h
      simp only [List.map_cons, declaredAll, ih]
      rfl
    · have e : nodesIn (v :: vs) = nodesIn vs := by
        cases v <;> first | rfl | exact (h ⟨_, rfl⟩).elim
      rw [List.map_cons, asNode_text dl h, e, ← ih]
      simp [declaredAll, declared]

theorem condsIn_asNode {K : Cond → Prop} (dl : Nat → List Value) (contents : List Any) (h : CondsInAll K (nodesIn contents)) :
    CondsInAll K (contents.map (asNode dl)) := by
  induction contents with
  | nil => trivial
  | cons v vs ih =>
    by_cases hv : ∃ n, v = .node n
    · obtain ⟨n, rfl⟩ := hv
      have h' : CondsIn K n ∧ CondsInAll K (nodesIn vs) := h
      exact ⟨h'.1, ih h'.2⟩
    · have e : nodesIn (v :: vs) = nodesIn vs := by
        cases v <;> first | rfl | exact (hv ⟨_, rfl⟩).elim
      rw [e] at h
      rw [List.map_cons, asNode_text dl hv]
      exact ⟨by simp [CondsIn], ih h⟩

theorem separate_asNode (dl : Nat → List Value) (contents : List Any) (h : SeparateAll 0 (nodesIn contents)) :
    SeparateAll 0 (contents.map (asNode dl)) := by
  induction contents with
  | nil => trivial
  | cons v vs ih =>
    by_cases hv : ∃ n, v = .node n
    · obtain ⟨n, rfl⟩ := hv
      have h' : Separate 0 n ∧ SeparateAll 0 (nodesIn vs) := h
      exact ⟨h'.1, ih h'.2⟩
    · have e : nodesIn (v :: vs) = nodesIn vs := by
        cases v <;> first | rfl | exact (hv ⟨_, rfl⟩).elim
      rw [e] at h
      rw [List.map_cons, asNode_text dl hv]
      exact ⟨trivial, ih h⟩

theorem neat_head {name : Bytes} {contents : List Any} {dl : Nat → List Value} {e : ElemHead} (hn : name ∈ Q.elements)
    (h : NeatAttrs Q (nodesIn contents)) (hm : Merged (staticAttrs (contents.map (asNode dl))) e)
    (hc : e.conditionals = (attributesAndContents (contents.map (asNode dl))).2.1) (he : e.name = name) : NeatHead Q e := by
  have hd : ∀ d ∈ declaredAll [] (contents.map (asNode dl)), NeatAttr Q d.1 := by
    rw [declaredAll_asNode]; exact h.attrs
  refine ⟨he ▸ hn, hm.wf.2, fun a ha => ?_, fun ca hca => ?_⟩
  · have := chosen_mem (hm.att a ha)
    have := (List.mem_filter.1 this).1
    obtain ⟨d, hd', rfl⟩ := List.mem_map.1 this
    exact hd d (List.mem_filter.1 hd').1
  · rw [hc] at hca
    have hmem := List.mem_map_of_mem (f := (·.att)) hca
    rw [(attributesAndContents_shape _).2.1] at hmem
    obtain ⟨ca', hca', hx'⟩ := List.mem_map.1 hmem
    obtain ⟨d, hd', rfl⟩ := List.mem_map.1 hca'
    refine ⟨by rw [← hx']; exact hd d (List.mem_filter.1 hd').1, ?_⟩
    rcases h.conds with ⟨hs, hk⟩ | hk | hk
    · rw [attributesAndContents_conds (separate_asNode dl contents hs)] at hca
      obtain ⟨d', hd', rfl⟩ := List.mem_map.1 hca
      have := (List.mem_filter.1 hd').1
      rw [declaredAll_asNode] at this
      exact hk d' this
    · exact conds_attributes (condsIn_asNode dl contents hk) ca hca
    · have := (List.mem_filter.1 hd')
      rw [declaredAll_asNode] at this
      simp [hk d this.1] at this

theorem neat_addAttributes : (as : List Attr) → (e : ElemHead) → (dl : Nat → List Value) →
    (∀ r, NeatValues Q .text (dl r)) → ∀ r, NeatValues Q .text ((addAttributes as e dl).2 r)
  | [], _, _, hd => hd
  | a :: as, e, dl, hd => by
    have ih := neat_addAttributes as
    have hupd : ∀ r r', ∀ q, NeatValues Q .text (upd dl r (dl r ++ dl r') q) := by
      intro r r' q
      unfold upd
      split
      · exact neatValues_append (hd _) (hd _)
      · exact hd q
    unfold addAttributes
    split
    · split
      · exact ih _ _ (hupd _ _)
      · exact ih _ _ hd
    · exact ih _ _ hd

theorem neat_args {p : Spot} {contents : List Any} (dl : Nat → List Value) (h : NeatContents Q p contents) :
    ∀ n ∈ nonAttrs (contents.map (asNode dl)), Neat Q p n := by
  intro n hn
  obtain ⟨v, hv, rfl⟩ := List.mem_map.1 (List.mem_filter.1 hn).1
  by_cases hx : ∃ m, v = .node m
  · obtain ⟨m, rfl⟩ := hx
    exact h.nodes m (List.mem_filterMap.2 ⟨_, hv, rfl⟩)
  · rw [asNode_text dl hx]
    refine .text (neat_newValues dl [v] ?_)
    intro w hw
    rw [List.mem_singleton.1 hw]
    exact (h.values v hv).resolve_right hx

/-- What a constructor leaves: a node that may stand there, and memory as before. -/
def Good (Q : Rules) (p : Spot) (x : Node × Heap) : Prop := Neat Q p x.1 ∧ ∀ r, NeatValues Q .text (x.2.dl r)

theorem neat_newElement {name : Bytes} {contents : List Any} {h : Heap} (hd : ∀ r, NeatValues Q .text (h.dl r))
    (hn : name ∈ Q.elements) (hs : (lower name ∉ textNames ∧ NeatContents Q .content contents) ∨
      (lower name ∈ textNames ∧ NeatContents Q .text contents)) : Good Q .content (NewElement name contents h) := by
  obtain ⟨e, dl, e1, e2⟩ := newElement_eq name contents h
  have hm := addAttributes_merged (staticAttrs (contents.map (asNode h.dl))) name
    (attributesAndContents (contents.map (asNode h.dl))).2.1 h.dl
  have hx := neat_addAttributes (Q := Q) (staticAttrs (contents.map (asNode h.dl)))
    ⟨name, [], [], (attributesAndContents (contents.map (asNode h.dl))).2.1⟩ h.dl hd
  rw [e2] at hm hx
  rw [e1]
  have hna : ∀ n ∈ nonAttrs (contents.map (asNode h.dl)), n.isAttr = false := by
    intro n hn; simpa using (List.mem_filter.1 hn).2
  refine ⟨?_, hx⟩
  rcases hs with ⟨ht, hc⟩ | ⟨ht, hc⟩
  · exact .element (neat_head hn hc.attrs hm.1 hm.2.2 hm.2.1) (by rw [hm.2.1]; exact ht) hna (neat_args h.dl hc)
  · exact .textElement (neat_head hn hc.attrs hm.1 hm.2.2 hm.2.1) (by rw [hm.2.1]; exact ht) hna (neat_args h.dl hc)

theorem neat_newVoidElement {name : Bytes} {contents : List Any} {h : Heap} (hd : ∀ r, NeatValues Q .text (h.dl r))
    (hn : name ∈ Q.elements) (ht : lower name ∉ textNames) (hc : NeatAttrs Q (nodesIn contents)) :
    Good Q .content (NewVoidElement name contents h) := by
  obtain ⟨e, dl, e1, e2⟩ := newVoidElement_eq name contents h
  have hm := addAttributes_merged (staticAttrs (contents.map (asNode h.dl))) name
    (attributesAndContents (contents.map (asNode h.dl))).2.1 h.dl
  have hx := neat_addAttributes (Q := Q) (staticAttrs (contents.map (asNode h.dl)))
    ⟨name, [], [], (attributesAndContents (contents.map (asNode h.dl))).2.1⟩ h.dl hd
  rw [e2] at hm hx
  rw [e1]
  exact ⟨.voidElement (neat_head hn hc hm.1 hm.2.2 hm.2.1) (by rw [hm.2.1]; exact ht), hx⟩

theorem neat_mkConditional {p : Spot} {fn : Cond} {nodes : List (Option Node)} {n : Node} (hf : NeatCond Q p fn)
    (h : ∀ n, some n ∈ nodes → Neat Q p n) (e : mkConditional fn nodes = .val n) : Neat Q p n := by
  unfold mkConditional at e
  split at e
  · cases e
  · rename_i ns as hs
    cases e
    have := condSplit_mem hs
    exact .conditional hf (fun n hn => (this.1 n hn).1) fun n hn => h n (this.1 n hn).2

/-! ### Documents -/

theorem declared_element (cs : List Cond) (name : Bytes) (contents : List Any) (h : Heap) :
    declared cs (NewElement name contents h).1 = [] := by
  obtain ⟨e, dl, e1, _⟩ := newElement_eq name contents h
  rw [e1]; simp [declared]

theorem neat_headArg {head : List Any} {h : Heap} (hd : ∀ r, NeatValues Q .text (h.dl r)) (hn : b%"head" ∈ Q.elements)
    (hc : NeatContents Q .content head) :
    ((headArg head h).1 = .nil ∨ ∃ n, (headArg head h).1 = .node n ∧ Neat Q .content n ∧ declared [] n = []) ∧
      ∀ r, NeatValues Q .text ((headArg head h).2.dl r) := by
  unfold headArg
  split
  · exact ⟨.inl rfl, hd⟩
  · have := neat_newElement hd hn (.inl ⟨by decide, hc⟩)
    exact ⟨.inr ⟨_, rfl, this.1, declared_element ..⟩, this.2⟩

theorem langArg_eq (dl : Nat → List Value) (lang : Any) :
    langArg dl lang = .nil ∨ langArg dl lang = .node (NewAttribute dl b%"lang" [lang]) := by
  cases lang <;> simp [langArg, Lang]

theorem neat_lang {lang : Any} (dl : Nat → List Value) (hn : b%"lang" ∈ Q.attributes) (h : NeatArg Q .text lang) :
    NeatAttr Q (.plain b%"lang" (newValues dl [lang])) :=
  ⟨hn, neat_newValues dl [lang] (by simpa using h)⟩

theorem neat_html {lang : Any} {dl : Nat → List Value} {x : Any} {b : Node} (hn : b%"lang" ∈ Q.attributes)
    (hl : NeatArg Q .text lang) (hx : x = .nil ∨ ∃ n, x = .node n ∧ Neat Q .content n ∧ declared [] n = [])
    (hb : Neat Q .content b) (hbd : declared [] b = []) : NeatContents Q .content [langArg dl lang, x, .node b] := by
  have hlang := neat_lang dl hn hl
  have hnil : NeatArg Q .content .nil := ⟨by simp, by simp [SafeData]⟩
  have hN : ∀ n ∈ nodesIn [langArg dl lang, x, .node b],
      Neat Q .content n ∧ ∀ d ∈ declared [] n, NeatAttr Q d.1 ∧ d.2 = [] := by
    intro n hn
    obtain ⟨v, hv, e⟩ := List.mem_filterMap.1 hn
    have key : v = .node n := by
      cases v <;> simp at e
      rw [e]
    subst key
    simp only [List.mem_cons, List.not_mem_nil, or_false] at hv
    rcases hv with hv | hv | hv
    · rcases langArg_eq dl lang with h | h <;> rw [h] at hv <;> cases hv
      refine ⟨.attr hlang, fun d hd => ?_⟩
      simp only [NewAttribute, declared, List.mem_singleton] at hd
      subst hd
      exact ⟨hlang, rfl⟩
    · rcases hx with h | ⟨m, h, h1, h2⟩ <;> rw [h] at hv <;> cases hv
      exact ⟨h1, by rw [h2]; simp⟩
    · cases hv
      exact ⟨hb, by rw [hbd]; simp⟩
  refine ⟨?_, fun n hn => (hN n hn).1, ⟨?_, .inr (.inr ?_)⟩⟩
  · intro v hv
    simp only [List.mem_cons, List.not_mem_nil, or_false] at hv
    rcases hv with rfl | rfl | rfl
    · rcases langArg_eq dl lang with h | h <;> rw [h]
      · exact .inl hnil
      · exact .inr ⟨_, rfl⟩
    · rcases hx with h | ⟨m, h, _⟩ <;> rw [h]
      · exact .inl hnil
      · exact .inr ⟨_, rfl⟩
    · exact .inr ⟨_, rfl⟩
  · intro d hd
    obtain ⟨n, hn, hd⟩ := mem_declaredAll.1 hd
    exact ((hN n hn).2 d hd).1
  · intro d hd
    obtain ⟨n, hn, hd⟩ := mem_declaredAll.1 hd
    exact ((hN n hn).2 d hd).2

theorem neat_docType (dl : Nat → List Value) : Neat Q .content (DocType dl) :=
  .docType (neat_newValues dl _ (by intro v hv; rw [List.mem_singleton.1 hv]; exact ⟨by simp, by simp [SafeData]⟩))

theorem neat_document {lang : Any} {head body : List Any} {h : Heap} (hd : ∀ r, NeatValues Q .text (h.dl r))
    (h1 : b%"html" ∈ Q.elements) (h2 : b%"head" ∈ Q.elements) (h3 : b%"body" ∈ Q.elements) (h4 : b%"lang" ∈ Q.attributes)
    (hl : NeatArg Q .text lang) (hh : NeatContents Q .content head) (hb : NeatContents Q .content body) :
    Good Q .content (Document lang head body h) := by
  have hH := neat_headArg hd h2 hh
  have hB := neat_newElement (name := b%"body") hH.2 h3 (.inl ⟨by decide, hb⟩)
  have hX := neat_newElement (name := b%"html") hB.2 h1
    (.inl ⟨by decide, neat_html (dl := h.dl) h4 hl hH.1 hB.1 (declared_element ..)⟩)
  refine ⟨.document ?_ ?_, hX.2⟩
  · intro n hn
    simp only [Option.toList, List.cons_append, List.nil_append, List.mem_cons, List.not_mem_nil, or_false] at hn
    rcases hn with rfl | rfl
    · rfl
    · rfl
  · intro n hn
    simp only [Option.toList, List.cons_append, List.nil_append, List.mem_cons, List.not_mem_nil, or_false] at hn
    rcases hn with rfl | rfl
    · exact neat_docType _
    · exact hX.1

/-! ### All constructors -/

theorem neat_makes {h : Heap} {p : Spot} {n : Node} {h' : Heap} (m : Makes Q h p n h')
    (hd : ∀ r, NeatValues Q .text (h.dl r)) : Good Q p (n, h') := by
  cases m with
  | newElement h1 h2 h3 => exact neat_newElement hd h1 (.inl ⟨h2, h3⟩)
  | newTextElement h1 h2 h3 => exact neat_newElement hd h1 (.inr ⟨h2, h3⟩)
  | newVoidElement h1 h2 h3 => exact neat_newVoidElement hd h1 h2 h3
  | newAttribute h1 h2 => exact ⟨.attr ⟨h1, neat_newValues _ _ h2⟩, hd⟩
  | newBooleanAttribute h1 => exact ⟨.attr ⟨h1, trivial⟩, hd⟩
  | newDelimitedAttribute h1 h2 h3 =>
    refine ⟨.attr ⟨h1, fits_esc (p := .text) (by simp) (esc_of_markupSafe _ h2)⟩, fun r => ?_⟩
    unfold NewDelimitedAttribute upd
    dsimp only
    split
    · exact neat_newValues _ _ h3
    · exact hd r
  | text h1 => exact ⟨.text (neat_newValues _ _ h1), hd⟩
  | fragment h1 => exact ⟨.fragment (neat_newValues _ _ h1), hd⟩
  | comment h1 => exact ⟨.comment (neat_newValues _ _ h1), hd⟩
  | docType => exact ⟨neat_docType _, hd⟩
  | collection h1 => exact ⟨.collection fun n hn => h1 n (by simpa using hn), hd⟩
  | contentCollect h1 => exact ⟨.collector h1, hd⟩
  | conditional h1 h2 e => exact ⟨neat_mkConditional (fn := .user _) h1 h2 e, hd⟩
  | when h1 e =>
    refine ⟨?_, hd⟩
    unfold When at e
    split at e
    · exact neat_mkConditional (by simp [NeatCond]) h1 e
    · split at e <;> exact neat_mkConditional (by simp [NeatCond]) h1 e
  | iterate h1 h2 e =>
    refine ⟨?_, hd⟩
    unfold Iterate at e
    dsimp only at e
    split at e
    · cases e
    · rename_i ns hs
      cases e
      have := iterSplit_mem hs
      exact .iterator h1 (fun n hn => (this n hn).1) fun n hn => h2 n (this n hn).2
  | iterateKey h1 e =>
    refine ⟨?_, hd⟩
    unfold IterateKey at e
    split at e
    · cases e
    · rename_i ns hs
      cases e
      have := iterSplit_mem hs
      exact .iterator trivial (fun n hn => (this n hn).1) fun n hn => h1 n (this n hn).2
  | iterateYield h1 h2 e =>
    refine ⟨?_, hd⟩
    unfold IterateYield at e
    dsimp only at e
    split at e
    · cases e
    · rename_i ns hs
      cases e
      have := iterSplit_mem hs
      exact .yieldIterator h1 (fun n hn => (this n hn).1) fun n hn => h2 n (this n hn).2
  | imperative h1 => exact ⟨.imperative h1, hd⟩
  | document h1 h2 h3 h4 h5 h6 h7 => exact neat_document hd h1 h2 h3 h4 h5 h6 h7

end Aitch.Stream

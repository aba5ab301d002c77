import Verif.Proofs.Element
import Verif.Spec.Sample
/-
C06, C07, C08, C09, C14, C15: elements, void elements, names, order of contents, collections.
-/
namespace Aitch.Props
open Spec

/-! ### C06 — element framing -/

/-- What an element can write: its start tag (which is what the void element of the same name and contents writes,
see C07), then what its contents that are no attributes write, in order, then the end tag. -/
theorem C06_element {P : Fns} (F : BuiltFns P) (c : Ctx) (he : c.frame.err = none) (name : Bytes)
    (contents : List Any) (h : Heap) (hb : ∀ n ∈ nodesIn contents, Built n) (w : Bytes) :
    Renders P c (NewElement name contents h).1 w ↔
      ∃ tag ws, Renders P c (NewVoidElement name contents h).1 tag ∧
        Each (Renders P c) (nonAttrs (contents.map (asNode h.dl))) ws ∧
        w = tag ++ ws.flatten ++ (b%"</" ++ name ++ b%">") := by
  have bE := Built.newElement name contents h hb
  have bV := Built.newVoidElement name contents h hb
  rw [bE.renders_iff F he]
  obtain ⟨e, h', h1, h2⟩ := newElement_head name contents h
  have hn := newElement_name h2
  have hR : ∀ n ∈ nonAttrs (contents.map (asNode h.dl)), ∀ w, Renders P c n w ↔ Out P c n w := fun n hn w =>
    (built_asNode hb h.dl n (nonAttrs_mem hn)).renders_iff F he
  rw [h1]
  constructor
  · intro ho
    cases ho with
    | element ht ha =>
      obtain ⟨ws, hw, rfl⟩ := outAll_each.1 ha
      refine ⟨_, ws, ?_, each_imp hw fun a b ha hab => (hR a ha b).2 hab, by rw [hn]; rfl⟩
      rw [bV.renders_iff F he, h2]
      rw [← hn]
      exact .voidElement ht
  · rintro ⟨tag, ws, ht, hw, rfl⟩
    rw [bV.renders_iff F he, h2] at ht
    cases ht with
    | voidElement ht =>
      have := Out.element ht (outAll_each.2 ⟨ws, each_imp hw fun a b ha hab => (hR a ha b).1 hab, rfl⟩)
      rw [hn] at this
      rwa [hn]

example : Renders Sample.fns Sample.ctx
    (NewElement b%"p" [.str b%"1 < 2", .node (NewAttribute (fun _ => []) b%"id" [.str b%"x"]),
      .node (NewElement b%"br" [] .empty).1] .empty).1 b%"<p id=\"x\">1 &lt; 2<br></br></p>" :=
  ⟨Sample.env, Sample.healthy, Sample.computes, Sample.st, _, rfl, ⟨2, rfl⟩, rfl⟩

/-! ### C07 — void elements have neither content nor closing tag -/

/-- A void element writes `<`, its name, attributes declared in its contents, and `>` (which attributes and how they
show: C10–C13, C17, C19). -/
theorem C07_shape {P : Fns} (F : BuiltFns P) (c : Ctx) (he : c.frame.err = none) (name : Bytes)
    (contents : List Any) (h : Heap) (hb : ∀ n ∈ nodesIn contents, Built n) (w : Bytes)
    (hr : Renders P c (NewVoidElement name contents h).1 w) :
    ∃ l : List Shown, w = b%"<" ++ name ++ l.flatMap Shown.bytes ++ b%">" ∧
      ∀ x ∈ l, ∃ d ∈ declaredAll [] (contents.map (asNode h.dl)), d.1.name = x.1 := by
  obtain ⟨e, dl, h1, h2, hm, hc, -⟩ := void_head (name := name) (contents := contents) (h := h)
  rw [(Built.newVoidElement name contents h hb).renders_iff F he, h1] at hr
  cases hr with
  | voidElement ht =>
    refine ⟨_, by rw [← h2]; rfl, fun x hx => ?_⟩
    rcases (((tagShows_names hm.wf ht).2 x.1).1 (List.mem_map_of_mem hx)) with hn | hn
    · rw [hm.names, mem_distinct] at hn
      obtain ⟨a, ha, hax⟩ := List.mem_map.1 hn
      obtain ⟨d, hd, rfl⟩ := List.mem_map.1 ha
      exact ⟨d, (List.mem_filter.1 hd).1, hax⟩
    · obtain ⟨a, ha, hax⟩ := List.mem_map.1 hn
      obtain ⟨ca, hca, rfl⟩ := active_mem ha
      rw [hc] at hca
      have hmem := List.mem_map_of_mem (f := (·.att)) hca
      rw [(attributesAndContents_shape _).2.1] at hmem
      obtain ⟨ca', hca', hx'⟩ := List.mem_map.1 hmem
      obtain ⟨d, hd, rfl⟩ := List.mem_map.1 hca'
      exact ⟨d, (List.mem_filter.1 hd).1, by rw [← hax, ← hx']⟩

example := C07_shape Sample.built Sample.ctx rfl b%"img" [.str b%"text", .node (NewBooleanAttribute b%"hidden")] .empty
  (by simpa [nodesIn] using .newBooleanAttribute _) b%"<img hidden>"
  ⟨Sample.env, Sample.healthy, Sample.computes, Sample.st, _, rfl, ⟨2, rfl⟩, rfl⟩

/-- Contents that bring no attributes: anything but attributes, collections and conditionals. -/
def BringsNone : Any → Prop
  | .node (.attr _) | .node (.collection _) | .node (.conditional _ _ _) => False
  | _ => True

instance : DecidablePred BringsNone := fun v => by
  unfold BringsNone
  split <;> infer_instance

/-- Such contents make no difference to a void element. -/
theorem C07_contents_ignored (name : Bytes) (contents : List Any) (h : Heap) :
    NewVoidElement name contents h = NewVoidElement name (contents.filter fun v => ¬ BringsNone v) h := by
  have hm : (contents.filter fun v => ¬ BringsNone v).map (asNode h.dl) =
      (contents.map (asNode h.dl)).filter carries := by
    rw [List.filter_map]
    congr 1
    apply List.filter_congr
    intro v _
    cases v with
    | node n => cases n <;> simp [BringsNone, asNode, carries]
    | _ => simp [BringsNone, asNode, carries]
  have ht := tags_filter_carries ⟨0, 0, 0⟩ (contents.map (asNode h.dl)) ⟨fun _ => [], 1⟩
  rw [← hm] at ht
  obtain ⟨h1, h2⟩ := attributesAndContents_tags ht
  exact (newVoidElement_congr name h1 h2).symm

example : NewVoidElement b%"br" [.str b%"a", .node (NewBooleanAttribute b%"hidden"), .int .int 7] .empty =
    NewVoidElement b%"br" [.node (NewBooleanAttribute b%"hidden")] .empty :=
  C07_contents_ignored b%"br" [.str b%"a", .node (NewBooleanAttribute b%"hidden"), .int .int 7] .empty

/-- The same for contents within collections and conditionals: only the declarations count (for contents whose
conditionals are kept apart, see C17). -/
theorem C07_declarations_only (name : Bytes) (contents₁ contents₂ : List Any) (h : Heap)
    (hd : declaredAll [] (contents₁.map (asNode h.dl)) = declaredAll [] (contents₂.map (asNode h.dl)))
    (h₁ : SeparateAll 0 (contents₁.map (asNode h.dl))) (h₂ : SeparateAll 0 (contents₂.map (asNode h.dl))) :
    NewVoidElement name contents₁ h = NewVoidElement name contents₂ h := by
  apply newVoidElement_congr
  · rw [(attributesAndContents_shape _).1, (attributesAndContents_shape _).1]
    unfold staticAttrs; rw [hd]
  · rw [attributesAndContents_conds h₁, attributesAndContents_conds h₂]
    unfold condAttrs; rw [hd]

example : Writes Sample.env (NewVoidElement b%"img" [.str b%"text", .node (NewBooleanAttribute b%"hidden"),
    .node (Text (fun _ => []) [.str b%"more"])] .empty).1 Sample.st b%"<img hidden>" := ⟨_, ⟨1, rfl⟩, rfl, rfl⟩

/-! ### C08 — Element() is void for exactly the HTML void names -/

theorem C08_void (strict : Bool) (name : Bytes) (contents : List Any) (h : Heap) (hv : name ∈ htmlVoidNames) :
    Element strict name contents h = .val (some (NewVoidElement name contents h).1, (NewVoidElement name contents h).2) := by
  have hm : htmlTagMatch name = true := by
    have : ∀ n ∈ htmlVoidNames, htmlTagMatch n = true := by decide +kernel
    exact this name hv
  have hc : voidElementNames.contains name = true := by rw [List.contains_iff_mem]; exact hv
  unfold Element
  rw [if_pos hm, hc]; rfl

example := C08_void true b%"br" [.str b%"x"] .empty (by decide)

theorem C08_other (strict : Bool) (name : Bytes) (contents : List Any) (h : Heap) (hn : ValidName name)
    (hv : name ∉ htmlVoidNames) :
    Element strict name contents h = .val (some (NewElement name contents h).1, (NewElement name contents h).2) := by
  have hm := (htmlTagMatch_iff name).2 hn
  have hc : voidElementNames.contains name = false := by
    rw [← Bool.not_eq_true, List.contains_iff_mem]; exact hv
  unfold Element
  rw [if_pos hm, hc]; rfl

example := C08_other true b%"BR" [.str b%"x"] .empty ((htmlTagMatch_iff _).1 (by decide)) (by decide)

example : b%"br" ∈ htmlVoidNames ∧ b%"BR" ∉ htmlVoidNames ∧ b%"div" ∉ htmlVoidNames := by decide

/-! ### C09 — name validation -/

theorem C09_element (strict : Bool) (name : Bytes) (contents : List Any) (h : Heap) :
    (ValidName name → ∃ n h', Element strict name contents h = .val (some n, h')) ∧
    (¬ ValidName name → Element strict name contents h = if strict then .panic else .val (none, h)) := by
  rw [← htmlTagMatch_iff]
  unfold Element
  refine ⟨fun hm => ?_, fun hm => by rw [if_neg hm]⟩
  rw [if_pos hm]; exact ⟨_, _, rfl⟩

example : Element true b%"a b" [] .empty = .panic ∧ Element false b%"a b" [] .empty = .val (none, .empty) :=
  have h : ¬ ValidName b%"a b" := by rw [← htmlTagMatch_iff]; decide
  ⟨(C09_element true b%"a b" [] .empty).2 h, (C09_element false b%"a b" [] .empty).2 h⟩

theorem C09_void (strict : Bool) (name : Bytes) (contents : List Any) (h : Heap) :
    (ValidName name →
      VoidElement strict name contents h =
        .val (some (NewVoidElement name contents h).1, (NewVoidElement name contents h).2)) ∧
    (¬ ValidName name → VoidElement strict name contents h = if strict then .panic else .val (none, h)) := by
  rw [← htmlTagMatch_iff]
  exact ⟨fun hm => if_pos hm, fun hm => if_neg hm⟩

example := (C09_void true b%"my-tag" [.str b%"x"] .empty).1 ((htmlTagMatch_iff _).1 (by decide))

theorem C09_attribute (strict : Bool) (dl : Nat → List Value) (name : Bytes) (values : List Any) :
    (ValidName name → Attribute strict dl name values = .val (some (NewAttribute dl name values))) ∧
    (¬ ValidName name → Attribute strict dl name values = if strict then .panic else .val none) := by
  rw [← htmlTagMatch_iff]
  exact ⟨fun hm => if_pos hm, fun hm => if_neg hm⟩

example := (C09_attribute true (fun _ => []) b%"data-x" [.str b%"x"]).1 ((htmlTagMatch_iff _).1 (by decide))

theorem C09_booleanAttribute (strict : Bool) (name : Bytes) :
    (ValidName name → BooleanAttribute strict name = .val (some (NewBooleanAttribute name))) ∧
    (¬ ValidName name → BooleanAttribute strict name = if strict then .panic else .val none) := by
  rw [← htmlTagMatch_iff]
  exact ⟨fun hm => if_pos hm, fun hm => if_neg hm⟩

example := (C09_booleanAttribute true b%"2d").2 (by rw [← htmlTagMatch_iff]; decide)

theorem C09_delimitedAttribute (strict : Bool) (name delimiter : Bytes) (values : List Any) (h : Heap) :
    (ValidName name → DelimitedAttribute strict name delimiter values h =
      .val (some (NewDelimitedAttribute name delimiter values h).1, (NewDelimitedAttribute name delimiter values h).2)) ∧
    (¬ ValidName name →
      DelimitedAttribute strict name delimiter values h = if strict then .panic else .val (none, h)) := by
  rw [← htmlTagMatch_iff]
  exact ⟨fun hm => if_pos hm, fun hm => if_neg hm⟩

example := (C09_delimitedAttribute true b%"class" b%" " [.str b%"x"] .empty).1 ((htmlTagMatch_iff _).1 (by decide))

/-- No valid name has a byte that could end or break up a tag. -/
theorem C09_chars {name : Bytes} (h : ValidName name) :
    ∀ c ∈ name, c ∉ b%" \t\n\r\x00\"'<>=/&`" ∧ c < 128 ∧ c > 32 := by
  have hall : ∀ c ∈ nameChars, c ∉ b%" \t\n\r\x00\"'<>=/&`" ∧ c < 128 ∧ c > 32 := by decide +kernel
  obtain ⟨c, cs, rfl, h1, h2⟩ := h
  intro d hd
  rcases List.mem_cons.1 hd with rfl | hd
  · exact hall _ (List.mem_append_left _ h1)
  · exact hall _ (h2 _ hd)

example : ValidName b%"my-tag.x:y_2" := (htmlTagMatch_iff _).1 (by decide)
example : ¬ ValidName b%"a b" ∧ ¬ ValidName b%"div\n" ∧ ¬ ValidName b%"" ∧ ¬ ValidName b%"2d" := by
  simp only [← htmlTagMatch_iff]; decide

/-! ### C14 — attributes and contents may be interleaved freely -/

/-- Contents with the same sequence of unconditional attributes (collections looked through) and the same sequence of
other items build the same element, and leave the same memory. -/
theorem C14_interleaving (name : Bytes) (contents₁ contents₂ : List Any) (h : Heap)
    (ha : staticAttrs (contents₁.map (asNode h.dl)) = staticAttrs (contents₂.map (asNode h.dl)))
    (hc : nonAttrs (contents₁.map (asNode h.dl)) = nonAttrs (contents₂.map (asNode h.dl))) :
    NewElement name contents₁ h = NewElement name contents₂ h ∧
    NewVoidElement name contents₁ h = NewVoidElement name contents₂ h := by
  have h1 : (attributesAndContents (contents₁.map (asNode h.dl))).1 =
      (attributesAndContents (contents₂.map (asNode h.dl))).1 := by
    rw [(attributesAndContents_shape _).1, (attributesAndContents_shape _).1, ha]
  have h2 : (attributesAndContents (contents₁.map (asNode h.dl))).2.1 =
      (attributesAndContents (contents₂.map (asNode h.dl))).2.1 := by
    have e1 := tags_nonAttrs (contents₁.map (asNode h.dl)) ⟨fun _ => [], 1⟩
    have e2 := tags_nonAttrs (contents₂.map (asNode h.dl)) ⟨fun _ => [], 1⟩
    rw [hc] at e1
    have := e1.symm.trans e2
    simp only [tags, Prod.mk.injEq] at this
    simp only [attributesAndContents]
    rw [this.1, this.2]
  have h3 : (attributesAndContents (contents₁.map (asNode h.dl))).2.2 =
      (attributesAndContents (contents₂.map (asNode h.dl))).2.2 := by
    rw [(attributesAndContents_shape _).2.2, (attributesAndContents_shape _).2.2, hc]
  refine ⟨?_, newVoidElement_congr name h1 h2⟩
  simp only [NewElement, contentsToNodes_eq, h1, h2, h3]

example := C14_interleaving b%"a" [.node (NewBooleanAttribute b%"x"), .str b%"t", .node (NewBooleanAttribute b%"y"), .str b%"u"]
  [.str b%"t", .node (NewBooleanAttribute b%"x"), .str b%"u", .node (NewBooleanAttribute b%"y")] .empty rfl rfl

/-- In particular an attribute may stand before or after any content that brings no attributes. -/
theorem C14_swap (name : Bytes) (pre post : List Any) (a : Attr) (v : Any) (hv : BringsNone v) (h : Heap) :
    NewElement name (pre ++ .node (.attr a) :: v :: post) h = NewElement name (pre ++ v :: .node (.attr a) :: post) h := by
  have hd : ∀ cs, declared cs (asNode h.dl v) = [] := by
    intro cs
    cases v with
    | node n => cases n <;> first | exact hv.elim | rfl
    | _ => rfl
  refine (C14_interleaving name _ _ h ?_ ?_).1
  · have happ : ∀ cs ns ms, declaredAll cs (ns ++ ms) = declaredAll cs ns ++ declaredAll cs ms := by
      intro cs ns ms
      induction ns with
      | nil => rfl
      | cons n ns ih => simp [declaredAll, ih]
    simp [staticAttrs, happ, declaredAll, hd]
  · simp [nonAttrs, List.filter_cons, asNode, Node.isAttr, Node.type]

example : NewElement b%"a" [.node (NewBooleanAttribute b%"x"), .str b%"t", .node (NewBooleanAttribute b%"y")] .empty =
    NewElement b%"a" [.str b%"t", .node (NewBooleanAttribute b%"x"), .node (NewBooleanAttribute b%"y")] .empty :=
  C14_swap b%"a" [] [.node (NewBooleanAttribute b%"y")] (.bool b%"x") (.str b%"t") trivial .empty

/-! ### C15 — collections are transparent inside elements -/

mutual
theorem outAll_openNode {P : Fns} {c : Ctx} : (n : Node) → {w : Bytes} →
    (OutAll P c (nonAttrs (openNode n)) w ↔ OutAll P c (nonAttrs [n]) w)
  | .collection ns, w => by
    rw [openNode, outAll_openNodes ns]
    have : nonAttrs [.collection ns] = [.collection ns] := rfl
    rw [this, outAll_one]
    constructor
    · exact fun h => .collection h
    · intro h; cases h; assumption
  | .attr _, _ => .rfl
  | .conditional _ _ _, _ => .rfl
  | .element _ _, _ => .rfl
  | .voidElement _, _ => .rfl
  | .text _, _ => .rfl
  | .comment _, _ => .rfl
  | .fragment _, _ => .rfl
  | .pi _ _, _ => .rfl
  | .collector _, _ => .rfl
  | .imperative _, _ => .rfl
  | .iterator _ _, _ => .rfl
  | .yieldIterator _ _, _ => .rfl
  | .document _ _, _ => .rfl
theorem outAll_openNodes {P : Fns} {c : Ctx} : (ns : List Node) → {w : Bytes} →
    (OutAll P c (nonAttrs (openNodes ns)) w ↔ OutAll P c (nonAttrs ns) w)
  | [], _ => .rfl
  | n :: ns, w => by
    have e1 : nonAttrs (openNodes (n :: ns)) = nonAttrs (openNode n) ++ nonAttrs (openNodes ns) := by
      simp [openNodes, nonAttrs]
    have e2 : nonAttrs (n :: ns) = nonAttrs [n] ++ nonAttrs ns := by
      simp only [nonAttrs]; rw [← List.filter_append]; rfl
    rw [e1, e2, outAll_append, outAll_append]
    constructor
    · rintro ⟨w1, w2, h1, h2, rfl⟩
      exact ⟨w1, w2, (outAll_openNode n).1 h1, (outAll_openNodes ns).1 h2, rfl⟩
    · rintro ⟨w1, w2, h1, h2, rfl⟩
      exact ⟨w1, w2, (outAll_openNode n).2 h1, (outAll_openNodes ns).2 h2, rfl⟩
end

/-- Elements whose contents are the same once all collections (at any nesting of collections) are opened have the same
output, and building them leaves the same memory. -/
theorem C15_open (name : Bytes) (contents₁ contents₂ : List Any) (h : Heap)
    (hb₁ : ∀ n ∈ nodesIn contents₁, Built n) (hb₂ : ∀ n ∈ nodesIn contents₂, Built n)
    (ho : openNodes (contents₁.map (asNode h.dl)) = openNodes (contents₂.map (asNode h.dl))) :
    SameOutput (NewElement name contents₁ h).1 (NewElement name contents₂ h).1 ∧
    (NewElement name contents₁ h).2 = (NewElement name contents₂ h).2 ∧
    NewVoidElement name contents₁ h = NewVoidElement name contents₂ h := by
  have ht : tags (splitItems ⟨0, 0, 0⟩ (contents₁.map (asNode h.dl)) ⟨fun _ => [], 1⟩) =
      tags (splitItems ⟨0, 0, 0⟩ (contents₂.map (asNode h.dl)) ⟨fun _ => [], 1⟩) := by
    rw [← tags_openNodes, ho, tags_openNodes]
  obtain ⟨h1, h2⟩ := attributesAndContents_tags ht
  have hv := newVoidElement_congr name h1 h2
  obtain ⟨e1, h1', hE1, hV1⟩ := newElement_head name contents₁ h
  obtain ⟨e2, h2', hE2, hV2⟩ := newElement_head name contents₂ h
  rw [hV1, hV2] at hv
  simp only [Prod.mk.injEq, Node.voidElement.injEq] at hv
  obtain ⟨rfl, rfl⟩ := hv
  refine ⟨?_, by rw [hE1, hE2], by rw [hV1, hV2]⟩
  intro P c w F he
  rw [(Built.newElement name contents₁ h hb₁).renders_iff F he,
    (Built.newElement name contents₂ h hb₂).renders_iff F he, hE1, hE2]
  have hOut : ∀ w, OutAll P c (nonAttrs (contents₁.map (asNode h.dl))) w ↔
      OutAll P c (nonAttrs (contents₂.map (asNode h.dl))) w := by
    intro w; rw [← outAll_openNodes, ho, outAll_openNodes]
  constructor
  · intro ho; cases ho with | element ht ha => exact .element ht ((hOut _).1 ha)
  · intro ho; cases ho with | element ht ha => exact .element ht ((hOut _).2 ha)

example := C15_open b%"p" [.node (Collection [some (Collection [some (NewBooleanAttribute b%"hidden")]), none])]
  [.node (NewBooleanAttribute b%"hidden")] .empty
  (by
    intro n hn
    obtain rfl : n = _ := List.mem_singleton.1 hn
    refine .collection _ fun n hn => ?_
    obtain rfl : n = Collection [some (NewBooleanAttribute b%"hidden")] := by simpa using hn
    refine .collection _ fun n hn => ?_
    obtain rfl : n = NewBooleanAttribute b%"hidden" := by simpa using hn
    exact .newBooleanAttribute _)
  (by simpa [nodesIn] using .newBooleanAttribute _) rfl

/-- A collection in the contents of an element can be replaced by its nodes. -/
theorem C15_collection (name : Bytes) (pre post : List Any) (nodes : List (Option Node)) (h : Heap)
    (hb : ∀ n ∈ nodesIn (pre ++ post), Built n) (hn : ∀ n, some n ∈ nodes → Built n) :
    SameOutput (NewElement name (pre ++ .node (Collection nodes) :: post) h).1
      (NewElement name (pre ++ (nodes.filterMap id).map .node ++ post) h).1 ∧
    (NewElement name (pre ++ .node (Collection nodes) :: post) h).2 =
      (NewElement name (pre ++ (nodes.filterMap id).map .node ++ post) h).2 := by
  have happ : ∀ ns ms, openNodes (ns ++ ms) = openNodes ns ++ openNodes ms := by
    intro ns ms
    induction ns with
    | nil => rfl
    | cons n ns ih => simp [openNodes, ih]
  have hmap : ((nodes.filterMap id).map Any.node).map (asNode h.dl) = nodes.filterMap id := by
    rw [List.map_map]
    exact List.map_id'' (fun _ => rfl) _
  have := C15_open name (pre ++ .node (Collection nodes) :: post) (pre ++ (nodes.filterMap id).map .node ++ post) h
    ?_ ?_ ?_
  · exact ⟨this.1, this.2.1⟩
  · intro n hm
    rw [mem_nodesIn] at hm
    simp only [List.mem_append, List.mem_cons, Any.node.injEq] at hm
    rcases hm with hm | rfl | hm
    · exact hb n (mem_nodesIn.2 (by simp [hm]))
    · exact .collection nodes hn
    · exact hb n (mem_nodesIn.2 (by simp [hm]))
  · intro n hm
    rw [mem_nodesIn] at hm
    simp only [List.mem_append, List.mem_map, Any.node.injEq, exists_eq_right] at hm
    rcases hm with (hm | hm) | hm
    · exact hb n (mem_nodesIn.2 (by simp [hm]))
    · exact hn n (by simpa using hm)
    · exact hb n (mem_nodesIn.2 (by simp [hm]))
  · rw [List.map_append, List.map_append, List.map_append, happ, happ, happ, hmap, List.map_cons]
    simp [openNodes, asNode, Collection, openNode]

example : Writes Sample.env (NewElement b%"p" [.node (Collection [some (Text (fun _ => []) [.str b%"a"]),
    some (Collection [some (NewBooleanAttribute b%"hidden"), none])]), .str b%"b"] .empty).1 Sample.st
    b%"<p hidden>ab</p>" := ⟨_, ⟨3, rfl⟩, rfl, rfl⟩

end Aitch.Props

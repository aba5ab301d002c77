import Verif.Props.Elements
import Verif.Props.Calls
import Verif.Props.Document
/-
C63: nil arguments.
-/
namespace Aitch.Props
open Spec

/-! ### C63 — nil nodes are ignored -/

/-- The arguments that are not nil. -/
def dropNil (contents : List Any) : List Any :=
  contents.filter fun
    | .nil => false
    | _ => true

/-- C63 as stated for conditionals and iterations: nil nodes among the others change nothing. -/
def C63_claim : Prop :=
  (∀ key nodes n, When key (nodes.filter Option.isSome) = .val n → ∃ n', When key nodes = .val n' ∧ SameOutput n n') ∧
  (∀ fn nodes n, Conditional fn (nodes.filter Option.isSome) = .val n →
    ∃ n', Conditional fn nodes = .val n' ∧ SameOutput n n') ∧
  (∀ fn nodes n, Iterate fn (nodes.filter Option.isSome) = .val n → ∃ n', Iterate fn nodes = .val n' ∧ SameOutput n n') ∧
  (∀ key nodes n, IterateKey key (nodes.filter Option.isSome) = .val n →
    ∃ n', IterateKey key nodes = .val n' ∧ SameOutput n n') ∧
  (∀ fn nodes n, IterateYield fn (nodes.filter Option.isSome) = .val n →
    ∃ n', IterateYield fn nodes = .val n' ∧ SameOutput n n')

/-- All of them panic. -/
theorem C63_false : ¬ C63_claim := by
  intro h
  obtain ⟨n, hn, -⟩ := h.1 b%"k" [none] _ rfl
  cases hn

theorem condSplit_panic (nodes : List (Option Node)) : condSplit nodes = .panic ↔ none ∈ nodes := by
  induction nodes with
  | nil => simp [condSplit]
  | cons o rest ih =>
    cases o with
    | none => simp [condSplit]
    | some n =>
      simp only [condSplit, List.mem_cons, reduceCtorEq, false_or]
      rw [← ih]
      cases condSplit rest with
      | panic => simp
      | val r =>
        cases n <;> simp

theorem iterSplit_panic (nodes : List (Option Node)) : iterSplit nodes = .panic ↔ none ∈ nodes := by
  induction nodes with
  | nil => simp [iterSplit]
  | cons o rest ih =>
    cases o with
    | none => simp [iterSplit]
    | some n =>
      simp only [iterSplit, List.mem_cons, reduceCtorEq, false_or]
      rw [← ih]
      cases iterSplit rest with
      | panic => simp
      | val r => simp only; split <;> simp

theorem mkConditional_panic (fn : Cond) (nodes : List (Option Node)) : mkConditional fn nodes = .panic ↔ none ∈ nodes := by
  rw [← condSplit_panic]
  unfold mkConditional
  cases condSplit nodes <;> simp

/-- When exactly they panic: on a nil node, and (iterations) on a nil function. -/
theorem C63_panics (key : Bytes) (f : FnId) (fn : Option FnId) (nodes : List (Option Node)) :
    (When key nodes = .panic ↔ none ∈ nodes) ∧ (Conditional (some f) nodes = .panic ↔ none ∈ nodes) ∧
    (IterateKey key nodes = .panic ↔ none ∈ nodes) ∧ (Iterate fn nodes = .panic ↔ fn = none ∨ none ∈ nodes) ∧
    (IterateYield fn nodes = .panic ↔ fn = none ∨ none ∈ nodes) := by
  refine ⟨?_, mkConditional_panic _ _, ?_, ?_, ?_⟩
  · unfold When
    split
    · exact mkConditional_panic _ _
    · split <;> exact mkConditional_panic _ _
  · rw [← iterSplit_panic]
    unfold IterateKey
    cases iterSplit nodes <;> simp
  · rw [← iterSplit_panic]
    unfold Iterate
    cases fn with
    | none => simp
    | some f => cases iterSplit nodes <;> simp
  · rw [← iterSplit_panic]
    unfold IterateYield
    cases fn with
    | none => simp
    | some f => cases iterSplit nodes <;> simp

theorem newValues_dropNil (dl : Nat → List Value) (vs : List Any) : newValues dl (dropNil vs) = newValues dl vs := by
  induction vs with
  | nil => rfl
  | cons v vs ih =>
    unfold dropNil at ih ⊢
    cases v with
    | nil => exact ih
    | _ =>
      rw [List.filter_cons_of_pos rfl, newValues_cons, newValues_cons, ih]

/-- Where it holds: nil contents of texts, comments, fragments, processing instructions and attributes, ... -/
theorem C63_values_partial (dl : Nat → List Value) (name d : Bytes) (vs : List Any) (h : Heap) :
    Text dl (dropNil vs) = Text dl vs ∧ Comment dl (dropNil vs) = Comment dl vs ∧
    Fragment dl (dropNil vs) = Fragment dl vs ∧ PI dl name (dropNil vs) = PI dl name vs ∧
    NewAttribute dl name (dropNil vs) = NewAttribute dl name vs ∧
    NewDelimitedAttribute name d (dropNil vs) h = NewDelimitedAttribute name d vs h := by
  simp only [Text, Comment, Fragment, PI, NewAttribute, NewDelimitedAttribute, newValues_dropNil, and_self]

example : Text (fun _ => []) [.str b%"a"] = Text (fun _ => []) [.nil, .str b%"a", .nil] :=
  (C63_values_partial (fun _ => []) b%"x" b%" " [.nil, .str b%"a", .nil] .empty).1

theorem filterMap_isSome (nodes : List (Option Node)) : (nodes.filter Option.isSome).filterMap id = nodes.filterMap id := by
  induction nodes with
  | nil => rfl
  | cons o rest ih =>
    cases o with
    | none => exact ih
    | some n =>
      rw [List.filter_cons_of_pos rfl, List.filterMap_cons_some (by rfl), List.filterMap_cons_some (by rfl), ih]

/-- ... nil nodes of collections (and of `Conditional(nil, ...)`), ... -/
theorem C63_collection_partial (nodes : List (Option Node)) :
    Collection (nodes.filter Option.isSome) = Collection nodes ∧
    Conditional none (nodes.filter Option.isSome) = Conditional none nodes := by
  simp only [Collection, Conditional, filterMap_isSome, and_self]

/-- ... nil contents of void elements and elements, ... -/
theorem C63_void_partial (name : Bytes) (contents : List Any) (h : Heap) :
    NewVoidElement name (dropNil contents) h = NewVoidElement name contents h := by
  rw [C07_contents_ignored, C07_contents_ignored name contents]
  congr 1
  unfold dropNil
  rw [List.filter_filter]
  apply List.filter_congr
  intro v _
  cases v <;> simp [BringsNone]

theorem nodesIn_dropNil (contents : List Any) : nodesIn (dropNil contents) = nodesIn contents := by
  induction contents with
  | nil => rfl
  | cons v vs ih =>
    unfold dropNil nodesIn at *
    cases v <;> simpa using ih

theorem outAll_dropNil {P : Fns} {c : Ctx} {dl : Nat → List Value} {contents : List Any} {w : Bytes} :
    OutAll P c (nonAttrs ((dropNil contents).map (asNode dl))) w ↔ OutAll P c (nonAttrs (contents.map (asNode dl))) w := by
  induction contents generalizing w with
  | nil => exact Iff.rfl
  | cons v vs ih =>
    by_cases hv : v = .nil
    · subst hv
      rw [show dropNil (.nil :: vs) = dropNil vs from rfl, ih]
      have he : nonAttrs ((Any.nil :: vs).map (asNode dl)) = .text [] :: nonAttrs (vs.map (asNode dl)) := rfl
      rw [he]
      constructor
      · intro h; exact .cons (w := []) .text h
      · intro h
        cases h with
        | cons h1 h2 => cases h1; exact h2
    · have hd : dropNil (v :: vs) = v :: dropNil vs := by
        unfold dropNil
        cases v with
        | nil => exact absurd rfl hv
        | _ => rfl
      rw [hd, List.map_cons, List.map_cons]
      unfold nonAttrs at *
      rw [List.filter_cons, List.filter_cons]
      split
      · constructor <;> intro h <;> cases h with
        | cons h1 h2 => exact .cons h1 (by first | exact ih.1 h2 | exact ih.2 h2)
      · exact ih

theorem C63_element_partial (name : Bytes) (contents : List Any) (h : Heap) (hb : ∀ n ∈ nodesIn contents, Built n) :
    SameOutput (NewElement name (dropNil contents) h).1 (NewElement name contents h).1 ∧
    (NewElement name (dropNil contents) h).2 = (NewElement name contents h).2 := by
  have hb' : ∀ n ∈ nodesIn (dropNil contents), Built n := by rw [nodesIn_dropNil]; exact hb
  have hv := C63_void_partial name contents h
  refine ⟨fun P c w F he => ?_, ?_⟩
  · rw [C06_element F c he name _ h hb', C06_element F c he name _ h hb, hv]
    have hr : ∀ w, RendersAll P c (nonAttrs ((dropNil contents).map (asNode h.dl))) w ↔
        RendersAll P c (nonAttrs (contents.map (asNode h.dl))) w := fun w => by
      rw [rendersAll_iff F he fun n hn => built_asNode hb' h.dl n (nonAttrs_mem hn),
        rendersAll_iff F he fun n hn => built_asNode hb h.dl n (nonAttrs_mem hn), outAll_dropNil]
    constructor
    · rintro ⟨tag, ws, h1, h2, rfl⟩
      obtain ⟨vs, h3, h4⟩ := (hr _).1 ⟨ws, h2, rfl⟩
      exact ⟨tag, vs, h1, h3, by rw [h4]⟩
    · rintro ⟨tag, ws, h1, h2, rfl⟩
      obtain ⟨vs, h3, h4⟩ := (hr _).2 ⟨ws, h2, rfl⟩
      exact ⟨tag, vs, h1, h3, by rw [h4]⟩
  · obtain ⟨e, dl, h1, h2⟩ := newElement_eq name contents h
    obtain ⟨e', dl', h1', h2'⟩ := newElement_eq name (dropNil contents) h
    obtain ⟨e'', dl'', h3, h4⟩ := newVoidElement_eq name contents h
    obtain ⟨e''', dl''', h3', h4'⟩ := newVoidElement_eq name (dropNil contents) h
    have hd := congrArg Prod.snd hv
    rw [h3, h3'] at hd
    rw [h2] at h4
    rw [h2'] at h4'
    rw [h1, h1']
    cases h4; cases h4'
    exact hd

example := C63_element_partial b%"p" [.nil, .node (NewBooleanAttribute b%"hidden"), .nil, .str b%"x"] .empty
  (by simpa [nodesIn] using .newBooleanAttribute _)

/-- ... nil nodes returned to a ContentCollect node (`g` returns what `f` returns, without the nil nodes), ... -/
theorem C63_collect_partial {P : Fns} (F : BuiltFns P) (c : Ctx) (he : c.frame.err = none) (f g : FnId)
    (hg : P.collect g c = (P.collect f c).filter Option.isSome) (w : Bytes) :
    Renders P c (ContentCollect (some g)) w ↔ Renders P c (ContentCollect (some f)) w := by
  rw [C62_collect F c he, C62_collect F c he, hg, filterMap_isSome]

/-- Functions of which number 0 returns nil nodes too and makes calls with nil nodes, the others not. -/
def nilFns : Fns := { Sample.fns with
  collect := fun f _ => if f = 0 then [none, some (Text (fun _ => []) []), none] else [some (Text (fun _ => []) [])]
  imp := fun f _ => if f = 0 then [.start b%"p" false [none], .writeNodes [none, none], .end]
    else [.start b%"p" false [], .writeNodes [], .end] }

theorem nilFns_built : BuiltFns nilFns := by
  refine ⟨fun f c n hn => ?_, fun f c ns n hn hm => ?_⟩
  · simp only [nilFns] at hn
    split at hn <;> simp at hn <;> subst hn <;> exact .text _ _
  · simp only [nilFns] at hn
    split at hn <;> simp at hn <;> subst hn <;> simp at hm

example (w : Bytes) := C63_collect_partial nilFns_built Sample.ctx rfl 0 1 rfl w

/-- A call without the nil nodes among its arguments. -/
def callDropNil : ImpOp → ImpOp
  | .writeNodes ns => .writeNodes (ns.filter Option.isSome)
  | .start n v attrs => .start n v (attrs.filter Option.isSome)
  | op => op

theorem openAfter_dropNil (ops : List ImpOp) (st : List Bytes) : openAfter (ops.map callDropNil) st = openAfter ops st := by
  induction ops generalizing st with
  | nil => rfl
  | cons op ops ih =>
    rw [List.map_cons]
    cases op with
    | start n v attrs => cases v <;> exact ih _
    | _ => exact ih _

theorem callSays_dropNil {P : Fns} {c : Ctx} {before : List ImpOp} {op : ImpOp} {w : Bytes} :
    CallSays P c (before.map callDropNil) (callDropNil op) w ↔ CallSays P c before op w := by
  cases op with
  | writeNodes ns => simp only [CallSays, callDropNil, filterMap_isSome]
  | start n v attrs => simp only [CallSays, callDropNil, startAttrs, filterMap_isSome]
  | _ => simp only [CallSays, callDropNil, openAfter_dropNil]

/-- ... and nil nodes given to `WriteNodes` and `Start` (`g` makes the calls of `f`, without the nil nodes). -/
theorem C63_imperative_partial {P : Fns} (F : BuiltFns P) (c : Ctx) (he : c.frame.err = none) (f g : FnId)
    (hg : P.imp g c = (P.imp f c).map callDropNil) (w : Bytes) :
    Renders P c (Imperative (some g)) w ↔ Renders P c (Imperative (some f)) w := by
  rw [C61_calls F c he, C61_calls F c he, hg, List.length_map]
  refine exists_congr fun ws => and_congr_right fun _ => and_congr_left fun _ => ?_
  constructor
  · intro h i op p ho hp
    have := h i (callDropNil op) p (by rw [List.getElem?_map, ho]; rfl) hp
    rw [← List.map_take] at this
    exact callSays_dropNil.1 this
  · intro h i op p ho hp
    rw [List.getElem?_map] at ho
    obtain ⟨o, ho', rfl⟩ := Option.map_eq_some_iff.1 ho
    rw [← List.map_take]
    exact callSays_dropNil.2 (h i o p ho' hp)

example (w : Bytes) := C63_imperative_partial nilFns_built Sample.ctx rfl 0 1 rfl w

/-- A document: a head made of nils only still shows, so nil arguments may be dropped there only if others stay. -/
theorem C63_document_partial (lang : Any) (head body : List Any) (h : Heap) (hd : dropNil head = [] → head = [])
    (hh : ∀ n ∈ nodesIn head, Built n) (hb : ∀ n ∈ nodesIn body, Built n) :
    SameOutput (Document lang (dropNil head) (dropNil body) h).1 (Document lang head body h).1 := by
  intro P c w F he
  have hh' : ∀ n ∈ nodesIn (dropNil head), Built n := by rw [nodesIn_dropNil]; exact hh
  have hb' : ∀ n ∈ nodesIn (dropNil body), Built n := by rw [nodesIn_dropNil]; exact hb
  have hn : dropNil head = [] ↔ head = [] := ⟨hd, fun h => by rw [h]; rfl⟩
  have h1 := C63_element_partial b%"head" head h hh
  have ha : afterHead (dropNil head) h = afterHead head h := by
    unfold afterHead
    rw [h1.2]
    simp only [hn]
  have h2 := C63_element_partial b%"body" body (afterHead head h) hb
  rw [C39_document F c he lang _ _ h hh' hb', C39_document F c he lang _ _ h hh hb, ha]
  simp only [hn, ne_eq, h1.1 P c _ F he, h2.1 P c _ F he]

example := C63_document_partial .nil [.nil, .str b%"x"] [.nil] .empty (by simp [dropNil]) (by simp [nodesIn]) (by simp [nodesIn])

example : dropNil [.nil, .str b%"a", .nil] = [.str b%"a"] := rfl

example : Renders Sample.fns Sample.ctx (Document .nil [.nil] [] .empty).1
    b%"<!DOCTYPE html>\n<html><head></head><body></body></html>" :=
  ⟨Sample.env, Sample.healthy, Sample.computes, Sample.st, _, rfl, ⟨4, rfl⟩, rfl⟩

end Aitch.Props

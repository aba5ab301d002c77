import Verif.Proofs.Stands
import Verif.Props.Dom
import Verif.Props.Markup
/-
C96: no data can make a browser rearrange a page.
-/
namespace Aitch.Props

open Spec Markup

section
variable {A B : List Bytes} (N : GoodNames A B) {P : Fns} (F : BuiltFns P) (S : SafeFns P) {c : Ctx}
  (he : c.frame.err = none) (hc : SafeCtx c) {lang : Any} {head body : List Any} (t : TidyPage P A B lang head body)
  (s : PageStands P head body) (h : Heap)
include N F S he hc t s

/-- **C96**.  A page made with `Document` out of any template (conditions, iterations, functions) whose elements may be
where the template puts them, rendered in any context with data that is escaped or harmless: what is written are the tags
of a tree with a head and a body, and the DOM that a browser builds from it is that tree. -/
theorem C96_not_rearranged (R : CharRefs) {w : Bytes} (hr : Renders P c (Document lang head body h).1 w) :
    ∃ attrs headAttrs heads bodyAttrs bodies,
      w = writeAll [.doctype b%"html", .element b%"html" attrs
        ((if head.isEmpty then [] else [.element b%"head" headAttrs heads]) ++
          [.element b%"body" bodyAttrs bodies])] ∧
      (head = [] → headAttrs = [] ∧ heads = []) ∧
      domOf (readPage R w) = some [.doctype b%"DOCTYPE html", .element b%"html" (linedAttrs attrs)
        [.element b%"head" (linedAttrs headAttrs) (contents heads),
         .element b%"body" (linedAttrs bodyAttrs) (contents bodies)]] := by
  rw [(tidy_built (t.tidy h)).renders_iff F he] at hr
  obtain ⟨attrs, headAttrs, heads, bodyAttrs, bodies, h1, h2, h3, h4, h5, h6, h7, h8, -⟩ := page_out N S hc t s hr
  refine ⟨attrs, headAttrs, heads, bodyAttrs, bodies, h1, h4, ?_⟩
  rw [h1]
  exact dom_received R h5 h6 h7 h8 head.isEmpty (fun e => h4 (by simpa using e)) h3

/-- **C96**.  Whatever the data, the DOM has one `html` with one `head` and one `body`, and no element or attribute whose
name is not one of the template's. -/
theorem C96_names (R : CharRefs) {w : Bytes} (hr : Renders P c (Document lang head body h).1 w) :
    ∃ attrs headAttrs inHead bodyAttrs inBody,
      domOf (readPage R w) = some [.doctype b%"DOCTYPE html", .element b%"html" attrs
        [.element b%"head" headAttrs inHead, .element b%"body" bodyAttrs inBody]] ∧
      (∀ a ∈ attrs ++ headAttrs ++ bodyAttrs, a.1 ∈ B.map lower) ∧
      MadeOfAll (A.map lower) (B.map lower) (inHead ++ inBody) := by
  rw [(tidy_built (t.tidy h)).renders_iff F he] at hr
  obtain ⟨attrs, headAttrs, heads, bodyAttrs, bodies, h1, h2, h3, h4, h5, h6, h7, h8, -, m1, ⟨-, m2, m3⟩, ⟨-, m4, m5⟩, -⟩ :=
    page_out N S hc t s hr
  refine ⟨linedAttrs attrs, linedAttrs headAttrs, contents heads, linedAttrs bodyAttrs, contents bodies, ?_, ?_,
    madeOfAll_append m3 m5⟩
  · rw [h1]
    exact dom_received R h5 h6 h7 h8 head.isEmpty (fun e => h4 (by simpa using e)) h3
  · intro a ha
    rcases List.mem_append.1 ha with ha | ha
    · rcases List.mem_append.1 ha with ha | ha
      · exact m1 a ha
      · exact m2 a ha
    · exact m4 a ha

end

/-- A list of all items of the data, each a paragraph in an `li`. -/
def listOfData : Node :=
  (NewElement b%"ul" [.node (.iterator [(NewElement b%"li" [.node (NewElement b%"p" [.dynKey b%"name"] Heap.empty).1]
    Heap.empty).1] (.key b%"list"))] Heap.empty).1

example : IterateKey b%"list" [some (NewElement b%"li" [.node (NewElement b%"p" [.dynKey b%"name"] Heap.empty).1]
    Heap.empty).1] = .val (.iterator [(NewElement b%"li" [.node (NewElement b%"p" [.dynKey b%"name"] Heap.empty).1]
    Heap.empty).1] (.key b%"list")) := rfl

def pageHead : List Any := [.node (NewElement b%"title" [.dynKey b%"name"] Heap.empty).1]
def pageBody : List Any := [.node listOfData, .dynKey b%"name", .node tidySample]
def pageElements : List Bytes := [b%"html", b%"head", b%"body", b%"title", b%"ul", b%"li", b%"p", b%"div"]
def pageAttributes : List Bytes := [b%"lang", b%"id"]

theorem pageNames : GoodNames pageElements pageAttributes := by
  refine ⟨?_, ?_, by decide⟩
  · intro a ha
    refine ⟨(htmlTagMatch_iff a).1 ?_, ?_⟩ <;> (revert a; decide)
  · intro a ha
    refine (htmlTagMatch_iff a).1 ?_
    revert a; decide

theorem pageTidy : TidyPage Sample.fns pageElements pageAttributes (.str b%"en") pageHead pageBody := by
  have safeKey : ∀ v ∈ [Any.dynKey b%"name"], SafeArg v ∨ ∃ n, v = .node n := by
    intro v hv
    simp at hv
    subst hv
    exact .inl trivial
  refine ⟨by decide, trivial, ?_, ?_, ?_⟩
  · intro v hv
    simp only [pageHead, pageBody, List.cons_append, List.nil_append, List.mem_cons, List.not_mem_nil, or_false] at hv
    rcases hv with rfl | rfl | rfl | rfl <;> first | exact .inl trivial | exact .inr ⟨_, rfl⟩
  · intro n hn
    simp only [pageHead, nodesIn, List.filterMap_cons, List.filterMap_nil, List.mem_cons, List.not_mem_nil, or_false] at hn
    subst hn
    exact .newTextElement _ _ _ (by decide) (by decide) safeKey (by simp [nodesIn])
  · intro n hn
    simp only [pageBody, nodesIn, List.filterMap_cons, List.filterMap_nil, List.mem_cons, List.not_mem_nil, or_false] at hn
    rcases hn with rfl | rfl
    · refine .newElement _ _ _ (by decide) (by decide) ?_ ?_
      · intro v hv
        simp only [List.mem_singleton] at hv
        exact .inr ⟨_, hv⟩
      · intro n hn
        simp only [nodesIn, List.filterMap_cons, List.filterMap_nil, List.mem_cons, List.not_mem_nil, or_false] at hn
        refine .iterateKey _ b%"list" [some (NewElement b%"li" [.node (NewElement b%"p" [.dynKey b%"name"]
          Heap.empty).1] Heap.empty).1] n ?_ (by rw [hn]; rfl)
        intro m hm
        simp only [List.mem_singleton, Option.some.injEq] at hm
        subst hm
        refine .newElement _ _ _ (by decide) (by decide) ?_ ?_
        · intro v hv
          simp only [List.mem_singleton] at hv
          exact .inr ⟨_, hv⟩
        · intro n hn
          simp only [nodesIn, List.filterMap_cons, List.filterMap_nil, List.mem_cons, List.not_mem_nil, or_false] at hn
          subst hn
          exact .newElement _ _ _ (by decide) (by decide) safeKey (by simp [nodesIn])
    · exact tidy_names (by decide) (by decide) tidySample_tidy.2.2.2.1

theorem pageStands : PageStands Sample.fns pageHead pageBody := by
  have safeKey : ∀ v ∈ [Any.dynKey b%"name"], SafeArg v ∨ ∃ n, v = .node n := by
    intro v hv
    simp at hv
    subst hv
    exact .inl trivial
  refine ⟨?_, ?_, ?_⟩
  · intro v hv
    simp only [pageHead, List.mem_singleton] at hv
    exact ⟨_, hv⟩
  · intro n hn
    simp only [pageHead, nodesIn, List.filterMap_cons, List.filterMap_nil, List.mem_cons, List.not_mem_nil, or_false] at hn
    subst hn
    exact stands_newElement rfl (fun _ _ => .inl fun _ => rfl) safeKey (by simp [nodesIn])
  · intro n hn
    simp only [pageBody, nodesIn, List.filterMap_cons, List.filterMap_nil, List.mem_cons, List.not_mem_nil, or_false] at hn
    rcases hn with rfl | rfl
    · refine stands_newElement rfl (fun _ _ => .inl fun _ => rfl) ?_ ?_
      · intro v hv
        simp only [List.mem_singleton] at hv
        exact .inr ⟨_, hv⟩
      · intro n hn
        simp only [nodesIn, List.filterMap_cons, List.filterMap_nil, List.mem_cons, List.not_mem_nil, or_false] at hn
        subst hn
        refine .iterator _ _ fun n hn => ?_
        simp only [List.mem_singleton] at hn
        subst hn
        refine stands_newElement rfl (fun _ _ => .inl fun _ => rfl) ?_ ?_
        · intro v hv
          simp only [List.mem_singleton] at hv
          exact .inr ⟨_, hv⟩
        · intro n hn
          simp only [nodesIn, List.filterMap_cons, List.filterMap_nil, List.mem_cons, List.not_mem_nil, or_false] at hn
          subst hn
          exact stands_newElement rfl (fun _ _ => .inl fun _ => rfl) safeKey (by simp [nodesIn])
    · refine stands_newElement rfl (fun _ _ => .inl fun _ => rfl) ?_ ?_
      · intro v hv
        simp only [List.mem_cons, List.not_mem_nil, or_false] at hv
        rcases hv with rfl | rfl | rfl | rfl | rfl | rfl <;> first | exact .inl trivial | exact .inr ⟨_, rfl⟩
      · intro n hn
        simp only [nodesIn, List.filterMap_cons, List.filterMap_nil, List.mem_cons, List.not_mem_nil, or_false] at hn
        rcases hn with rfl | rfl | rfl | rfl
        · exact .attr _
        · refine stands_newElement rfl (fun _ _ => .inl fun _ => rfl) ?_ (by simp [nodesIn])
          intro v hv; simp at hv; subst hv; exact .inl trivial
        · refine .collector _ fun c n hn => ?_
          simp [Sample.fns] at hn
          subst hn
          exact .text _ fun _ => rfl
        · have hops : ∀ c, Sample.fns.imp 0 c = [.start b%"p" false [], .writeString b%"a<b", .end] := fun _ => rfl
          have cut : ∀ {c before op after}, Sample.fns.imp 0 c = before ++ op :: after →
              (before = [] ∧ op = .start b%"p" false []) ∨
              (before = [.start b%"p" false []] ∧ op = .writeString b%"a<b") ∨ op = .end := by
            intro c before op after h
            rw [hops] at h
            match before, h with
            | [], h => simp at h; exact .inl ⟨rfl, h.1.symm⟩
            | [_], h => simp at h; obtain ⟨rfl, rfl, _⟩ := h; exact .inr (.inl ⟨rfl, rfl⟩)
            | [_, _], h => simp at h; exact .inr (.inr h.2.2.1.symm)
            | _ :: _ :: _ :: _, h => simp at h
          refine .imperative 0 ?_ ?_ ?_ ?_ ?_
          · intro c before d after h
            rcases cut h with ⟨_, e⟩ | ⟨rfl, _⟩ | e
            · cases e
            · exact fun _ => rfl
            · cases e
          · intro c before d after h
            rcases cut h with ⟨_, e⟩ | ⟨rfl, e⟩ | e <;> cases e
          · intro c before name attrs after h
            rcases cut h with ⟨_, e⟩ | ⟨rfl, e⟩ | e <;> cases e
          · intro c before name attrs after h
            rcases cut h with ⟨rfl, e⟩ | ⟨rfl, e⟩ | e <;> cases e
            rfl
          · intro c before ns after n h
            rcases cut h with ⟨_, e⟩ | ⟨rfl, e⟩ | e <;> cases e

/-- The sample meets the conditions. -/
example {w : Bytes} (hr : Renders Sample.fns Sample.ctx (Document (.str b%"en") pageHead pageBody Heap.empty).1 w) :=
  C96_not_rearranged pageNames Sample.built safe_sample.1 rfl safe_sample.2 pageTidy pageStands Heap.empty fiveRefs hr

/-- It writes something. -/
example : ∃ w, Renders Sample.fns Sample.ctx (Document (.str b%"en") pageHead pageBody Heap.empty).1 w :=
  have h : ∃ r, render Sample.env 8 (Document (.str b%"en") pageHead pageBody Heap.empty).1 Sample.st = some r ∧
      r.1 = none := by
    have h : (render Sample.env 8 (Document (.str b%"en") pageHead pageBody Heap.empty).1 Sample.st).any
        (fun r => r.1.isNone) = true := by decide +kernel
    rw [Option.any_eq_true] at h
    obtain ⟨r, h1, h2⟩ := h
    exact ⟨r, h1, Option.isNone_iff_eq_none.1 h2⟩
  have ⟨⟨_, s⟩, h1, h2⟩ := h
  ⟨_, Sample.env, Sample.healthy, Sample.computes, Sample.st, s, rfl, ⟨8, by rw [h1]; simp at h2; rw [h2]⟩, rfl⟩

/-- A block in a paragraph does not stand there. -/
example : ¬ (Place.inside [b%"p", b%"body", b%"html"]).Element b%"div" := by
  unfold Place.Element; decide +kernel

end Aitch.Props

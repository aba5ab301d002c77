import Verif.Proofs.Source
import Verif.Proofs.Clean
import Verif.Proofs.Leaf
import Verif.Spec.Sample
/-
C37: what is rendered reads back, as HTML, as what was meant.
C58: data cannot bring tags or attributes into a page.
-/
namespace Aitch.Props

open Spec Markup

/-- A table with just the five references (the standard's table has them and many others). -/
def fiveRefs : CharRefs where
  find _ s :=
    if b%"amp;".isPrefixOf s then some (4, b%"&")
    else if b%"lt;".isPrefixOf s then some (3, b%"<")
    else if b%"gt;".isPrefixOf s then some (3, b%">")
    else if b%"quot;".isPrefixOf s then some (5, b%"\"")
    else if b%"apos;".isPrefixOf s then some (5, b%"'")
    else none
  amp _ _ := by simp
  lt _ _ := by simp
  gt _ _ := by simp
  quot _ _ := by simp
  apos _ _ := by simp

/-- The full claim: every tree with valid names reads back as what was meant. -/
def C37_claim : Prop :=
  ∀ (R : CharRefs) (env : Env), Healthy env → ∀ (h : Heap) (t : Src) (s : St), s.frame.err = none →
    Strings s.toCtx t → Proper (treeOf s.toCtx t) →
    ∃ w, Writes env (build h t) s w ∧ readHtml R w = items (meant (treeOf s.toCtx t))

/-- **C37** (part: `toks` instead of `meant`).  For every table of character references that has `&amp;` and so on,
every tree of elements, void elements, attributes, texts and comments with strings and data keys in it, whose names
are valid, with no attribute twice (not even in different case), no `plaintext` element, and only texts in elements
like `script` and `title`: rendering the tree to a writer that works gives bytes which an HTML reader reads as exactly
the start tags with their attributes, texts, comments and end tags of the tree.  The strings come back without NUL
bytes, in comments and in elements like `script` they come back in escaped form: this is what is missing from the full
claim. -/
theorem C37_reads_back_partial (R : CharRefs) {env : Env} (H : Healthy env) (h : Heap) (t : Src) {s : St}
    (he : s.frame.err = none) (hs : Strings s.toCtx t) (hp : Proper (treeOf s.toCtx t)) :
    ∃ w, Writes env (build h t) s w ∧ readHtml R w = items (toks false (treeOf s.toCtx t)) := by
  have m := made h t hs hp
  refine ⟨_, writes_of_out H m.wf (m.free s.dl) he fun w' h' => (m.out noFns w').1 h', ?_⟩
  have := read_write R [treeOf s.toCtx t] ⟨hp, trivial⟩
  simpa [writeAll, toksAll] using this

/-- **C37** (part: `Literal`).  If moreover no comment and no text in an element like `script` has a character that has
to be escaped, everything reads back as it was meant. -/
theorem C37_exact_partial (R : CharRefs) {env : Env} (H : Healthy env) (h : Heap) (t : Src) {s : St}
    (he : s.frame.err = none) (hs : Strings s.toCtx t) (hp : Proper (treeOf s.toCtx t))
    (hl : Literal false (treeOf s.toCtx t)) :
    ∃ w, Writes env (build h t) s w ∧ readHtml R w = items (meant (treeOf s.toCtx t)) := by
  obtain ⟨w, h1, h2⟩ := C37_reads_back_partial R H h t he hs hp
  exact ⟨w, h1, by rw [h2, toks_meant _ _ hl]⟩

/-- A heading with a boolean attribute and one with data, a hostile text, a line break, a script and a comment. -/
def sample : Src :=
  .element b%"H1" [(b%"hidden", none), (b%"title", some [.lit b%"\" onload=\"x", .key b%"name"])]
    [.text [.lit b%"</h1><script>", .key b%"missing"], .void b%"br" [], .element b%"script" [] [.text [.lit b%"f()"]],
     .comment [.lit b%" -- > "]]

theorem sample_proper : Strings Sample.st.toCtx sample ∧ Proper (treeOf Sample.st.toCtx sample) ∧
    readHtml fiveRefs (write (treeOf Sample.st.toCtx sample)) =
      [.start b%"h1" [(b%"hidden", []), (b%"title", b%"\" onload=\"x<Bob>")] false, .text b%"</h1><script>",
       .start b%"br" [] false, .start b%"script" [] false, .text b%"f()", .close b%"script",
       .comment b%" -- &gt; ", .close b%"h1"] := by
  refine ⟨?_, ?_, by decide +kernel⟩
  · simp [sample, Strings, StringsAll, AttrStrings, Part.HasString, keyValue]
    exact ⟨trivial, trivial⟩
  · have v : ∀ s, htmlTagMatch s = true → ValidName s := fun s => (htmlTagMatch_iff s).1
    refine ⟨v _ (by decide), by decide, ⟨?_, by decide⟩, .inr ⟨by decide, trivial, ?_, ?_, trivial, trivial⟩⟩
    · intro a ha
      simp only [List.map_cons, List.map_nil, List.mem_cons, List.not_mem_nil, or_false] at ha
      rcases ha with rfl | rfl <;> exact v _ (by decide)
    · exact ⟨v _ (by decide), by decide, ⟨by simp, by simp⟩, by decide⟩
    · refine ⟨v _ (by decide), by decide, ⟨by simp, by simp⟩, .inl ⟨by decide, ?_⟩⟩
      simp [treesOf, treeOf, Tree.IsText]

example := C37_reads_back_partial fiveRefs Sample.healthy .empty sample (s := Sample.st) rfl sample_proper.1 sample_proper.2.1

/-- Without the comment, everything is literal. -/
example := C37_exact_partial fiveRefs Sample.healthy .empty (.comment [.lit b%" -- ", .key b%"missing"]) (s := Sample.st) rfl
  (by intro p hp; simp at hp; rcases hp with rfl | rfl <;> trivial) trivial (show Simple _ by unfold Simple; decide)

/-- The full claim does not hold: a script `a<b` reads back as `a&lt;b`. -/
theorem C37_false : ¬ C37_claim := by
  intro hc
  let t : Src := .element b%"script" [] [.text [.lit b%"a<b"]]
  have hp : Proper (treeOf Sample.st.toCtx t) := by
    refine ⟨⟨c%'s', b%"cript", rfl, by decide, by decide⟩, by decide, ⟨by simp, by simp⟩, .inl ⟨by decide, ?_⟩⟩
    simp [treesOf, treeOf, Tree.IsText]
  have hs : Strings Sample.st.toCtx t := ⟨by intro a ha; simp at ha, by intro p hp; simp at hp; subst hp; trivial, trivial⟩
  obtain ⟨w, h1, h2⟩ := hc fiveRefs Sample.env Sample.healthy Heap.empty t Sample.st rfl hs hp
  obtain ⟨w', h3, h4⟩ := C37_reads_back_partial fiveRefs Sample.healthy Heap.empty t (s := Sample.st) rfl hs hp
  have : w = w' := writes_unique h1 h3
  subst this
  rw [h2] at h4
  revert h4
  decide

/-! ### C58 — data cannot bring tags or attributes into a page -/

section
variable {A B : List Bytes} (N : GoodNames A B) {P : Fns} (F : BuiltFns P) (S : SafeFns P) {c : Ctx}
  (he : c.frame.err = none) (hc : SafeCtx c) {n : Node} (ht : Tidy P A B .html false n) (hn : n.isAttr = false)
include N F S he hc ht hn

/-- **C58**.  A template with element names from `A` and attribute names from `B`, rendered in any context with data that
is escaped or harmless: the page consists of trees, every element properly ended and with no attribute twice, all names
from `A` and `B`; and an HTML reader sees exactly these trees. -/
theorem C58_well_formed (R : CharRefs) {w : Bytes} (hr : Renders P c n w) :
    ∃ ts, w = writeAll ts ∧ ProperAll ts ∧ WithinAll A B ts ∧ readHtml R w = items (toksAll false ts) := by
  rw [(tidy_built ht).renders_iff F he] at hr
  obtain ⟨ts, h1, h2, h3, _⟩ := out_trees N S hr hc hn (tidy_clean ht)
  exact ⟨ts, h1, h3, h2, by rw [h1]; exact read_write R ts h3⟩

/-- **C58**.  Every start tag that an HTML reader sees has a name from `A` and attributes from `B`; every end tag has a
name from `A` (up to case). -/
theorem C58_no_injection (R : CharRefs) {w : Bytes} (hr : Renders P c n w) :
    (∀ name attrs sc, .start name attrs sc ∈ readHtml R w →
      name ∈ A.map lower ∧ ∀ a ∈ attrs, a.1 ∈ B.map lower) ∧
    ∀ name, .close name ∈ readHtml R w → name ∈ A.map lower := by
  obtain ⟨ts, _, _, h2, h3⟩ := C58_well_formed N F S he hc ht hn R hr
  rw [h3]
  exact ⟨fun name attrs sc h => toksAll_within false ts h2 _ (items_start h),
    fun name h => toksAll_within false ts h2 _ (items_close h)⟩

end

/-- The functions and the context of the samples are harmless. -/
theorem safe_sample : SafeFns Sample.fns ∧ SafeCtx Sample.ctx := by
  have items : ∀ v ∈ [Any.str b%"x", .map 1, .int .int 7], SafeData v := by
    intro v hv
    simp only [List.mem_cons, List.not_mem_nil, or_false] at hv
    rcases hv with rfl | rfl | rfl <;> trivial
  refine ⟨⟨fun f c => ?_, fun f c => ?_, fun f c => ?_⟩, ⟨trivial, fun m k v h => ?_, fun r => trivial⟩⟩
  · unfold Sample.fns
    simp only
    split
    · have : (b%"dyn" : Bytes) = htmlEscapeString b%"dyn" := by decide
      rw [this]
      exact markupSafe_escape _
    · exact markupSafe_nil
  · unfold Sample.fns
    simp only
    split
    · exact items
    · simp
  · unfold Sample.fns
    simp only
    split
    · exact items
    · simp
  · unfold Sample.ctx Sample.maps at h
    simp only at h
    split at h
    · simp only [List.mem_cons, List.not_mem_nil, or_false, Prod.mk.injEq] at h
      rcases h with ⟨_, rfl⟩ | ⟨_, rfl⟩ | ⟨_, rfl⟩ | ⟨_, rfl⟩ <;> simp [SafeData, SafeDatas]
    · simp only [List.mem_cons, List.not_mem_nil, or_false, Prod.mk.injEq] at h
      obtain ⟨_, rfl⟩ := h
      trivial
    · simp at h

/-- A tidy template: a paragraph with an attribute from the data, hostile text, text from the data, a title, content
from a user function and an Imperative function that starts and ends a `p`. -/
def tidySample : Node :=
  (NewElement b%"div"
    [.node (NewAttribute (fun _ => []) b%"id" [.dynKey b%"name"]), .str b%"</div><script>", .dynKey b%"name",
     .node (NewElement b%"title" [.str b%"<"] Heap.empty).1, .node (ContentCollect (some 0)),
     .node (Imperative (some 0))] Heap.empty).1

theorem tidySample_any (L : Syntax) : GoodNames [b%"div", b%"title", b%"p"] [b%"id"] ∧ SafeFns Sample.fns ∧
    SafeCtx Sample.ctx ∧ Tidy Sample.fns [b%"div", b%"title", b%"p"] [b%"id"] L false tidySample ∧
    tidySample.isAttr = false := by
  refine ⟨⟨?_, ?_, ?_⟩, safe_sample.1, safe_sample.2, ?_, rfl⟩
  · intro a ha
    refine ⟨(htmlTagMatch_iff a).1 ?_, ?_⟩ <;> (revert a; decide)
  · intro a ha
    refine (htmlTagMatch_iff a).1 ?_
    revert a; decide
  · decide
  · refine .newElement _ _ _ (by decide) (by decide) ?_ ?_
    · intro v hv
      simp only [List.mem_cons, List.not_mem_nil, or_false] at hv
      rcases hv with rfl | rfl | rfl | rfl | rfl | rfl <;>
        first | exact .inl trivial | exact .inr ⟨_, rfl⟩
    · intro n hn
      simp only [nodesIn, List.filterMap_cons, List.filterMap_nil, List.mem_cons, List.not_mem_nil, or_false] at hn
      rcases hn with rfl | rfl | rfl | rfl
      · exact .newAttribute _ _ _ _ (by decide) trivial (by simp [SafeArg, SafeData])
      · refine .newTextElement _ _ _ (by decide) (by decide) ?_ ?_
        · intro v hv; simp at hv; subst hv; exact .inl trivial
        · simp [nodesIn]
      · refine .contentCollect _ _ fun c n hn => ?_
        simp [Sample.fns] at hn
        subst hn
        exact .text false (fun _ => []) [.str b%"collected"] (by simp [SafeArg, SafeData])
      · have hops : ∀ c, Sample.fns.imp 0 c = [.start b%"p" false [], .writeString b%"a<b", .end] := fun _ => rfl
        refine .imperative 0 ?_ ?_ ?_ ?_ ?_ <;> simp [hops, openAfter]
        · exact fun _ => by decide
        · rintro c name attrs n rfl rfl h
          simp at h

theorem tidySample_tidy : GoodNames [b%"div", b%"title", b%"p"] [b%"id"] ∧ SafeFns Sample.fns ∧ SafeCtx Sample.ctx ∧
    Tidy Sample.fns [b%"div", b%"title", b%"p"] [b%"id"] .html false tidySample ∧ tidySample.isAttr = false :=
  tidySample_any .html

example {w : Bytes} (hr : Renders Sample.fns Sample.ctx tidySample w) :=
  have ⟨h1, h2, h3, h4, h5⟩ := tidySample_tidy
  C58_no_injection h1 Sample.built h2 rfl h3 h4 h5 fiveRefs hr

/-- It writes something. -/
example : ∃ w, Renders Sample.fns Sample.ctx tidySample w :=
  ⟨_, Sample.env, Sample.healthy, Sample.computes, Sample.st, _, rfl, ⟨3, rfl⟩, rfl⟩

end Aitch.Props

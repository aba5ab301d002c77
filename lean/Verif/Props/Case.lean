import Verif.Proofs.Case
import Verif.Props.Elements
import Verif.Props.Markup
/-
C87: attributes whose names differ only in case.
C88: Element() with the name of a void element in another case.
-/
namespace Aitch.Props

open Spec Markup

/-! ### C87 — attributes whose names differ only in case -/

/-- The full claim: of several declarations of an attribute the last counts, whatever the case of their names: this is
what an HTML reader reads. -/
def C87_claim : Prop :=
  ∀ (R : CharRefs) (env : Env), Healthy env → ∀ (h : Heap) (name : Bytes) (attrs : List (Bytes × Option (List Part)))
    (s : St), s.frame.err = none → AttrStrings s.toCtx attrs → ValidName name → (∀ a ∈ attrs, ValidName a.1) →
    ∃ w as, Writes env (NewVoidElement name (attrs.map fun a => .node (buildAttr h a)) h).1 s w ∧
      readHtml R w = [.start (lower name) as false] ∧
      ∀ n, as.lookup (lower n) = (lastOf (attrs.map (attrOf s.toCtx)) n).map valueOf

section
variable (R : CharRefs) {env : Env} (H : Healthy env) (h : Heap) (name : Bytes) (attrs : List (Bytes × Option (List Part)))
  {s : St} (he : s.frame.err = none) (hs : AttrStrings s.toCtx attrs) (hn : ValidName name)
  (ha : ∀ a ∈ attrs, ValidName a.1)
include H he hs hn ha

/-- **C87** (part: the spelling that comes first).  Attributes with strings and data keys as values, and boolean ones,
in any number and with valid names: an HTML reader reads one start tag, and for each attribute in it the value declared
last under that spelling of its name which comes first; what is declared under other spellings is lost. -/
theorem C87_first_spelling_partial :
    ∃ w as, Writes env (NewVoidElement name (attrs.map fun a => .node (buildAttr h a)) h).1 s w ∧
      readHtml R w = [.start (lower name) as false] ∧
      ∀ n, as.lookup (lower n) = (firstSpelling (attrs.map (attrOf s.toCtx)) n).bind fun m =>
        (lastSpelled (attrs.map (attrOf s.toCtx)) m).map valueOf := by
  refine ⟨_, firstOnly ((kept (attrs.map (attrOf s.toCtx))).map fun a => (lower a.1, valueOf a)),
    voidTag_writes H h name attrs he hs, ?_, fun n => by rw [← lookup_kept, lookup_firstOnly]⟩
  · have hk : ∀ a ∈ kept (attrs.map (attrOf s.toCtx)), ValidName a.1 := by
      intro a h'
      rw [← keptSrc_of] at h'
      obtain ⟨b, hb, rfl⟩ := List.mem_map.1 h'
      exact ha b (keptSrc_mem hb)
    have := run_startTag_any R name _ hn hk []
    rw [List.append_nil] at this
    unfold readHtml
    rw [this, run_contentState_end]
    rfl

/-- **C87** (part: `OneSpelling`).  If no two names differ only in case, the last declaration counts. -/
theorem C87_partial (ho : OneSpelling (attrs.map (attrOf s.toCtx))) :
    ∃ w as, Writes env (NewVoidElement name (attrs.map fun a => .node (buildAttr h a)) h).1 s w ∧
      readHtml R w = [.start (lower name) as false] ∧
      ∀ n, as.lookup (lower n) = (lastOf (attrs.map (attrOf s.toCtx)) n).map valueOf := by
  obtain ⟨w, as, h1, h2, h3⟩ := C87_first_spelling_partial R H h name attrs he hs hn ha
  refine ⟨w, as, h1, h2, fun n => ?_⟩
  rw [h3 n]
  generalize attrs.map (attrOf s.toCtx) = l at ho
  unfold firstSpelling
  cases hf : l.find? fun a => lower a.1 = lower n with
  | none =>
    have : l.filter (fun a => lower a.1 = lower n) = [] := by
      rw [List.filter_eq_nil_iff]
      simpa using List.find?_eq_none.1 hf
    simp [lastOf, this]
  | some b =>
    have hb := List.mem_of_find?_eq_some hf
    have hl : lower b.1 = lower n := by simpa using List.find?_some hf
    have : (l.filter fun a => a.1 = b.1) = l.filter fun a => lower a.1 = lower n := by
      apply List.filter_congr
      intro a h'
      rw [← hl]
      by_cases e : a.1 = b.1
      · simp [e]
      · simp only [e, decide_false]
        have : ¬ lower a.1 = lower b.1 := fun e' => e (ho a h' b hb e')
        simp [this]
    unfold lastOf lastSpelled
    simp only [Option.map_some, Option.bind_some]
    rw [this]

end

/-- `id` twice, `title` with data, and `ID`. -/
def cases : List (Bytes × Option (List Part)) :=
  [(b%"id", some [.lit b%"a"]), (b%"title", some [.key b%"name"]), (b%"ID", some [.lit b%"b"]), (b%"id", some [.lit b%"c"])]

theorem cases_strings : AttrStrings Sample.st.toCtx cases := by
  intro a h p hp
  simp only [cases, List.mem_cons, List.not_mem_nil, or_false] at h
  rcases h with rfl | rfl | rfl | rfl <;> simp at hp <;> subst hp <;> trivial

theorem cases_valid : ∀ a ∈ cases, ValidName a.1 := by
  have : ∀ a ∈ cases, htmlTagMatch a.1 = true := by decide
  exact fun a h => (htmlTagMatch_iff _).1 (this a h)

example := C87_first_spelling_partial fiveRefs Sample.healthy .empty b%"img" cases (s := Sample.st) rfl cases_strings
  ((htmlTagMatch_iff _).1 (by decide)) cases_valid

/-- What is written, and what is read from it: `c` under `id`. -/
example : Writes Sample.env (NewVoidElement b%"img" (cases.map fun a => .node (buildAttr .empty a)) .empty).1 Sample.st
      b%"<img id=\"c\" title=\"&lt;Bob&gt;\" ID=\"b\">" ∧
    readHtml fiveRefs b%"<img id=\"c\" title=\"&lt;Bob&gt;\" ID=\"b\">" =
      [.start b%"img" [(b%"id", b%"c"), (b%"title", b%"<Bob>")] false] := by
  refine ⟨by refine ⟨_, ⟨1, rfl⟩, ?_, ?_⟩ <;> rfl, by decide⟩

/-- Without `ID` the condition is met. -/
example := C87_partial fiveRefs Sample.healthy .empty b%"img" (cases.eraseIdx 2) (s := Sample.st) rfl
  (fun a h => cases_strings a (List.mem_of_mem_eraseIdx h)) ((htmlTagMatch_iff _).1 (by decide))
  (fun a h => cases_valid a (List.mem_of_mem_eraseIdx h)) (by unfold OneSpelling; decide)

/-- `Attribute("id", "a")` followed by `Attribute("ID", "b")` reads as `a`. -/
theorem C87_false : ¬ C87_claim := by
  intro hc
  let l : List (Bytes × Option (List Part)) := [(b%"id", some [.lit b%"a"]), (b%"ID", some [.lit b%"b"])]
  have hs : AttrStrings Sample.st.toCtx l := by
    intro a h p hp
    simp only [l, List.mem_cons, List.not_mem_nil, or_false] at h
    rcases h with rfl | rfl <;> simp at hp <;> subst hp <;> trivial
  have hv : ∀ a ∈ l, ValidName a.1 := by
    have : ∀ a ∈ l, htmlTagMatch a.1 = true := by decide
    exact fun a h => (htmlTagMatch_iff _).1 (this a h)
  have hn : ValidName b%"img" := (htmlTagMatch_iff _).1 (by decide)
  obtain ⟨w, as, h1, h2, h3⟩ := hc fiveRefs Sample.env Sample.healthy .empty b%"img" l Sample.st rfl hs hn hv
  obtain ⟨w', as', k1, k2, k3⟩ := C87_first_spelling_partial fiveRefs Sample.healthy .empty b%"img" l rfl hs hn hv
  obtain rfl : w = w' := writes_unique h1 k1
  rw [h2] at k2
  obtain rfl : as = as' := by simpa using k2
  have := (h3 b%"id").symm.trans (k3 b%"id")
  revert this
  decide

/-! ### C88 — `Element` with the name of a void element in another case -/

/-- The full claim: an element made with `Element` reads as an element of HTML, void or not, whatever the case of its
name. -/
def C88_claim : Prop :=
  ∀ (R : CharRefs) (env : Env), Healthy env → ∀ (strict : Bool) (h : Heap) (name : Bytes)
    (attrs : List (Bytes × Option (List Part))) (children : List Src) (s : St), s.frame.err = none →
    Strings s.toCtx (.element name attrs children) → Proper (treeOf s.toCtx (.element name attrs children)) →
    ∃ n h' w, Element strict name (attrs.map (fun a => .node (buildAttr h a)) ++ (buildAll h children).map .node) h =
        .val (some n, h') ∧ Writes env n s w ∧
      readHtml R w = items (elementToks name (attrs.map (attrOf s.toCtx)) (treesOf s.toCtx children))

section
variable (R : CharRefs) {env : Env} (H : Healthy env) (strict : Bool) (h : Heap) (name : Bytes)
  (attrs : List (Bytes × Option (List Part))) (children : List Src) {s : St} (he : s.frame.err = none)
  (hs : Strings s.toCtx (.element name attrs children)) (hp : Proper (treeOf s.toCtx (.element name attrs children)))
include H he hs hp

/-- **C88** (part: names of void elements in lower case).  An element made with `Element`, with attributes and contents
as in C37, whose name is not the name of a void element in another case than lower case: it reads as that element, and
void elements have neither contents nor an end tag. -/
theorem C88_partial (hl : lower name ∈ htmlVoidNames → name ∈ htmlVoidNames) :
    ∃ n h' w, Element strict name (attrs.map (fun a => .node (buildAttr h a)) ++ (buildAll h children).map .node) h =
        .val (some n, h') ∧ Writes env n s w ∧
      readHtml R w = items (elementToks name (attrs.map (attrOf s.toCtx)) (treesOf s.toCtx children)) := by
  by_cases hv : name ∈ htmlVoidNames
  · have hlow : ∀ n ∈ htmlVoidNames, lower n ∈ htmlVoidNames ∧ lower n ∉ textNames := by decide
    have hp' : Proper (treeOf s.toCtx (.void name attrs)) := ⟨hp.1, hp.2.1, hp.2.2.1, (hlow name hv).2⟩
    obtain ⟨w, h1, h2⟩ := C37_reads_back_partial R H h (.void name attrs) he hs.1 hp'
    refine ⟨_, _, w, C08_void strict name _ h hv, ?_, ?_⟩
    · have hd : ProperAll (treesOf s.toCtx children) := by
        obtain ⟨_, _, _, ⟨ht, _⟩ | ⟨_, hc⟩⟩ := hp
        · exact absurd ht (hlow name hv).2
        · exact hc
      have hb := buildArgs_eq h attrs []
      rw [List.map_nil, List.append_nil] at hb
      have hee : (NewVoidElement name (argsOf (attrs.map (srcAttr h)) (buildAll h children)) h).1 =
          (NewVoidElement name (argsOf (attrs.map (srcAttr h)) []) h).1 := by
        have hleaf := (madeAll h children hs.2 hd).leaf
        apply congrArg Prod.fst
        refine C07_declarations_only name _ _ h ?_ ?_ ?_
        · rw [argsOf_nodes, argsOf_nodes, declaredAll_append, declaredAll_append, declaredAll_leaves [] hleaf]
          rfl
        · rw [argsOf_nodes]; exact separateAll_attrs 0 _ _ (separateAll_leaves 0 hleaf)
        · rw [argsOf_nodes]; exact separateAll_attrs 0 _ _ trivial
      rw [buildArgs_eq, hee, ← hb]
      exact h1
    · rw [h2]
      unfold elementToks
      rw [if_pos (hlow name hv).1]
      rfl
  · obtain ⟨w, h1, h2⟩ := C37_reads_back_partial R H h (.element name attrs children) he hs hp
    refine ⟨_, _, w, C08_other strict name _ h hp.1 hv, h1, ?_⟩
    rw [h2]
    unfold elementToks
    rw [if_neg fun h' => hv (hl h')]
    rfl

/-- What becomes of the others: `Element("BR")` reads as a start tag, the contents and an end tag. -/
theorem C88_other_case_partial (hl : name ∉ htmlVoidNames) :
    ∃ n h' w, Element strict name (attrs.map (fun a => .node (buildAttr h a)) ++ (buildAll h children).map .node) h =
        .val (some n, h') ∧ Writes env n s w ∧
      readHtml R w = items (toks false (treeOf s.toCtx (.element name attrs children))) := by
  obtain ⟨w, h1, h2⟩ := C37_reads_back_partial R H h (.element name attrs children) he hs hp
  exact ⟨_, _, w, C08_other strict name _ h hp.1 hl, h1, h2⟩

end

/-- The contents of the examples: an attribute, a text and an element. -/
def brAttrs : List (Bytes × Option (List Part)) := [(b%"title", some [.key b%"name"])]
@[inherit_doc brAttrs] def brChildren : List Src := [.text [.lit b%"a"], .element b%"B" [] [.text [.lit b%"<"]]]

theorem br_met (name : Bytes) (hn : htmlTagMatch name = true) (hp : lower name ≠ b%"plaintext") (ht : lower name ∉ textNames) :
    Strings Sample.st.toCtx (.element name brAttrs brChildren) ∧
      Proper (treeOf Sample.st.toCtx (.element name brAttrs brChildren)) := by
  have hb : ∀ n : Bytes, htmlTagMatch n = true → ValidName n := fun n h => (htmlTagMatch_iff n).1 h
  refine ⟨⟨?_, ?_, ⟨by simp [AttrStrings], ?_, trivial⟩, trivial⟩, hb name hn, hp, ⟨?_, ?_⟩, .inr ⟨ht, trivial, ?_, trivial⟩⟩
  · intro a h p hp
    simp only [brAttrs, List.mem_cons, List.not_mem_nil, or_false] at h
    subst h; simp at hp; subst hp; trivial
  · intro p hp; simp at hp; subst hp; trivial
  · intro p hp; simp at hp; subst hp; trivial
  · intro a h
    simp only [brAttrs, List.map_cons, List.map_nil, List.mem_cons, List.not_mem_nil, or_false] at h
    subst h; exact hb _ (by decide)
  · decide
  · exact ⟨hb _ (by decide), by decide, ⟨by simp, by simp⟩, .inr ⟨by decide, trivial, trivial⟩⟩

example := C88_partial fiveRefs Sample.healthy true .empty b%"br" brAttrs brChildren (s := Sample.st) rfl
  (br_met b%"br" (by decide) (by decide) (by decide)).1 (br_met b%"br" (by decide) (by decide) (by decide)).2 (by decide)

example := C88_partial fiveRefs Sample.healthy true .empty b%"DIV" brAttrs brChildren (s := Sample.st) rfl
  (br_met b%"DIV" (by decide) (by decide) (by decide)).1 (br_met b%"DIV" (by decide) (by decide) (by decide)).2 (by decide)

example := C88_other_case_partial fiveRefs Sample.healthy true .empty b%"BR" brAttrs brChildren (s := Sample.st) rfl
  (br_met b%"BR" (by decide) (by decide) (by decide)).1 (br_met b%"BR" (by decide) (by decide) (by decide)).2 (by decide)

/-- `Element("BR")` has an end tag, which for `br` a browser takes for another line break. -/
theorem C88_false : ¬ C88_claim := by
  intro hc
  obtain ⟨m1, m2⟩ := br_met b%"BR" (by decide) (by decide) (by decide)
  obtain ⟨n, h', w, h1, h2, h3⟩ := hc fiveRefs Sample.env Sample.healthy true .empty b%"BR" brAttrs brChildren Sample.st rfl m1 m2
  obtain ⟨n', k', w', k1, k2, k3⟩ := C88_other_case_partial fiveRefs Sample.healthy true .empty b%"BR" brAttrs brChildren
    (s := Sample.st) rfl m1 m2 (by decide)
  rw [h1] at k1
  obtain ⟨rfl, rfl⟩ : n = n' ∧ h' = k' := by simpa using k1
  obtain rfl : w = w' := writes_unique h2 k2
  rw [h3] at k3
  revert k3
  decide

end Aitch.Props

import Verif.Proofs.Links
import Verif.Props.Lines
/-
C93: data cannot decide where links lead.
-/
namespace Aitch.Props

open Spec Markup

/-- The full claim: if the texts that a template has in its links contain no colon, the links of its pages have no scheme
(such as `javascript`), whatever the data. -/
def C93_claim : Prop :=
  ∀ (R : CharRefs) (A B U : List Bytes), GoodNames A B → ∀ (P : Fns), BuiltFns P → SafeFns P → ∀ c : Ctx,
    c.frame.err = none → SafeCtx c → ∀ n, TidyWith P A B .html (NoColon U) false n → n.isAttr = false →
    ∀ w, Renders P c n w → ∀ name attrs sc, .start name attrs sc ∈ readPage R w → ∀ a ∈ attrs, a.1 ∈ U → scheme a.2 = none

section
variable {A B : List Bytes} (N : GoodNames A B) {P : Fns} (F : BuiltFns P) (S : SafeFns P) {c : Ctx}
  (he : c.frame.err = none) (hc : SafeCtx c) {U : List Bytes} {n : Node} (hn : n.isAttr = false)
include N F S he hc hn

/-- **C93** (part: `Schemes`).  In a template as in C58 let every attribute with a name in `U` (such as `href`, `src`,
`action`, `hx-get`) begin with a text of the template after which the scheme is settled, such as `/users/`, `https:` or
`?q=`, or be a text.  Then, whatever the data, the links that a browser finds in the page have the schemes (or none) that
these texts have. -/
theorem C93_schemes_partial {allowed : List (Option Bytes)} (ht : TidyWith P A B .html (Schemes U allowed) false n)
    (R : CharRefs) {w : Bytes} (hr : Renders P c n w) :
    ∀ name attrs sc, .start name attrs sc ∈ readPage R w → ∀ a ∈ attrs, a.1 ∈ U → scheme a.2 ∈ allowed :=
  page_fixed_browser N F S he hc (F := fun v => scheme v ∈ allowed)
    (fun v h => by rw [scheme_of_trimmed (trimmed_newlines v)]; exact h) (TidyWith.mono schemes_fixes ht) hn R hr

/-- **C93** (part: `LeadsHome`).  If the text with which such an attribute begins settles that the URL leads to the site of
the page, all links do, whatever the data. -/
theorem C93_local_partial (ht : TidyWith P A B .html (LeadsHome U) false n) (R : CharRefs) {w : Bytes} (hr : Renders P c n w) :
    ∀ name attrs sc, .start name attrs sc ∈ readPage R w → ∀ a ∈ attrs, a.1 ∈ U → OnSite a.2 :=
  page_fixed_browser N F S he hc (F := OnSite)
    (fun v h => ⟨by rw [scheme_of_trimmed (trimmed_newlines v)]; exact h.1, by rw [trimmed_newlines]; exact h.2⟩)
    (TidyWith.mono local_fixes ht) hn R hr

/-- **C93**.  The same for anything else that the beginnings of attributes can settle; in particular, attributes (such as
event handlers) for which the template has a text and nothing else are read as these texts. -/
theorem C93_fixed_partial {G : Bytes → Prop} (ht : TidyWith P A B .html (Fixes U G) false n) (R : CharRefs) {w : Bytes}
    (hr : Renders P c n w) :
    ∀ name attrs sc, .start name attrs sc ∈ readHtml R w → ∀ a ∈ attrs, a.1 ∈ U → G a.2 :=
  page_fixed N F S he hc ht hn R hr

end

/-- A link that consists of a text and a part from the data. -/
def link (s k : Bytes) : Src := .element b%"a" [(b%"href", some [.lit s, .key k])] []

theorem link_page (R : CharRefs) {env : Env} (H : Healthy env) (h : Heap) (s k : Bytes) {st : St} (he : st.frame.err = none)
    (hk : (Part.key k).HasString st.toCtx) :
    ∃ w, Writes env (build h (link s k)) st w ∧
      readPage R w = [.start b%"a" [(b%"href", newlines (seen s ++ seen ((Part.key k).string st.toCtx)))] false,
        .close b%"a"] := by
  have v : ∀ s, htmlTagMatch s = true → ValidName s := fun s => (htmlTagMatch_iff s).1
  obtain ⟨w, h1, h2⟩ := C85_reads_partial R H h (link s k) he
    (by
      refine ⟨fun a ha p hp => ?_, trivial⟩
      simp only [List.mem_singleton] at ha
      subst ha
      simp only [Option.getD_some, List.mem_cons, List.not_mem_nil, or_false] at hp
      rcases hp with rfl | rfl
      · trivial
      · exact hk)
    (by
      refine ⟨v _ (by decide), by decide, ⟨fun a ha => ?_, ?_⟩, .inr ⟨by decide, trivial⟩⟩
      · simp only [List.map_cons, List.map_nil, List.mem_singleton] at ha
        subst ha
        exact v b%"href" (by decide)
      · simp)
  refine ⟨w, h1, ?_⟩
  rw [h2, ← seen_append]
  simp [link, treeOf, treesOf, toks, toksAll, startTok, attrOf, stringOf, items, Item.lines, dropFirst, Part.string]
  decide

/-- A state in which the key `k` stands for the string `u`. -/
def linkState (k u : Bytes) : St :=
  { Sample.st with frame := { err := none, data := some 0, cargo := .str u }, maps := fun _ => [(k, .str u)] }

theorem linkState_string (k u : Bytes) :
    (Part.key k).HasString (linkState k u).toCtx ∧ (Part.key k).string (linkState k u).toCtx = u := by
  have : keyValue (linkState k u).toCtx k = some (.str u) := by
    unfold keyValue
    split
    · rfl
    · simp [Ctx.lookup, linkState, Sample.st, Sample.ctx]
  simp [Part.HasString, Part.string, this]

/-- **C93**.  The condition on the text is exact: the scheme of a link with the text `s` and a part from the data is
that of `s`, whatever the data, exactly if `s` settles it. -/
theorem C93_scheme_exact (R : CharRefs) {env : Env} (H : Healthy env) (h : Heap) (s k : Bytes) :
    settlesScheme (seen s) = true ↔
      ∀ st : St, st.frame.err = none → (Part.key k).HasString st.toCtx →
        ∃ w v, Writes env (build h (link s k)) st w ∧
          readPage R w = [.start b%"a" [(b%"href", v)] false, .close b%"a"] ∧ scheme v = scheme (seen s) := by
  constructor
  · intro hs st he hk
    obtain ⟨w, h1, h2⟩ := link_page R H h s k he hk
    exact ⟨w, _, h1, h2, by rw [scheme_of_trimmed (trimmed_newlines _), (settlesScheme_iff _).1 hs]⟩
  · intro hs
    have key : ∀ u, scheme (seen s ++ seen u) = scheme (seen s) := by
      intro u
      have hu := linkState_string k u
      obtain ⟨w, v, h1, h2, h3⟩ := hs (linkState k u) rfl hu.1
      obtain ⟨w', h4, h5⟩ := link_page R H h s k (st := linkState k u) rfl hu.1
      have : w = w' := writes_unique h1 h4
      subst this
      rw [h2, hu.2] at h5
      simp only [List.cons.injEq, Item.start.injEq, Prod.mk.injEq, and_true, true_and] at h5
      rw [h5, scheme_of_trimmed (trimmed_newlines _)] at h3
      exact h3
    rw [settlesScheme_iff']
    exact ⟨key b%"a:", key b%":"⟩

/-- **C93**.  Likewise: a link with the text `s` and a part from the data leads to the site of the page, whatever the
data, exactly if `s` settles it. -/
theorem C93_local_exact (R : CharRefs) {env : Env} (H : Healthy env) (h : Heap) (s k : Bytes) :
    settlesSite (seen s) = true ↔
      ∀ st : St, st.frame.err = none → (Part.key k).HasString st.toCtx →
        ∃ w v, Writes env (build h (link s k)) st w ∧
          readPage R w = [.start b%"a" [(b%"href", v)] false, .close b%"a"] ∧ OnSite v := by
  have nl : ∀ v, OnSite (newlines v) ↔ OnSite v := by
    intro v
    unfold OnSite
    rw [scheme_of_trimmed (trimmed_newlines v), trimmed_newlines]
  constructor
  · intro hs st he hk
    obtain ⟨w, h1, h2⟩ := link_page R H h s k he hk
    exact ⟨w, _, h1, h2, (nl _).2 ((settlesSite_iff _).1 hs _)⟩
  · intro hs
    have key : ∀ u, OnSite (seen s ++ seen u) := by
      intro u
      have hu := linkState_string k u
      obtain ⟨w, v, h1, h2, h3⟩ := hs (linkState k u) rfl hu.1
      obtain ⟨w', h4, h5⟩ := link_page R H h s k (st := linkState k u) rfl hu.1
      have : w = w' := writes_unique h1 h4
      subst this
      rw [h2, hu.2] at h5
      simp only [List.cons.injEq, Item.start.injEq, Prod.mk.injEq, and_true, true_and] at h5
      rw [h5, nl] at h3
      exact h3
    rw [settlesSite_iff']
    exact ⟨key [], key b%"a:", key b%":", key b%"/"⟩

/-- Texts that settle the scheme, and texts that do not. -/
example : settlesScheme b%"/users/" = true ∧ settlesScheme b%"https://" = true ∧ settlesScheme b%"?q=" = true ∧
    settlesScheme b%"" = false ∧ settlesScheme b%" \n" = false ∧ settlesScheme b%"java" = false ∧
    scheme b%" java\nscript:alert(1)" = some b%"javascript" ∧ scheme b%"HTTP://x" = some b%"http" ∧
    scheme b%"a/b:c" = none := by decide

/-- Texts that settle the site, and texts that do not: after `/` the data could bring another slash. -/
example : settlesSite b%"/users/" = true ∧ settlesSite b%"?q=" = true ∧ settlesSite b%"a/" = true ∧
    settlesSite b%"/" = false ∧ settlesSite b%"https://example.org/" = false ∧ settlesSite b%"" = false := by decide

/-- Two links, one with a part from the data. -/
def linksSample : Node :=
  (NewElement b%"div"
    [.node (NewElement b%"a" [.node (NewAttribute (fun _ => []) b%"href" [.str b%"/users/", .dynKey b%"name"]), .dynKey b%"name"]
      Heap.empty).1,
     .node (NewElement b%"a" [.node (NewAttribute (fun _ => []) b%"href" [.str b%"help"])] Heap.empty).1] Heap.empty).1

theorem linksSample_tidy {K : Decl → Prop} (h1 : K (.plain b%"href" [.str b%"/users/", .dynKey b%"name"]))
    (h2 : K (.plain b%"href" [.str b%"help"])) :
    GoodNames [b%"div", b%"a"] [b%"href"] ∧ TidyWith Sample.fns [b%"div", b%"a"] [b%"href"] .html K false linksSample ∧
      linksSample.isAttr = false := by
  refine ⟨⟨?_, ?_, ?_⟩, ?_, rfl⟩
  · intro a ha
    refine ⟨(htmlTagMatch_iff a).1 ?_, ?_⟩ <;> (revert a; decide)
  · intro a ha
    refine (htmlTagMatch_iff a).1 ?_
    revert a; decide
  · decide
  · refine .newElement _ _ _ (by decide) (by decide) ?_ ?_
    · intro v hv
      simp only [List.mem_cons, List.not_mem_nil, or_false] at hv
      rcases hv with rfl | rfl <;> exact .inr ⟨_, rfl⟩
    · intro n hn
      simp only [nodesIn, List.filterMap_cons, List.filterMap_nil, List.mem_cons, List.not_mem_nil, or_false] at hn
      rcases hn with rfl | rfl
      · refine .newElement _ _ _ (by decide) (by decide) ?_ ?_
        · intro v hv
          simp only [List.mem_cons, List.not_mem_nil, or_false] at hv
          rcases hv with rfl | rfl <;> first | exact .inl trivial | exact .inr ⟨_, rfl⟩
        · intro n hn
          simp only [nodesIn, List.filterMap_cons, List.filterMap_nil, List.mem_cons, List.not_mem_nil, or_false] at hn
          subst hn
          exact .newAttribute _ _ _ _ (by decide) h1 (by simp [SafeArg, SafeData])
      · refine .newElement _ _ _ (by decide) (by decide) ?_ ?_
        · intro v hv
          simp only [List.mem_cons, List.not_mem_nil, or_false] at hv
          subst hv; exact .inr ⟨_, rfl⟩
        · intro n hn
          simp only [nodesIn, List.filterMap_cons, List.filterMap_nil, List.mem_cons, List.not_mem_nil, or_false] at hn
          subst hn
          exact .newAttribute _ _ _ _ (by decide) h2 (by simp [SafeArg, SafeData])

/-- Its links have no scheme, in any context with harmless data. -/
example {c : Ctx} (he : c.frame.err = none) (hc : SafeCtx c) {w : Bytes} (hr : Renders Sample.fns c linksSample w) :=
  have ⟨h1, h2, h3⟩ := linksSample_tidy (K := Schemes [b%"href"] [none])
    (fun _ => ⟨b%"/users/", _, rfl, by decide, fun _ => by decide⟩) (fun _ => ⟨b%"help", _, rfl, by decide, by simp⟩)
  C93_schemes_partial h1 Sample.built safe_sample.1 he hc h3 h2 fiveRefs hr

/-- They lead to the site of the page. -/
example {c : Ctx} (he : c.frame.err = none) (hc : SafeCtx c) {w : Bytes} (hr : Renders Sample.fns c linksSample w) :=
  have ⟨h1, h2, h3⟩ := linksSample_tidy (K := LeadsHome [b%"href"])
    (fun _ => ⟨b%"/users/", _, rfl, (settlesSite_iff b%"/users/").1 (by decide) [], fun _ => by decide⟩)
    (fun _ => ⟨b%"help", _, rfl, ⟨by decide, by simp [seen, trimmed, slash]⟩, by simp⟩)
  C93_local_partial h1 Sample.built safe_sample.1 he hc h3 h2 fiveRefs hr

/-- The second link is read as its text, and the first begins with a slash. -/
example {c : Ctx} (he : c.frame.err = none) (hc : SafeCtx c) {w : Bytes} (hr : Renders Sample.fns c linksSample w) :=
  have ⟨h1, h2, h3⟩ := linksSample_tidy (K := Fixes [b%"href"] fun v => v.head? = some c%'/' ∨ v = b%"help")
    (fun _ => ⟨b%"/users/", _, rfl, .inl (by decide), fun _ _ => .inl rfl⟩) (fun _ => ⟨b%"help", _, rfl, .inr (by decide), by simp⟩)
  C93_fixed_partial h1 Sample.built safe_sample.1 he hc h3 h2 fiveRefs hr

/-- The hypotheses are met by a render that writes something. -/
example : ∃ w, Renders Sample.fns Sample.ctx linksSample w ∧ w ≠ [] :=
  ⟨_, ⟨Sample.env, Sample.healthy, Sample.computes, Sample.st, _, rfl, ⟨3, rfl⟩, rfl⟩, by decide⟩

/-- The full claim does not hold: the library does not look at the data that a link consists of. -/
theorem C93_false : ¬ C93_claim := by
  intro hcl
  have hk := linkState_string b%"u" b%"javascript:alert(1)"
  obtain ⟨w, ⟨s', h1, h2, _⟩, h3⟩ := link_page fiveRefs Sample.healthy Heap.empty b%"" b%"u"
    (st := linkState b%"u" b%"javascript:alert(1)") rfl hk.1
  have h := hcl fiveRefs [b%"a"] [b%"href"] [b%"href"]
    ⟨fun a ha => ⟨(htmlTagMatch_iff a).1 (by revert a; decide), by revert a; decide⟩,
      fun a ha => (htmlTagMatch_iff a).1 (by revert a; decide), by decide⟩ Sample.fns Sample.built safe_sample.1
    (linkState b%"u" b%"javascript:alert(1)").toCtx rfl
    ⟨trivial, fun m k v h => by simp [linkState] at h; rw [h.2]; trivial, fun r => trivial⟩
    (build Heap.empty (link b%"" b%"u"))
    (by
      refine .newElement b%"a" _ _ (by decide) (by decide) ?_ ?_
      · intro v hv
        simp only [List.map_cons, List.map_nil, buildAll, List.append_nil, List.mem_singleton] at hv
        exact .inr ⟨_, hv⟩
      · intro n hn
        simp only [List.map_cons, List.map_nil, buildAll, List.append_nil, nodesIn, List.filterMap_cons,
          List.filterMap_nil, List.mem_singleton] at hn
        subst hn
        refine .newAttribute _ _ _ _ (by decide) (fun _ s hs => ?_) (by simp [Part.arg, SafeArg, SafeData])
        simp only [List.map_cons, List.map_nil, Part.arg, List.mem_cons, List.not_mem_nil, or_false, Any.str.injEq,
          reduceCtorEq] at hs
        subst hs; simp)
    rfl w ⟨Sample.env, Sample.healthy, Sample.computes, _, s', rfl, h1, h2⟩
  rw [h3, hk.2] at h
  have := h _ _ _ (.head _) _ (.head _) (by decide)
  revert this
  decide

end Aitch.Props

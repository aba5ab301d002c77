import Verif.Proofs.Xml
import Verif.Props.Markup
import Verif.Props.Utf8
import Verif.Props.AttributeFns
import Verif.Model.SvgTables
/-
C90: pages that are XML.
-/
namespace Aitch.Props

open Spec Markup

/-- The full claim: a tree of elements with valid names, attributes with values, texts, and comments such as XML allows,
all of characters that XML allows, is written as well-formed XML that says what was meant. -/
def C90_claim : Prop :=
  ∀ (env : Env), Healthy env → ∀ (h : Heap) (t : Src) (s : St), s.frame.err = none →
    Strings s.toCtx t → Named (treeOf s.toCtx t) → Xml.IsElement (treeOf s.toCtx t) → Xml.Fits (treeOf s.toCtx t) →
    Xml.CharactersIn (treeOf s.toCtx t) →
    ∃ w, Writes env (build h t) s w ∧ Xml.Reads w (items (Xml.markup seen (treeOf s.toCtx t)))

/-- **C90**.  A tree of strings with valid names, no name twice in a tag, is written as well-formed XML if it is an
element, has no void elements, no attributes without value, no document types and no comments with two hyphens or one at
the end, and consists of characters that XML allows; and only then. -/
theorem C90_exact {env : Env} (H : Healthy env) (h : Heap) (t : Src) {s : St} (he : s.frame.err = none)
    (hs : Strings s.toCtx t) (hn : Named (treeOf s.toCtx t)) :
    ∃ w, Writes env (build h t) s w ∧
      (Xml.WellFormed w ↔ Xml.Characters w ∧ Xml.IsElement (treeOf s.toCtx t) ∧ Xml.Fits (treeOf s.toCtx t)) ∧
      (Xml.CharactersIn (treeOf s.toCtx t) → Xml.Characters w) := by
  have m := madeNamed h t hs hn
  refine ⟨_, writes_of_out H m.wf (m.free s.dl) he fun w' h' => (m.out noFns w').1 h', ?_, Xml.characters_write _ hn⟩
  constructor
  · rintro ⟨is, hr⟩
    obtain ⟨h1, h2, h3, _⟩ := (Xml.reads_write hn is).1 hr
    exact ⟨h1, h2, h3⟩
  · rintro ⟨h1, h2, h3⟩
    exact ⟨_, (Xml.reads_write hn _).2 ⟨h1, h2, h3, rfl⟩⟩

/-- **C90** (part: `escaped` instead of `seen`, line ends and white space).  What an XML reader gets from it: the tree, with
CR LF and CR replaced by LF, with white space in values replaced by spaces, with the texts of comments escaped. -/
theorem C90_reads_partial {env : Env} (H : Healthy env) (h : Heap) (t : Src) {s : St} (he : s.frame.err = none)
    (hs : Strings s.toCtx t) (hn : Named (treeOf s.toCtx t)) (hi : Xml.IsElement (treeOf s.toCtx t))
    (hf : Xml.Fits (treeOf s.toCtx t)) (hc : Xml.CharactersIn (treeOf s.toCtx t)) :
    ∃ w, Writes env (build h t) s w ∧ ∀ is, Xml.Reads w is ↔
      is = ((items (Xml.markup escaped (treeOf s.toCtx t))).map Item.lines).map Xml.itemSpaces := by
  have m := madeNamed h t hs hn
  refine ⟨_, writes_of_out H m.wf (m.free s.dl) he fun w' h' => (m.out noFns w').1 h', fun is => ?_⟩
  rw [Xml.reads_write hn]
  exact ⟨fun h => h.2.2.2, fun h => ⟨Xml.characters_write _ hn hc, hi, hf, h⟩⟩

/-- **C90** (part: `Unchanged`).  An XML reader gets what was meant if no text has a carriage return, no value a tab or line
end, no comment a carriage return or a character to be escaped; and only then. -/
theorem C90_meant_partial {env : Env} (H : Healthy env) (h : Heap) (t : Src) {s : St} (he : s.frame.err = none)
    (hs : Strings s.toCtx t) (hn : Named (treeOf s.toCtx t)) (hi : Xml.IsElement (treeOf s.toCtx t))
    (hf : Xml.Fits (treeOf s.toCtx t)) (hc : Xml.CharactersIn (treeOf s.toCtx t)) :
    ∃ w, Writes env (build h t) s w ∧ (Xml.Reads w (items (Xml.markup seen (treeOf s.toCtx t))) ↔
      ∀ i ∈ items (Xml.markup seen (treeOf s.toCtx t)), Xml.Unchanged i) := by
  obtain ⟨w, h1, h2⟩ := C90_reads_partial H h t he hs hn hi hf hc
  exact ⟨w, h1, by rw [h2, eq_comm, Xml.reads_meant]⟩

/-- A drawing with a text and a comment. -/
def drawing : Src :=
  .element b%"svg" [(b%"viewBox", some [.lit b%"0 0 8 8"]), (b%"data-q", some [.lit b%"\"a&b<", .key b%"name"])]
    [.element b%"linearGradient" [(b%"id", some [.lit b%"g"])] [], .comment [.lit b%" a - b "],
     .element b%"text" [] [.text [.lit b%"</svg>&'", .key b%"missing"]]]

theorem drawing_fits : Strings Sample.st.toCtx drawing ∧ Named (treeOf Sample.st.toCtx drawing) ∧
    Xml.IsElement (treeOf Sample.st.toCtx drawing) ∧ Xml.Fits (treeOf Sample.st.toCtx drawing) ∧
    Xml.CharactersIn (treeOf Sample.st.toCtx drawing) := by
  have v : ∀ s, htmlTagMatch s = true → ValidName s := fun s => (htmlTagMatch_iff s).1
  refine ⟨?_, ?_, trivial, ?_, ?_⟩
  · simp [drawing, Strings, StringsAll, AttrStrings, Part.HasString, keyValue]
    exact ⟨trivial, trivial⟩
  · refine ⟨v _ (by decide), ?_, by decide, ⟨v _ (by decide), ?_, by decide, trivial⟩, trivial,
      ⟨v _ (by decide), by simp, by simp, trivial, trivial⟩, trivial⟩
    · intro a ha
      simp only [List.map_cons, List.map_nil, List.mem_cons, List.not_mem_nil, or_false] at ha
      rcases ha with rfl | rfl <;> exact v _ (by decide)
    · intro a ha
      simp only [List.map_cons, List.map_nil, List.mem_cons, List.not_mem_nil, or_false] at ha
      subst ha
      exact v _ (by decide)
  · refine ⟨by decide, ⟨by decide, trivial⟩, ⟨?_, ?_⟩, ⟨by simp, trivial, trivial⟩, trivial⟩ <;> decide
  · refine ⟨?_, ⟨?_, trivial⟩, Xml.characters_ascii _ (by decide), ⟨by simp, Xml.characters_ascii _ (by decide), trivial⟩, trivial⟩
    · intro a ha x hx
      simp only [List.map_cons, List.map_nil, List.mem_cons, List.not_mem_nil, or_false] at ha
      rcases ha with rfl | rfl <;> (cases hx; exact Xml.characters_ascii _ (by decide))
    · intro a ha x hx
      simp only [List.map_cons, List.map_nil, List.mem_cons, List.not_mem_nil, or_false] at ha
      subst ha
      cases hx; exact Xml.characters_ascii _ (by decide)

example := have ⟨h1, h2, _, _, _⟩ := drawing_fits
  C90_exact Sample.healthy .empty drawing (s := Sample.st) rfl h1 h2

/-- What an XML reader gets from it. -/
example : ∃ w, Writes Sample.env (build Heap.empty drawing) Sample.st w ∧ Xml.Reads w
    [.start b%"svg" [(b%"viewBox", b%"0 0 8 8"), (b%"data-q", b%"\"a&b<<Bob>")] false,
     .start b%"linearGradient" [(b%"id", b%"g")] false, .close b%"linearGradient", .comment b%" a - b ",
     .start b%"text" [] false, .text b%"</svg>&'", .close b%"text", .close b%"svg"] := by
  have ⟨h1, h2, h3, h4, h5⟩ := drawing_fits
  obtain ⟨w, g1, g2⟩ := C90_reads_partial Sample.healthy .empty drawing (s := Sample.st) rfl h1 h2 h3 h4 h5
  exact ⟨w, g1, (g2 _).2 (by decide +kernel)⟩

/-- The full claim does not hold: a line end in a value comes back as a space. -/
theorem C90_false : ¬ C90_claim := by
  intro hc
  let t : Src := .element b%"desc" [(b%"title", some [.lit b%"a\nb"])] []
  have v : ∀ s, htmlTagMatch s = true → ValidName s := fun s => (htmlTagMatch_iff s).1
  have h1 : Strings Sample.st.toCtx t := by simp [t, Strings, StringsAll, AttrStrings, Part.HasString]
  have h2 : Named (treeOf Sample.st.toCtx t) := by
    refine ⟨v _ (by decide), ?_, by decide, trivial⟩
    intro a ha
    simp only [List.map_cons, List.map_nil, List.mem_cons, List.not_mem_nil, or_false] at ha
    subst ha
    exact v _ (by decide)
  have h4 : Xml.Fits (treeOf Sample.st.toCtx t) := ⟨by decide, trivial⟩
  have h5 : Xml.CharactersIn (treeOf Sample.st.toCtx t) := by
    refine ⟨?_, trivial⟩
    intro a ha x hx
    simp only [List.map_cons, List.map_nil, List.mem_cons, List.not_mem_nil, or_false] at ha
    subst ha
    cases hx; exact Xml.characters_ascii _ (by decide)
  obtain ⟨w, g1, g2⟩ := hc Sample.env Sample.healthy Heap.empty t Sample.st rfl h1 h2 trivial h4 h5
  obtain ⟨w', g3, g4⟩ := C90_meant_partial Sample.healthy Heap.empty t (s := Sample.st) rfl h1 h2 trivial h4 h5
  have : w = w' := writes_unique g1 g3
  subst this
  have := (g4.1 g2) (.start b%"desc" [(b%"title", b%"a\nb")] false) (by decide)
  exact (this _ (.head _)).2.1 (by decide)

/-! ### Templates -/

section
variable {A B : List Bytes} (N : GoodNames A B) {P : Fns} (F : BuiltFns P) (S : SafeFns P) {c : Ctx}
  (he : c.frame.err = none) (hc : SafeCtx c) {name : Bytes} {contents : List Any} {h : Heap}
  (ht : Tidy P A B .xml false (NewElement name contents h).1)
include N F S he hc ht

/-- **C90**.  An element made of a template with no void elements, no boolean attributes, no comments and no document
types, rendered in any context with data that is escaped or harmless: if the page has only characters that XML allows, it
is well-formed XML, and nothing else is needed. -/
theorem C90_template {w : Bytes} (hr : Renders P c (NewElement name contents h).1 w) :
    Xml.WellFormed w ↔ Xml.Characters w := by
  obtain ⟨t, h1, h2, _, h3, h4⟩ := Xml.root_tree N S hc (tidy_clean ht) (((tidy_built ht).renders_iff F he).1 hr)
  subst h1
  constructor
  · rintro ⟨is, hr⟩; exact ((Xml.reads_write h3.named is).1 hr).1
  · intro h; exact ⟨_, (Xml.reads_write h3.named _).2 ⟨h, h2, h4 rfl, rfl⟩⟩

/-- **C90**.  Every tag that an XML reader sees has a name from `A` and attributes from `B`, in the case in which they were
written. -/
theorem C90_no_injection {w : Bytes} (hr : Renders P c (NewElement name contents h).1 w) {is : List Item}
    (hx : Xml.Reads w is) :
    (∀ n attrs sc, .start n attrs sc ∈ is → n ∈ A ∧ ∀ a ∈ attrs, a.1 ∈ B) ∧ ∀ n, .close n ∈ is → n ∈ A := by
  obtain ⟨t, h1, h2, h5, h3, h4⟩ := Xml.root_tree N S hc (tidy_clean ht) (((tidy_built ht).renders_iff F he).1 hr)
  subst h1
  obtain ⟨-, -, -, rfl⟩ := (Xml.reads_write h3.named is).1 hx
  exact Xml.names_read h5

end

/-- If the texts of the template, of the data and of the user functions have only characters that XML allows, then so has
the page.  For any node and any functions, also such with side effects. -/
theorem C90_characters {env : Env} (H : Healthy env) (F : FnsTexts Xml.Characters env) {n : Node}
    (hn : NodeTexts Xml.Characters n) {s s' : St} {e : Option Err} (hs : MemoryTexts Xml.Characters s.toCtx)
    (h0 : s.log = []) (hr : Runs env n s e s') : Xml.Characters s'.out := by
  have h1 := (C70_class Xml.characters_class F hn hs (by rw [h0]; intro ev h; cases h) hr).1
  obtain ⟨fuel, hr⟩ := hr
  exact Xml.characters_accepted _ (exec_full H hr (by rw [h0]; intro ev h; cases h)) h1

/-- **C90**.  Together: the page is well-formed XML. -/
theorem C90_page {A B : List Bytes} (N : GoodNames A B) {env : Env} (H : Healthy env) {P : Fns} (hP : Computes env P)
    (F : BuiltFns P) (S : SafeFns P) (T : FnsTexts Xml.Characters env) {s s' : St} (he : s.frame.err = none)
    (hc : SafeCtx s.toCtx) (hs : MemoryTexts Xml.Characters s.toCtx) (h0 : s.log = []) {name : Bytes}
    {contents : List Any} {h : Heap} (ht : Tidy P A B .xml false (NewElement name contents h).1)
    (hn : NodeTexts Xml.Characters (NewElement name contents h).1)
    (hr : Runs env (NewElement name contents h).1 s none s') : Xml.WellFormed s'.out := by
  have ho : s.out = [] := by simp [St.out, h0, accepted]
  refine (C90_template N F S he hc ht ⟨env, H, hP, s, s', rfl, hr, ?_⟩).2 (C90_characters H T hn hs h0 hr)
  rw [ho, List.nil_append]

/-- **C90**.  All elements of package svg are such elements, and none of its attributes is boolean. -/
theorem C90_svg :
    (∀ f ∈ svgElements, ∀ contents h, f.call contents h = NewElement f.tag contents h) ∧
    ∀ f ∈ svgAttributes, f.kind ≠ .bool := by
  constructor
  · intro f hf contents h
    have : ∀ f ∈ svgElements, f.isVoid = false := by decide +kernel
    rw [ElemFn.call, this f hf, if_neg (by simp)]
  · exact fun f hf => C74_others f (List.mem_append.2 (.inl hf))

/-! The sample functions and data meet the hypotheses. -/

theorem sample_fns_characters : FnsTexts Xml.Characters Sample.env := by
  refine ⟨?_, fun _ _ h => h, fun _ _ h => h, ?_, fun _ _ h => h, ?_, fun _ _ h => h, ?_, ?_⟩
  · intro f s _
    change Xml.Characters (if f = 0 then b%"dyn" else [])
    split
    · exact Xml.characters_ascii _ (by decide)
    · exact Xml.characters_nil
  · intro f s n _ hn
    change some n ∈ (if f = 0 then _ else _) at hn
    split at hn
    · simp at hn; subst hn; exact ⟨⟨Xml.characters_ascii _ (by decide), trivial⟩, trivial⟩
    · simp at hn
  · intro f s _
    change AnysTexts Xml.Characters (if f = 0 then [.str b%"x", .map 1, .int .int 7] else [])
    split
    · exact ⟨Xml.characters_ascii _ (by decide), trivial, trivial, trivial⟩
    · trivial
  · intro f s _
    change YieldTexts Xml.Characters (yieldsOf (if f = 0 then [.str b%"x", .map 1, .int .int 7] else []))
    split
    · exact .yield (Xml.characters_ascii _ (by decide)) fun _ _ => .yield trivial fun _ _ => .yield trivial fun _ _ => .done
    · exact .done
  · intro f s _
    change ImpTexts Xml.Characters (impOf (if f = 0 then [.start b%"p" false [], .writeString b%"a<b", .end] else []))
    split
    · exact .call ⟨Xml.characters_ascii _ (by decide), by simp⟩ fun _ _ => .call (Xml.characters_ascii _ (by decide)) fun _ _ =>
        .call trivial fun _ _ => .ret
    · exact .ret

theorem sample_memory_characters : MemoryTexts Xml.Characters Sample.st.toCtx := by
  refine ⟨Xml.characters_ascii _ (by decide), fun f h => (List.not_mem_nil h).elim, ?_, fun _ => trivial⟩
  intro m p hp
  match m with
  | 0 =>
    rcases List.mem_cons.1 hp with rfl | hp
    · exact Xml.characters_ascii _ (by decide)
    rcases List.mem_cons.1 hp with rfl | hp
    · trivial
    rcases List.mem_cons.1 hp with rfl | hp
    · trivial
    rw [List.mem_singleton.1 hp]
    exact ⟨Xml.characters_ascii _ (by decide), Xml.characters_ascii _ (by decide), trivial⟩
  | 1 =>
    rw [List.mem_singleton.1 hp]
    exact Xml.characters_ascii _ (by decide)
  | m + 2 => cases hp

example {w : Bytes} (hr : Renders Sample.fns Sample.ctx tidySample w) :=
  have ⟨h1, h2, h3, h4, _⟩ := tidySample_any .xml
  (C90_template h1 Sample.built h2 rfl h3 h4 hr : Xml.WellFormed w ↔ Xml.Characters w)

example {w : Bytes} (hr : Renders Sample.fns Sample.ctx tidySample w) {is : List Item} (hx : Xml.Reads w is) :=
  have ⟨h1, h2, h3, h4, _⟩ := tidySample_any .xml
  C90_no_injection h1 Sample.built h2 rfl h3 h4 hr hx

theorem tidySample_characters : NodeTexts Xml.Characters tidySample := by
  have A : ∀ w : Bytes, (∀ c ∈ w, Xml.IsAscii c) → Xml.Characters w := Xml.characters_ascii
  have D : ∀ m ∈ [b%"lang", b%"head", b%"body", b%"html", b%"DOCTYPE"], Xml.Characters m := fun m hm => A m (by revert m; decide)
  have E := fun {n h h'} (hc : Constructs Xml.Characters h n h') hh => (texts_constructs Xml.characters_class D hc hh).1
  refine E (.newElement (A _ (by decide)) ⟨?_, A _ (by decide), trivial, ?_, trivial, trivial, trivial⟩) fun _ => trivial
  · exact E (h := Heap.empty) (.newAttribute (A _ (by decide)) ⟨trivial, trivial⟩) fun _ => trivial
  · exact E (.newElement (A _ (by decide)) ⟨A _ (by decide), trivial⟩) fun _ => trivial

example {s' : St} (hr : Runs Sample.env tidySample Sample.st none s') : Xml.WellFormed s'.out :=
  have ⟨h1, h2, h3, h4, _⟩ := tidySample_any .xml
  C90_page h1 Sample.healthy Sample.computes Sample.built h2 sample_fns_characters rfl h3 sample_memory_characters rfl h4
    tidySample_characters hr

end Aitch.Props

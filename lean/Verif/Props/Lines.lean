import Verif.Proofs.Lines
import Verif.Props.Markup
/-
C85: line ends.
-/
namespace Aitch.Props

open Spec Markup

/-- The full claim: what a browser sees of a tree of strings, with no character to be escaped where nothing is decoded,
is what was meant. -/
def C85_claim : Prop :=
  ∀ (R : CharRefs) (env : Env), Healthy env → ∀ (h : Heap) (t : Src) (s : St), s.frame.err = none →
    Strings s.toCtx t → Proper (treeOf s.toCtx t) → Literal false (treeOf s.toCtx t) →
    ∃ w, Writes env (build h t) s w ∧ readPage R w = items (meant (treeOf s.toCtx t))

/-- **C85** (part: line ends are normalised).  For every tree as in C37: a browser sees exactly what an HTML reader gets
from the tree, with CR LF and CR in every text, attribute value and comment replaced by LF, and without an LF right
after the start of a `pre`, `listing` or `textarea`. -/
theorem C85_reads_partial (R : CharRefs) {env : Env} (H : Healthy env) (h : Heap) (t : Src) {s : St}
    (he : s.frame.err = none) (hs : Strings s.toCtx t) (hp : Proper (treeOf s.toCtx t)) :
    ∃ w, Writes env (build h t) s w ∧
      readPage R w = dropFirst ((items (toks false (treeOf s.toCtx t))).map Item.lines) := by
  have m := made h t hs hp
  refine ⟨_, writes_of_out H m.wf (m.free s.dl) he fun w' h' => (m.out noFns w').1 h', ?_⟩
  have := read_newlines R [treeOf s.toCtx t] ⟨hp, trivial⟩
  simp only [writeAll, toksAll, List.append_nil] at this
  rw [readPage, this]

/-- **C85** (part: `LinesKept`).  Without carriage returns, and line feeds at the start of a `pre`, `listing` or
`textarea`, a browser sees what was meant. -/
theorem C85_exact_partial (R : CharRefs) {env : Env} (H : Healthy env) (h : Heap) (t : Src) {s : St}
    (he : s.frame.err = none) (hs : Strings s.toCtx t) (hp : Proper (treeOf s.toCtx t))
    (hl : Literal false (treeOf s.toCtx t)) (hk : LinesKept (items (meant (treeOf s.toCtx t)))) :
    ∃ w, Writes env (build h t) s w ∧ readPage R w = items (meant (treeOf s.toCtx t)) := by
  obtain ⟨w, h1, h2⟩ := C85_reads_partial R H h t he hs hp
  exact ⟨w, h1, by rw [h2, toks_meant _ _ hl, linesKept_read hk]⟩

/-- A paragraph with a line break in its title and in its text, and a `pre`. -/
def lines : Src :=
  .element b%"p" [(b%"title", some [.lit b%"a\r\nb"])]
    [.text [.lit b%"c\r"], .text [.lit b%"\nd"], .element b%"pre" [] [.text [.lit b%"\n\ne"]]]

theorem lines_proper : Strings Sample.st.toCtx lines ∧ Proper (treeOf Sample.st.toCtx lines) := by
  refine ⟨?_, ?_⟩
  · simp [lines, Strings, StringsAll, AttrStrings, Part.HasString]
  · have v : ∀ s, htmlTagMatch s = true → ValidName s := fun s => (htmlTagMatch_iff s).1
    refine ⟨v _ (by decide), by decide, ⟨?_, by decide⟩, .inr ⟨by decide, trivial, trivial, ?_, trivial⟩⟩
    · intro a ha
      simp only [List.map_cons, List.map_nil, List.mem_cons, List.not_mem_nil, or_false] at ha
      rcases ha with rfl
      exact v _ (by decide)
    · exact ⟨v _ (by decide), by decide, ⟨by simp, by simp⟩, .inr ⟨by decide, trivial, trivial⟩⟩

/-- A browser sees one line feed each time. -/
example : ∃ w, Writes Sample.env (build Heap.empty lines) Sample.st w ∧ readPage fiveRefs w =
    [.start b%"p" [(b%"title", b%"a\nb")] false, .text b%"c\nd", .start b%"pre" [] false, .text b%"\ne",
     .close b%"pre", .close b%"p"] := by
  obtain ⟨w, h1, h2⟩ := C85_reads_partial fiveRefs Sample.healthy Heap.empty lines (s := Sample.st) rfl
    lines_proper.1 lines_proper.2
  exact ⟨w, h1, by rw [h2]; decide +kernel⟩

/-- With line feeds only, and none at the start, it sees what was meant. -/
example : ∃ w, Writes Sample.env (build Heap.empty (.element b%"pre" [] [.text [.lit b%"a\n<b>"]])) Sample.st w ∧
    readPage fiveRefs w = [.start b%"pre" [] false, .text b%"a\n<b>", .close b%"pre"] := by
  have v : ∀ s, htmlTagMatch s = true → ValidName s := fun s => (htmlTagMatch_iff s).1
  have e : items (meant (treeOf Sample.st.toCtx (.element b%"pre" [] [.text [.lit b%"a\n<b>"]]))) =
      [.start b%"pre" [] false, .text b%"a\n<b>", .close b%"pre"] := by decide +kernel
  obtain ⟨w, h1, h2⟩ := C85_exact_partial fiveRefs Sample.healthy Heap.empty
    (.element b%"pre" [] [.text [.lit b%"a\n<b>"]]) (s := Sample.st) rfl
    (by simp [Strings, StringsAll, AttrStrings, Part.HasString])
    ⟨v _ (by decide), by decide, ⟨by simp, by simp⟩, .inr ⟨by decide, trivial, trivial⟩⟩
    (by refine ⟨?_, trivial⟩; rw [show decide (lower b%"pre" ∈ rawtextNames) = false by decide]; exact nofun)
    (by
      rw [e]
      refine ⟨by decide, ?_⟩
      intro before n as sc s after h hn
      match before, h with
      | [], h => simp at h; rw [← h.2.1]; decide
      | [_], h => simp at h
      | [_, _], h => simp at h
      | _ :: _ :: _ :: _, h => simp at h)
  exact ⟨w, h1, by rw [h2, e]⟩

/-- The full claim does not hold: a carriage return is lost. -/
theorem C85_false : ¬ C85_claim := by
  intro hc
  obtain ⟨w, h1, h2⟩ := hc fiveRefs Sample.env Sample.healthy Heap.empty (.text [.lit b%"\r"]) Sample.st rfl
    (by simp [Strings, Part.HasString]) trivial nofun
  obtain ⟨w', h3, h4⟩ := C85_reads_partial fiveRefs Sample.healthy Heap.empty (.text [.lit b%"\r"]) (s := Sample.st) rfl
    (by simp [Strings, Part.HasString]) trivial
  have : w = w' := writes_unique h1 h3
  subst this
  rw [h2] at h4
  revert h4
  decide +kernel

section
variable {A B : List Bytes} (N : GoodNames A B) {P : Fns} (F : BuiltFns P) (S : SafeFns P) {c : Ctx}
  (he : c.frame.err = none) (hc : SafeCtx c) {n : Node} (ht : Tidy P A B .html false n) (hn : n.isAttr = false)
include N F S he hc ht hn

/-- **C85**.  Line ends bring no tags into a page: for a template as in C58, what a browser sees is what an HTML reader
gets, line ends apart. -/
theorem C85_template (R : CharRefs) {w : Bytes} (hr : Renders P c n w) :
    readPage R w = dropFirst ((readHtml R w).map Item.lines) := by
  obtain ⟨ts, h1, h2, _, h3⟩ := C58_well_formed N F S he hc ht hn R hr
  rw [h3, readPage, h1, read_newlines R ts h2]

/-- **C85**.  Every start tag that a browser sees has a name from `A` and attributes from `B`, and every end tag a name
from `A`. -/
theorem C85_no_injection (R : CharRefs) {w : Bytes} (hr : Renders P c n w) :
    (∀ name attrs sc, .start name attrs sc ∈ readPage R w →
      name ∈ A.map lower ∧ ∀ a ∈ attrs, a.1 ∈ B.map lower) ∧
    ∀ name, .close name ∈ readPage R w → name ∈ A.map lower := by
  have key := C58_no_injection N F S he hc ht hn R hr
  rw [C85_template N F S he hc ht hn R hr]
  refine ⟨fun name attrs sc h => ?_, fun name h => ?_⟩
  · rw [mem_dropFirst (by simp)] at h
    obtain ⟨i, hi, e⟩ := List.mem_map.1 h
    cases i <;> simp only [Item.lines, Item.start.injEq, reduceCtorEq] at e
    obtain ⟨rfl, rfl, rfl⟩ := e
    obtain ⟨k1, k2⟩ := key.1 _ _ _ hi
    refine ⟨k1, fun a ha => ?_⟩
    obtain ⟨a', ha', rfl⟩ := List.mem_map.1 ha
    exact k2 a' ha'
  · rw [mem_dropFirst (by simp)] at h
    obtain ⟨i, hi, e⟩ := List.mem_map.1 h
    cases i <;> simp only [Item.lines, Item.close.injEq, reduceCtorEq] at e
    subst e
    exact key.2 _ hi

end

example {w : Bytes} (hr : Renders Sample.fns Sample.ctx tidySample w) :=
  have ⟨h1, h2, h3, h4, h5⟩ := tidySample_tidy
  C85_no_injection h1 Sample.built h2 rfl h3 h4 h5 fiveRefs hr

end Aitch.Props

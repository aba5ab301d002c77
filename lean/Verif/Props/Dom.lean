import Verif.Proofs.Checks
import Verif.Proofs.Received
import Verif.Props.Lines
/-
C95: the DOM that a browser builds from a page.
-/
namespace Aitch.Props

open Spec Markup

/-- The full claim: the DOM of a page built with `Document` out of strings consists of the elements, attributes, texts
and comments that it was built from. -/
def C95_claim : Prop :=
  ∀ (R : CharRefs) (env : Env), Healthy env → ∀ (h : Heap) (p : Page) (s : St), s.frame.err = none →
    p.Strings s.toCtx → ProperAll (p.trees s.toCtx) → LiteralAll false (p.trees s.toCtx) →
    LinesKept (items (meantAll (p.trees s.toCtx))) →
    ∃ w, Writes env (p.build h) s w ∧ domOf (readPage R w) = some (p.dom s.toCtx)

/-- **C95** (part: `Page.fits`).  If no element of the page ends another one that it is in, and the tables are made of
sections, rows and cells, then the DOM is the tree of nodes. -/
theorem C95_dom_partial (R : CharRefs) {env : Env} (H : Healthy env) (h : Heap) (p : Page) {s : St}
    (he : s.frame.err = none) (hs : p.Strings s.toCtx) (hp : ProperAll (p.trees s.toCtx))
    (hl : LiteralAll false (p.trees s.toCtx)) (hk : LinesKept (items (meantAll (p.trees s.toCtx))))
    (hf : p.fits s.toCtx = true) :
    ∃ w, Writes env (p.build h) s w ∧ domOf (readPage R w) = some (p.dom s.toCtx) := by
  have m := page_made (h := h) hs hp
  refine ⟨_, writes_of_out H m.wf (m.free s.dl) he fun w' h' => (m.out noFns w').1 h', ?_⟩
  rw [readPage, read_newlines R _ hp, toksAll_meant false _ hl, linesKept_read hk]
  obtain ⟨-, -, -, h4, h5⟩ := page_proper hp
  rw [Page.fits, Bool.and_eq_true] at hf
  exact dom_page h4 h5 hf.1 hf.2 p.headless fun hh => by
    rw [(headless_iff.1 hh).1, (headless_iff.1 hh).2]
    exact ⟨rfl, rfl⟩

/-- **C95** (part: `Page.fits`).  Whatever the strings are, the DOM has the elements, attributes and comments of the page
where they were put, and its texts; line ends are normalised, and in comments and raw text elements the entities that
`Text` and `Comment` write for the characters of markup are left as they are. -/
theorem C95_received_partial (R : CharRefs) {env : Env} (H : Healthy env) (h : Heap) (p : Page) {s : St}
    (he : s.frame.err = none) (hs : p.Strings s.toCtx) (hp : ProperAll (p.trees s.toCtx))
    (hf : p.fits s.toCtx = true) :
    ∃ w, Writes env (p.build h) s w ∧ domOf (readPage R w) = some (p.received s.toCtx) := by
  have m := page_made (h := h) hs hp
  refine ⟨_, writes_of_out H m.wf (m.free s.dl) he fun w' h' => (m.out noFns w').1 h', ?_⟩
  obtain ⟨-, -, -, h4, h5⟩ := page_proper hp
  rw [Page.fits, Bool.and_eq_true] at hf
  exact dom_received R h4 h5 hf.1 hf.2 p.headless (fun hh => by
    rw [(headless_iff.1 hh).1, (headless_iff.1 hh).2]
    exact ⟨rfl, rfl⟩) hp

/-- A page with strings that do not arrive as they are. -/
def oddPage : Page where
  lang := none
  headAttrs := []
  head := [.element b%"script" [] [.text [.lit b%"a && b"]]]
  bodyAttrs := [(b%"title", some [.lit b%"a\r\nb"])]
  body := [.comment [.lit b%"a<b"], .element b%"pre" [] [.text [.lit b%""], .text [.lit b%"\r"], .text [.lit b%"\nc"]],
    .text [.lit b%"d\r"], .text [.lit b%"\ne"], .element b%"textarea" [] [.text [.lit b%"\n"]]]

example : ∃ w, Writes Sample.env (oddPage.build Heap.empty) Sample.st w ∧ domOf (readPage fiveRefs w) = some
    [.doctype b%"DOCTYPE html", .element b%"html" []
      [.element b%"head" [] [.element b%"script" [] [.text b%"a &amp;&amp; b"]],
       .element b%"body" [(b%"title", b%"a\nb")] [.comment b%"a&lt;b", .element b%"pre" [] [.text b%"c"], .text b%"d\ne",
         .element b%"textarea" [] []]]] := by
  have h1 : oddPage.Strings Sample.st.toCtx := by
    have h : (oddPage.lang.all (Part.hasString Sample.st.toCtx) && attrStringsB Sample.st.toCtx oddPage.headAttrs &&
      stringsAllB Sample.st.toCtx oddPage.head && attrStringsB Sample.st.toCtx oddPage.bodyAttrs &&
      stringsAllB Sample.st.toCtx oddPage.body) = true := by decide +kernel
    simp only [Bool.and_eq_true] at h
    exact ⟨nofun, attrStringsB_ok h.1.1.1.2, stringsAllB_ok _ _ h.1.1.2, attrStringsB_ok h.1.2, stringsAllB_ok _ _ h.2⟩
  obtain ⟨w, hw, hd⟩ := C95_received_partial fiveRefs Sample.healthy Heap.empty oddPage (s := Sample.st) rfl h1
    (properAllB_ok _ (by decide +kernel)) (by decide +kernel)
  exact ⟨w, hw, hd.trans rfl⟩

/-- A page with a bit of everything: a title from the data, a list, a table and a form. -/
def domPage : Page where
  lang := some (.lit b%"en")
  headAttrs := []
  head := [.element b%"title" [] [.text [.key b%"name"]], .void b%"meta" [(b%"charset", some [.lit b%"utf-8"])]]
  bodyAttrs := [(b%"class", some [.lit b%"a b"])]
  body := [.comment [.lit b%" hi "], .element b%"p" [] [.text [.lit b%"a<b"], .text [.key b%"name"],
      .element b%"a" [(b%"href", some [.lit b%"/?x&y"])] [.element b%"em" [] [.text [.lit b%"go"]]], .void b%"br" []],
    .element b%"ul" [] [.element b%"li" [] [.element b%"p" [] [.text [.lit b%"x"]]],
      .element b%"li" [] [.element b%"ul" [] [.element b%"li" [] []]]],
    .element b%"table" [] [.element b%"tbody" [] [.element b%"tr" [] [.element b%"td" [] [.text [.lit b%"1"]],
      .element b%"td" [] [.element b%"h1" [] [.text [.lit b%"2"]]]]]],
    .element b%"form" [] [.void b%"input" [(b%"disabled", none)], .element b%"button" [] [.text [.lit b%"ok"]]]]

theorem domPage_fits : domPage.fits Sample.st.toCtx = true := by decide +kernel

/-- The sample meets the conditions, and this is its DOM. -/
example : ∃ w, Writes Sample.env (domPage.build Heap.empty) Sample.st w ∧ domOf (readPage fiveRefs w) = some
    [.doctype b%"DOCTYPE html", .element b%"html" [(b%"lang", b%"en")]
      [.element b%"head" [] [.element b%"title" [] [.text b%"<Bob>"], .element b%"meta" [(b%"charset", b%"utf-8")] []],
       .element b%"body" [(b%"class", b%"a b")] [.comment b%" hi ", .element b%"p" [] [.text b%"a<b<Bob>",
          .element b%"a" [(b%"href", b%"/?x&y")] [.element b%"em" [] [.text b%"go"]], .element b%"br" [] []],
        .element b%"ul" [] [.element b%"li" [] [.element b%"p" [] [.text b%"x"]],
          .element b%"li" [] [.element b%"ul" [] [.element b%"li" [] []]]],
        .element b%"table" [] [.element b%"tbody" [] [.element b%"tr" [] [.element b%"td" [] [.text b%"1"],
          .element b%"td" [] [.element b%"h1" [] [.text b%"2"]]]]],
        .element b%"form" [] [.element b%"input" [(b%"disabled", b%"")] [],
          .element b%"button" [] [.text b%"ok"]]]]] := by
  obtain ⟨h1, h2, h3, h4⟩ := Page.checks_ok (c := Sample.st.toCtx) (p := domPage) (by decide +kernel)
  obtain ⟨w, hw, hd⟩ := C95_dom_partial fiveRefs Sample.healthy Heap.empty domPage (s := Sample.st) rfl h1 h2 h3 h4
    domPage_fits
  exact ⟨w, hw, hd.trans rfl⟩

/-- A paragraph in which there is a block. -/
def blockInP : Page where
  lang := none
  headAttrs := []
  head := []
  bodyAttrs := []
  body := [.element b%"p" [] [.element b%"div" [] [.text [.lit b%"x"]]]]

/-- How many children the body has. -/
def bodySize : List Dom → Nat
  | [_, .element _ _ [_, .element _ _ kids]] => kids.length
  | _ => 0

/-- The full claim does not hold: a block in a paragraph ends the paragraph. -/
theorem C95_false : ¬ C95_claim := by
  intro h
  obtain ⟨h1, h2, h3, h4⟩ := Page.checks_ok (c := Sample.st.toCtx) (p := blockInP) (by decide +kernel)
  obtain ⟨w, hw, hd⟩ := h fiveRefs _ Sample.healthy Heap.empty blockInP Sample.st rfl h1 h2 h3 h4
  have m := page_made (h := Heap.empty) h1 h2
  have e := writes_unique hw (writes_of_out Sample.healthy m.wf (m.free _) rfl fun w' h' => (m.out noFns w').1 h')
  subst e
  rw [readPage, read_newlines _ _ h2, toksAll_meant false _ h3, linesKept_read h4] at hd
  have h5 := congrArg (Option.map bodySize) hd
  revert h5
  decide +kernel

end Aitch.Props

import Verif.Proofs.Back
import Verif.Props.RoundTrip
/-
C97: from HTML to code, and what of it is to be found in the page.
-/
namespace Aitch.Props
open Spec Markup Back

deriving instance DecidableEq for Aitch.Token
instance (s : Bytes) : Decidable (Plainly s) := inferInstanceAs (Decidable (∀ c ∈ s, _))

/-! ### C97 — the page of the generated code shows what the input shows (false in general) -/

/-- The code, run at `h`, gives a node that writes a page of which the same is to be seen as of `html`. -/
def ShowsAgain (R : CharRefs) (xml strict : Bool) (html src : Bytes) (h : Heap) : Prop :=
  ∃ n h' w, RunsTo strict src h n h' ∧
    (∀ env s, Healthy env → s.frame.err = none → (∀ r, r < h'.next → s.dl r = h'.dl r) → Writes env n s w) ∧
    visible xml (tokenize R w) = visible xml (tokenize R html)

/-- The full claim: it holds for all HTML texts. -/
def C97_claim : Prop := ∀ (R : CharRefs) (p : GenPkg) (xml : Bool), IsPkg p → ∀ html src,
  Generates p (tokenize R html) src → ∀ strict h, ShowsAgain R xml strict html src h

/-- It is false: the code for `<br>` does not even compile. -/
theorem C97_false : ¬ C97_claim := by
  intro hc
  have e : tokenize fiveRefs b%"<br>" = tokensAll lineBreak := by decide +kernel
  obtain ⟨n, h', w, ⟨e, hd, -⟩, -⟩ := hc fiveRefs htmlPkg false (.inl rfl) b%"<br>" lineBreakCode (e ▸ lineBreak_generates)
    false ⟨fun _ => [], 0⟩
  exact lineBreak_unbalanced hd.balanced

/-- What holds: all is to be seen again, in the same order (tags, names, attributes with their values, texts that are not
blank, comments, doctypes), if the input is well nested and has nothing of what is lost (`KeptAll`).  Missing: void
elements written without a slash, HTML elements written as `<div/>`, boolean attributes with values, texts to be escaped
in comments, doctypes and elements like `script`, attributes given twice, and names that are not valid. -/
theorem C97_shows_partial (R : CharRefs) {p : GenPkg} (hp : IsPkg p) {xml : Bool} {html : Bytes} {ds : List Doc}
    (ht : tokenize R html = tokensAll ds) (hu : UsableAll p ds) (hk : KeptAll p xml false ds) (hs : DocsApart ds)
    {src : Bytes} (hg : Generates p (tokenize R html) src) (strict : Bool) (h : Heap) :
    ShowsAgain R xml strict html src h := by
  rw [ht] at hg
  obtain ⟨n, h', h1, h2⟩ := C57_renders_partial hp (keptAll_closed ds hk) hu hg strict h
  exact ⟨n, h', _, h1, h2, by rw [read_back R hu hk hs, ht]⟩

/-- There is code for every such text. -/
theorem C97_code (R : CharRefs) (p : GenPkg) {xml : Bool} {html : Bytes} {ds : List Doc}
    (ht : tokenize R html = tokensAll ds) (hk : KeptAll p xml false ds) : ∃ src, Generates p (tokenize R html) src :=
  ⟨_, ht ▸ generates_program p (keptAll_closed ds hk)⟩

/-- In HTML `<div/>` is a start tag, but the code makes it an element with an end tag: what followed as its content stands
after it. -/
theorem C97_slash {src : Bytes} (hg : Generates htmlPkg [.selfClosingTag b%"div" [], .text b%"x"] src)
    (strict : Bool) (h : Heap) : ∃ n h', RunsTo strict src h n h' ∧
      ∀ env s, Healthy env → s.frame.err = none → (∀ r, r < h'.next → s.dl r = h'.dl r) →
        Writes env n s b%"<div></div>x" := by
  have key : UsableName htmlPkg.elems b%"div" := ⟨by decide, fun hn => absurd hn (by decide +kernel)⟩
  exact C57_renders_partial (ds := [.selfClosing b%"div" [], .text b%"x"]) (.inl rfl) ⟨trivial, trivial, trivial⟩
    ⟨⟨key, by simp, by simp⟩, trivial, trivial⟩ hg strict h

example : tokenize fiveRefs b%"<div/>x" = [.selfClosingTag b%"div" [], .text b%"x"] ∧
    visible false (tokenize fiveRefs b%"<div></div>x") ≠ visible false (tokenize fiveRefs b%"<div/>x") ∧
    visible true (tokenize fiveRefs b%"<div></div>x") = visible true (tokenize fiveRefs b%"<div/>x") := by
  decide +kernel

/-- An HTML text as people write them. -/
def handClosed : Bytes := b%"<!doctype  html>\r\n<UL class='a b'>\r\n  <li hidden>1 &lt; 2<br/></li>\n  <!-- c -->\n</ul><style>\np {}</style>\n"

/-- What is written there. -/
def handWrittenDocs : List Doc :=
  [.doctype b%"html", .text b%"\n",
   .elem b%"ul" [(b%"class", b%"a b")] [.text b%"\n  ",
     .elem b%"li" [(b%"hidden", b%"")] [.text b%"1 < 2", .selfClosing b%"br" []], .text b%"\n  ", .comment b%" c ", .text b%"\n"],
   .elem b%"style" [] [.text b%"\np {}"], .text b%"\n"]

theorem handClosed_kept : tokenize fiveRefs handClosed = tokensAll handWrittenDocs ∧ UsableAll htmlPkg handWrittenDocs ∧
    KeptAll htmlPkg false false handWrittenDocs ∧ DocsApart handWrittenDocs := by
  have v : ∀ n : Bytes, htmlTagMatch n = true → ValidName n := fun n h => (htmlTagMatch_iff n).1 h
  have key : ∀ {t : List (Bytes × Bytes)} {n : Bytes}, toLower n = n → t.lookup n ≠ none → UsableName t n :=
    fun h h' => ⟨h, fun hn => absurd hn h'⟩
  refine ⟨by decide +kernel, ⟨trivial, trivial,
      ⟨key (by decide) (by decide +kernel), ⟨by decide, ?_⟩, trivial,
        ⟨key (by decide) (by decide +kernel), ⟨by decide, ?_⟩, trivial, ⟨key (by decide) (by decide +kernel), by decide, by simp⟩, trivial⟩,
        trivial, trivial, trivial, trivial⟩,
      ⟨key (by decide) (by decide +kernel), ⟨by decide, by simp⟩, trivial, trivial⟩, trivial, trivial⟩,
    ⟨⟨rfl, by decide, by decide, by intro c hc; cases hc; decide⟩, ⟨by decide, nofun⟩,
      ⟨v _ (by decide), by decide, by decide, ?_, fun h => absurd h (by decide), by simp [DocsApart], ⟨by decide, nofun⟩,
        ⟨v _ (by decide), by decide, by decide, ?_, fun h => absurd h (by decide), by simp [DocsApart], ⟨by decide, nofun⟩,
          ⟨v _ (by decide), by decide, by simp [KeptAttrs], by decide⟩, trivial⟩,
        ⟨by decide, nofun⟩, ⟨by decide, by decide⟩, ⟨by decide, nofun⟩, trivial⟩,
      ⟨v _ (by decide), by decide, by decide, by simp [KeptAttrs], fun _ => by simp, by simp [DocsApart],
        ⟨by decide, fun _ => by decide⟩, trivial⟩, ⟨by decide, nofun⟩, trivial⟩,
    by simp [handWrittenDocs, DocsApart, blankText]⟩
  · intro a ha; simp at ha; subst ha; exact ⟨key (by decide) (by decide +kernel), by decide, by decide⟩
  · intro a ha; simp at ha; subst ha; exact ⟨key (by decide) (by decide +kernel), by decide, by decide⟩
  · intro a ha; simp at ha; subst ha; exact ⟨v _ (by decide), by decide, fun h => absurd h (by decide +kernel)⟩
  · intro a ha; simp at ha; subst ha; exact ⟨v _ (by decide), by decide, fun _ => rfl⟩

/-- Code for it, and the page of the code. -/
example (strict : Bool) (h : Heap) : ∃ src, Generates htmlPkg (tokenize fiveRefs handClosed) src ∧
    ShowsAgain fiveRefs false strict handClosed src h ∧
    htmlAll htmlPkg handWrittenDocs =
      b%"<!DOCTYPE html>\n<ul class=\"a b\"><li hidden>1 &lt; 2<br></li><!-- c --></ul><style>\np {}</style>" := by
  obtain ⟨h1, h2, h3, h4⟩ := handClosed_kept
  obtain ⟨src, hg⟩ := C97_code fiveRefs htmlPkg h1 h3
  exact ⟨src, hg, C97_shows_partial fiveRefs (.inl rfl) h1 h2 h3 h4 hg strict h, by decide +kernel⟩

/-- An SVG text. -/
example (strict : Bool) (h : Heap) : ∃ src,
    Generates svgPkg (tokenize fiveRefs b%"<svg width=\"9\"><circle r=\"1\"/>\n</svg>") src ∧
    ShowsAgain fiveRefs true strict b%"<svg width=\"9\"><circle r=\"1\"/>\n</svg>" src h := by
  have v : ∀ n : Bytes, htmlTagMatch n = true → ValidName n := fun n h => (htmlTagMatch_iff n).1 h
  have key : ∀ {t : List (Bytes × Bytes)} {n : Bytes}, toLower n = n → t.lookup n ≠ none → UsableName t n :=
    fun h h' => ⟨h, fun hn => absurd hn h'⟩
  have h1 : tokenize fiveRefs b%"<svg width=\"9\"><circle r=\"1\"/>\n</svg>" =
      tokensAll [.elem b%"svg" [(b%"width", b%"9")] [.selfClosing b%"circle" [(b%"r", b%"1")], .text b%"\n"]] := by
    decide +kernel
  have h3 : KeptAll svgPkg true false
      [.elem b%"svg" [(b%"width", b%"9")] [.selfClosing b%"circle" [(b%"r", b%"1")], .text b%"\n"]] := by
    refine ⟨⟨v _ (by decide), by decide, by decide, ?_, fun h => absurd h (by decide), by simp [DocsApart],
      ⟨v _ (by decide), by decide, ?_, by decide⟩, ⟨by decide, nofun⟩, trivial⟩, trivial⟩
    · intro a ha; simp at ha; subst ha; exact ⟨v _ (by decide), by decide, fun h => absurd h (by decide +kernel)⟩
    · intro a ha; simp at ha; subst ha; exact ⟨v _ (by decide), by decide, fun h => absurd h (by decide +kernel)⟩
  obtain ⟨src, hg⟩ := C97_code fiveRefs svgPkg h1 h3
  refine ⟨src, hg, C97_shows_partial fiveRefs (.inr rfl) h1 ⟨⟨key (by decide) (by decide +kernel), ⟨by decide, ?_⟩,
    ⟨key (by decide) (by decide +kernel), by decide, ?_⟩, trivial, trivial⟩, trivial⟩ h3 (by simp [DocsApart]) hg strict h⟩
  · intro a ha; simp at ha; subst ha; exact ⟨key (by decide) (by decide +kernel), by decide, by decide⟩
  · intro a ha; simp at ha; subst ha; exact ⟨key (by decide) (by decide +kernel), by decide, by decide⟩

end Aitch.Props

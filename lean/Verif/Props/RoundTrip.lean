import Verif.Proofs.RoundTrip
import Verif.Props.Generator
import Verif.Props.Markup
/-
C75: from a page to code and back to the page.
-/
namespace Aitch.Props
open Spec Markup

/-! ### C75 — a rendered page, read and made into code, renders the same page (false in general) -/

/-- `src` is the code that `GenerateCode` writes for a page `w`, read as HTML. -/
def CodeFor (R : CharRefs) (p : GenPkg) (w src : Bytes) : Prop := Generates p ((readHtml R w).map tokenOf) src

/-- The code, run at `h`, gives a node that writes `w`. -/
def CodeWrites (strict : Bool) (src : Bytes) (h : Heap) (w : Bytes) : Prop :=
  ∃ n h', RunsTo strict src h n h' ∧
    ∀ env s, Healthy env → s.frame.err = none → (∀ r, r < h'.next → s.dl r = h'.dl r) → Writes env n s w

/-- The full claim: it holds for the pages of all trees (with valid names). -/
def C75_claim : Prop := ∀ (R : CharRefs) (p : GenPkg), IsPkg p → ∀ ts : List Tree, ProperAll ts →
  ∀ src, CodeFor R p (writeAll ts) src → ∀ strict h, CodeWrites strict src h (writeAll ts)

/-- It is false: the code for `<br>` does not even compile. -/
theorem C75_false : ¬ C75_claim := by
  intro hc
  have hp : ProperAll [.void b%"br" []] :=
    ⟨⟨⟨c%'b', b%"r", rfl, by decide, by decide⟩, by decide, ⟨by simp, by simp⟩, by decide⟩, trivial⟩
  have hg : CodeFor fiveRefs htmlPkg (writeAll [.void b%"br" []]) lineBreakCode := by
    unfold CodeFor
    rw [read_write fiveRefs _ hp]
    exact lineBreak_generates
  obtain ⟨n, h', ⟨e, hd, -⟩, -⟩ := hc fiveRefs htmlPkg (.inl rfl) _ hp _ hg false ⟨fun _ => [], 0⟩
  exact lineBreak_unbalanced hd.balanced

/-- What holds: pages of trees in which nothing is lost on the way (`StayAll`) come out as they were.  Missing: void
elements, blank texts, names in upper case, boolean attributes with values, and texts to be escaped in comments, doctypes
and elements like `script`. -/
theorem C75_page_partial (R : CharRefs) {p : GenPkg} (hp : IsPkg p) {ts : List Tree} (hP : ProperAll ts)
    (hs : StayAll p false ts) {src : Bytes} (hg : CodeFor R p (writeAll ts) src) (strict : Bool) (h : Heap) :
    CodeWrites strict src h (writeAll ts) := by
  obtain ⟨hc, hu⟩ := ok_trees ts hs
  have ht := read_trees ts hs [] (by intro c r h; cases h)
  have hg' : Generates p (tokensAll (docsOf ts)) src := by
    unfold CodeFor at hg
    rw [read_write R ts hP] at hg
    have e : (items (toksAll false ts)).map tokenOf = tokensAll (docsOf ts) := by simpa [items] using ht
    rwa [e] at hg
  obtain ⟨n, h', h1, h2⟩ := C57_renders_partial hp hc hu hg' strict h
  exact ⟨n, h', h1, html_trees ts hs ▸ h2⟩

/-- There is code for every such page. -/
theorem C75_code (R : CharRefs) (p : GenPkg) {ts : List Tree} (hP : ProperAll ts) (hs : StayAll p false ts) :
    ∃ src, CodeFor R p (writeAll ts) src := by
  refine ⟨programCode p (docsOf ts), ?_⟩
  have ht := read_trees ts hs [] (by intro c r h; cases h)
  unfold CodeFor
  rw [read_write R ts hP]
  have e : (items (toksAll false ts)).map tokenOf = tokensAll (docsOf ts) := by simpa [items] using ht
  rw [e]
  exact generates_program p (ok_trees ts hs).1

/-- The same from node to node: a node that is built from strings and data keys writes a page, and the code for that page
builds a node that writes it too, also in another context and without the data. -/
theorem C75_node_partial (R : CharRefs) {p : GenPkg} (hp : IsPkg p) {env : Env} (H : Healthy env) (h : Heap) (t : Src) {s : St}
    (he : s.frame.err = none) (hs : Strings s.toCtx t) (hP : Proper (treeOf s.toCtx t))
    (hst : Stays p false (treeOf s.toCtx t)) {w src : Bytes} (hw : Writes env (build h t) s w) (hg : CodeFor R p w src)
    (strict : Bool) (h₁ : Heap) : CodeWrites strict src h₁ w := by
  have m := made h t hs hP
  have hw' := writes_of_out H m.wf (m.free s.dl) he fun w' h' => (m.out noFns w').1 h'
  have e := writes_unique hw hw'
  subst e
  have := C75_page_partial R hp (ts := [treeOf s.toCtx t]) ⟨hP, trivial⟩
    ⟨hst, by cases treeOf s.toCtx t <;> exact trivial, trivial⟩ (src := src) (by simpa [writeAll] using hg) strict h₁
  simpa [writeAll] using this

/-- A page with a doctype, attributes with and without value, a text to be escaped, a comment, a style and an element that
html has no function for. -/
def wholePage : List Tree :=
  [.doctype b%"html",
   .element b%"p" [(b%"class", some b%"a \"b\""), (b%"hidden", none)]
     [.text b%"1 < 2 ", .element b%"my-tag" [] [], .comment b%" c ", .element b%"style" [] [.text b%"p {}"]]]

instance (s : Bytes) : Decidable (NoReturns s) := inferInstanceAs (Decidable (_ ∉ _))
instance (s : Bytes) : Decidable (Simple s) := inferInstanceAs (Decidable (∀ c ∈ s, _))

example : ProperAll wholePage ∧ StayAll htmlPkg false wholePage ∧
    writeAll wholePage = b%"<!DOCTYPE html>\n<p class=\"a &quot;b&quot;\" hidden>1 &lt; 2 <my-tag></my-tag><!-- c --><style>p {}</style></p>" := by
  have v : ∀ n : Bytes, htmlTagMatch n = true → ValidName n := fun n h => (htmlTagMatch_iff n).1 h
  have key : ∀ {t : List (Bytes × Bytes)} {n : Bytes}, toLower n = n → t.lookup n ≠ none → UsableName t n :=
    fun h h' => ⟨h, fun hn => absurd hn h'⟩
  refine ⟨⟨trivial, ⟨v _ (by decide), by decide, ⟨?_, by decide⟩, .inr ⟨by decide, trivial,
      ⟨v _ (by decide), by decide, ⟨by simp, by simp⟩, .inr ⟨by decide, trivial⟩⟩, trivial,
      ⟨v _ (by decide), by decide, ⟨by simp, by simp⟩, .inl ⟨by decide, by simp [Tree.IsText]⟩⟩, trivial⟩⟩, trivial⟩,
    ⟨⟨rfl, by decide, by decide⟩, trivial,
      ⟨⟨by decide, key (by decide) (by decide +kernel), by decide⟩, ⟨by decide, ?_⟩, ?_,
        ⟨by decide, by decide, fun h => absurd h (by decide)⟩, trivial,
        ⟨⟨by decide, ⟨by decide, fun _ => v _ (by decide)⟩, by decide⟩, ⟨by decide, by simp⟩, by simp, trivial⟩, trivial,
        ⟨by decide, by decide⟩, trivial,
        ⟨⟨by decide, key (by decide) (by decide +kernel), by decide⟩, ⟨by decide, by simp⟩, by simp,
          ⟨by decide, by decide, fun _ => by decide⟩, trivial, trivial⟩, trivial, trivial⟩, trivial, trivial⟩,
    by decide +kernel⟩
  · intro a ha
    simp at ha
    rcases ha with rfl | rfl <;> exact v _ (by decide)
  · intro a ha
    simp at ha
    rcases ha with rfl | rfl <;> exact ⟨key (by decide) (by decide +kernel), by decide, by decide⟩
  · intro a ha
    simp at ha
    rcases ha with rfl | rfl
    · exact ⟨by decide, by decide +kernel, by decide⟩
    · exact ⟨by decide, by decide +kernel, by decide⟩

/-- `<p id="k">` with a text to be escaped. -/
example : ∃ t : Src, Strings Sample.st.toCtx t ∧ Proper (treeOf Sample.st.toCtx t) ∧
    Stays htmlPkg false (treeOf Sample.st.toCtx t) ∧ write (treeOf Sample.st.toCtx t) = b%"<p id=\"k\">a&lt;b</p>" := by
  have v : ∀ n : Bytes, htmlTagMatch n = true → ValidName n := fun n h => (htmlTagMatch_iff n).1 h
  have key : ∀ {t : List (Bytes × Bytes)} {n : Bytes}, toLower n = n → t.lookup n ≠ none → UsableName t n :=
    fun h h' => ⟨h, fun hn => absurd hn h'⟩
  refine ⟨.element b%"p" [(b%"id", some [.lit b%"k"])] [.text [.lit b%"a<", .lit b%"b"]], ⟨?_, ?_, trivial⟩,
    ⟨v _ (by decide), by decide, ⟨?_, by decide⟩, .inr ⟨by decide, trivial, trivial⟩⟩,
    ⟨⟨by decide, key (by decide) (by decide +kernel), by decide⟩, ⟨by decide, ?_⟩, ?_,
      ⟨by decide, by decide, fun h => absurd h (by decide)⟩, trivial, trivial⟩, by decide⟩
  · intro a ha; simp at ha; subst ha; intro p hp; simp at hp; subst hp; trivial
  · intro p hp; simp at hp; rcases hp with rfl | rfl <;> trivial
  · intro a ha; simp [attrOf] at ha; subst ha; exact v _ (by decide)
  · intro a ha; simp [attrOf] at ha; subst ha; exact ⟨key (by decide) (by decide +kernel), by decide, by decide⟩
  · intro a ha; simp [attrOf] at ha; subst ha; exact ⟨by decide, by decide +kernel, by decide⟩

end Aitch.Props

import Verif.Proofs.StreamCleanTemplate
import Verif.Props.StreamTemplate
import Verif.Props.StreamClean
/-
C110 for `html/template` templates.
-/
namespace Aitch.Props
open Spec Spec.Stream Aitch.Stream Markup

/-! ### C110 — data cannot bring tags or attributes into the page of a template -/

section
variable {env : Env} {B : Bodies} {E : Tellers} {Q : Rules} (N : Markup.GoodNames Q.elements Q.attributes) (H : Healthy env)
  (A : Behaves env B E) (K : Spec.Stream.Calm E) (F : Spec.Stream.Follows Q E) {t : List Part}
  (hb : ∀ n p, .call n p ∈ t → Built n) (ht : NeatParts Q (.content []) t) {data : Option MapId} {cargo : Any} {s s' : St}
  {e : Option Err} (hs : SafeMemory Q s.toCtx) (hc : SafeData cargo) (hr : Executing env B t data cargo s e s')
include N H A K F hb ht hs hc hr

/-- **C110**.  A template whose text ends all elements that it begins, with nodes that may stand where their actions stand (among
elements, in an element like `title`, in a quoted attribute value): all that is added to the output are trees with allowed
names only. -/
theorem C110_template : e = none ∧ SafeMemory Q s'.toCtx ∧
    ∃ ts, s'.out = s.out ++ writeAll ts ∧ ProperAll ts ∧ WithinAll Q.elements Q.attributes ts := by
  obtain ⟨h1, h2⟩ := C107_output H A K hb hr
  obtain ⟨h3, w, h4, h5⟩ := neat_parts N F h2 ⟨hc, hs.maps, hs.delimited⟩ ht
  obtain ⟨ts, rfl, h6, h7⟩ := Left.fits h5
  exact ⟨h1, h3, ts, h4, h6, h7⟩

/-- **C110**.  An HTML reader sees exactly these trees; every tag that it sees has an allowed name and allowed attributes (up to
case). -/
theorem C110_template_reads (R : CharRefs) (h0 : s.log = []) :
    (∃ ts, s'.out = writeAll ts ∧ ProperAll ts ∧ readHtml R s'.out = items (toksAll false ts)) ∧
    (∀ name attrs sc, .start name attrs sc ∈ readHtml R s'.out →
      name ∈ Q.elements.map lower ∧ ∀ a ∈ attrs, a.1 ∈ Q.attributes.map lower) ∧
    ∀ name, .close name ∈ readHtml R s'.out → name ∈ Q.elements.map lower := by
  obtain ⟨-, -, ts, h1, h2, h3⟩ := C110_template N H A K F hb ht hs hc hr
  have h1 : s'.out = writeAll ts := by rw [h1, St.out, h0]; rfl
  have h4 : readHtml R s'.out = items (toksAll false ts) := by rw [h1]; exact read_write R ts h2
  refine ⟨⟨ts, h1, h2, h4⟩, ?_⟩
  rw [h4]
  exact ⟨fun name attrs sc h => toksAll_within false ts h3 _ (items_start h),
    fun name h => toksAll_within false ts h3 _ (items_close h)⟩

end

/-! ### A case that meets the hypotheses -/

/-- `<p hidden id="a{{one .}}">&lt;{{page .}}{{zero .}}</p><title>{{one .}}</title>`. -/
def markingParts : List Part :=
  [.text b%"<p hidden id=\"a", .call (told 1) .quoted, .text b%"\">&lt;", .call markingPage .text, .call (told 0) .text,
    .text b%"</p><title>", .call (told 1) .text, .text b%"</title>"]

theorem markingParts_neat : NeatParts marking (.content []) markingParts := by
  have hp : NeatTag marking b%"p" [b%"hidden", b%"id"] := ⟨by decide, by decide, by decide⟩
  have ht : NeatTag marking b%"title" [] := ⟨by decide, by decide, by decide⟩
  refine .text (r' := .inValue [] b%"p" [b%"hidden", b%"id"])
    (.openValue (name := b%"p") (attrs := [(b%"hidden", none)]) (a := b%"id") (.value (s := b%"a") .nil)) ?_
  refine .inValue told_neat1 rfl (.text (r' := .content [b%"p"]) (.endTag (attrs := []) hp (by decide)
    (.trees (w := b%"&lt;") ⟨[.text b%"<"], by simp [writeAll, write]; decide, ⟨trivial, trivial⟩, ⟨trivial, trivial⟩⟩
      .nil)) ?_)
  refine .node markingPage_neat rfl (.node told_neat0 rfl ?_)
  refine .text (r' := .inText [] b%"title") (.close (name := b%"p") (.startText (attrs := []) ht (by decide) .nil)) ?_
  exact .inText told_neat1 rfl (.text (.closeText (name := b%"title") .nil) .nil)

theorem markingParts_built : ∀ n p, .call n p ∈ markingParts → Built n := by
  intro n p h
  simp only [markingParts, List.mem_cons, List.not_mem_nil, or_false, reduceCtorEq, false_or, Part.call.injEq] at h
  rcases h with ⟨rfl, _⟩ | ⟨rfl, _⟩ | ⟨rfl, _⟩ | ⟨rfl, _⟩
  · exact .text _ _
  · exact markingPage_built
  · exact .text _ _
  · exact .text _ _

theorem markingParts_runs : ∃ s', Executing markingEnv (bodiesOf markingFns) markingParts (some 0) (.str b%"</p>") Sample.st
    none s' := by
  have h : ((executeWith markingEnv (bodiesOf markingFns) 8 markingParts (some 0) (.str b%"</p>") Sample.st).map fun p =>
      p.1.isNone) = some true := by
    decide +kernel
  cases hx : executeWith markingEnv (bodiesOf markingFns) 8 markingParts (some 0) (.str b%"</p>") Sample.st with
  | none => rw [hx] at h; cases h
  | some p =>
    rw [hx] at h
    obtain ⟨e, s'⟩ := p
    simp only [Option.map_some, Option.some.injEq, Option.isNone_iff_eq_none] at h
    subst h
    exact ⟨s', 8, hx⟩

example : ∃ s', Executing markingEnv (bodiesOf markingFns) markingParts (some 0) (.str b%"</p>") Sample.st none s' ∧
    ∀ name, .close name ∈ readHtml fiveRefs s'.out → name ∈ marking.elements.map lower := by
  obtain ⟨s', h⟩ := markingParts_runs
  exact ⟨s', h, (C110_template_reads marking_names (fun _ _ => rfl) marking_behaves marking_calm marking_follows
    markingParts_built markingParts_neat marking_memory (cargo := .str b%"</p>") trivial h fiveRefs rfl).2.2⟩

/-- `<p id={{one .}}>`: the text of a value without quotes. -/
def unquotedParts : List Part := [.text b%"<p id=", .call (Text (fun _ => []) [.dynKey b%"."]) .unquoted, .text b%"></p>"]

/-- Values have to be quoted: nodes write to the output behind html/template's back, so that in an unquoted value a blank in
the cargo brings in an attribute of its own choice. -/
theorem C110_template_needed : (∀ n p, .call n p ∈ unquotedParts → Built n ∧ Neat marking .text n) ∧
    SafeData (.str b%"a onclick=x ") ∧
    ∃ s', Executing markingEnv (bodiesOf markingFns) unquotedParts (some 0) (.str b%"a onclick=x ") Sample.st none s' ∧
      ∃ attrs, .start b%"p" attrs false ∈ readHtml fiveRefs s'.out ∧ (b%"onclick", b%"x") ∈ attrs := by
  refine ⟨fun n p h => ?_, trivial, _, ⟨4, rfl⟩, [(b%"id", b%"a"), (b%"onclick", b%"x"), (b%"zgotmplz", [])], ?_, ?_⟩
  · simp only [unquotedParts, List.mem_cons, List.not_mem_nil, or_false, reduceCtorEq, false_or, Part.call.injEq] at h
    obtain ⟨rfl, _⟩ := h
    exact ⟨.text _ _, .text ⟨by simp [NeatValue], trivial⟩⟩
  · decide +kernel
  · decide

end Aitch.Props

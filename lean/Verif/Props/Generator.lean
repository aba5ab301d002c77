import Verif.Proofs.GenEval
import Verif.Proofs.GenUnique
import Verif.Spec.Sample
/-
C45, C46, C47, C55, C56, C57: GenerateCode.
-/
namespace Aitch.Props

open Spec

/-- The two packages that have a `GenerateCode`. -/
def IsPkg (p : GenPkg) : Prop := p = htmlPkg ∨ p = svgPkg

theorem good_pkg {p : GenPkg} (h : IsPkg p) : GoodPkg p := by
  rcases h with rfl | rfl
  · exact good_html
  · exact good_svg

theorem ok_pkg {p : GenPkg} (h : IsPkg p) : PkgOK p := by
  rcases h with rfl | rfl
  · exact ok_html
  · exact ok_svg

/-! ### C56 — the code is valid Go, and makes the calls that the document asks for -/

/-- What the source text written for the documents `ds` should declare. -/
def collectionOf (p : GenPkg) (ds : List Doc) : Expr := .call b%"aitch.Collection" (codeAll p ds)

/-- The property: for every well nested input the source text that is written is a Go declaration of the collection
of the document's elements, texts and comments. -/
def C56_claim : Prop := ∀ p, IsPkg p → ∀ ds, ClosedAll ds → ∀ src, Generates p (tokensAll ds) src →
  Declares src (collectionOf p ds)

/-- `<p a"b="v"/>`: the attribute's name is written without escaping its quote. -/
def quoteInName : List Doc := [.selfClosing b%"p" [(b%"a\"b", b%"v")]]

theorem C56_false : ¬ C56_claim := by
  intro h
  have h1 := (h htmlPkg (.inl rfl) quoteInName ⟨trivial, trivial⟩ _ (generates_program _ ⟨trivial, trivial⟩)).balanced
  revert h1
  unfold Balanced
  decide +kernel

/-- It holds if the names of elements and attributes have no quote, backslash or line end. -/
theorem C56_declares_partial {p : GenPkg} (hp : IsPkg p) {ds : List Doc} (hc : ClosedAll ds) (hq : QuotableNamesAll ds)
    {src : Bytes} (h : Generates p (tokensAll ds) src) : Declares src (collectionOf p ds) := by
  rw [generates_unique h (generates_program p hc)]
  exact declares_program (good_pkg hp) hc hq

/-- There is such a source text, whatever the document. -/
theorem C56_generates (p : GenPkg) {ds : List Doc} (hc : ClosedAll ds) : ∃ src, Generates p (tokensAll ds) src :=
  ⟨_, generates_program p hc⟩

/-- A source text declares only one expression. -/
theorem C56_unique {src : Bytes} {e e' : Expr} (h : Declares src e) (h' : Declares src e') : e = e' :=
  declares_unique h h'

/-- So from the source text the document's calls can be read back: inputs with the same source text ask for the same
calls. -/
theorem C56_injective {p : GenPkg} (hp : IsPkg p) {ds ds' : List Doc} (hc : ClosedAll ds) (hc' : ClosedAll ds')
    (hq : QuotableNamesAll ds) (hq' : QuotableNamesAll ds') {src : Bytes} (h : Generates p (tokensAll ds) src)
    (h' : Generates p (tokensAll ds') src) : codeAll p ds = codeAll p ds' := by
  have := declares_unique (C56_declares_partial hp hc hq h) (C56_declares_partial hp hc' hq' h')
  simpa [collectionOf] using this

/-- A document with nested elements, mapped and other names, a boolean attribute, text with quotes, and a comment. -/
def page : List Doc :=
  [.doctype b%"html",
   .elem b%"div" [(b%"class", b%"a \"b\""), (b%"x-y", b%"\\")] [
     .text b%"\n  ", .text b%"say \"hi\"\n\t(", .selfClosing b%"input" [(b%"disabled", b%"")],
     .elem b%"my-tag" [] [.comment b%"c)"]]]

theorem page_closed : ClosedAll page := ⟨trivial, ⟨trivial, trivial, trivial, ⟨trivial, trivial⟩, trivial⟩, trivial⟩
theorem page_quotable : QuotableNamesAll page := by
  refine ⟨trivial, ⟨?_, ?_, trivial, trivial, ⟨?_, ?_⟩, ⟨?_, ?_, trivial, trivial⟩, trivial⟩, trivial⟩ <;> decide

example : ∃ src, Generates htmlPkg (tokensAll page) src ∧ Declares src (collectionOf htmlPkg page) ∧
    src = b%"var template = aitch.Collection(
\thtml.PI(\"DOCTYPE\", \"html\"),
\thtml.Div(html.Class(\"a \\\"b\\\"\"), aitch.Attribute(\"x-y\" ,\"\\\\\"),
\t\thtml.Text(\"say \\\"hi\\\"\\n\\t(\"),
\t\thtml.Input(html.Disabled()),
\t\taitch.Element(\"my-tag\", 
\t\t\thtml.Comment(\"c)\"),
\t\t),
\t),
)

" := by
  obtain ⟨src, h⟩ := C56_generates htmlPkg page_closed
  refine ⟨src, h, C56_declares_partial (.inl rfl) page_closed page_quotable h, ?_⟩
  rw [generates_unique h (generates_program _ page_closed)]
  decide +kernel

example {e : Expr} (h : Declares (programCode htmlPkg page) e) : e = collectionOf htmlPkg page :=
  C56_unique h (declares_program (good_pkg (.inl rfl)) page_closed page_quotable)

example {ds : List Doc} (hc : ClosedAll ds) (hq : QuotableNamesAll ds) {src : Bytes} (h : Generates htmlPkg (tokensAll page) src)
    (h' : Generates htmlPkg (tokensAll ds) src) := C56_injective (.inl rfl) page_closed hc page_quotable hq h h'

/-! ### C45 — string literals denote the original text -/

/-- The escaped text between quotes is a Go string literal that denotes the text, whatever follows. -/
theorem C45_literal (s rest : Bytes) : goString (genEscape s ++ c%'"' :: rest) = some (s, rest) := goString_escape s rest

/-- The code of a text is a call with a literal that denotes it. -/
theorem C45_text {p : GenPkg} (hp : IsPkg p) {d : Bytes} (hd : ∃ c ∈ d, c ≠ 32 ∧ c ≠ 10 ∧ c ≠ 9) {src : Bytes}
    (h : Generates p [.text d] src) :
    Declares src (.call b%"aitch.Collection" [.call (p.pre ++ b%"Text") [.lit d]]) := by
  have hn : blankText d = false := by
    obtain ⟨c, hc, h1, h2, h3⟩ := hd
    exact List.all_eq_false.2 ⟨c, hc, by simp [h1, h2, h3]⟩
  have := C56_declares_partial (ds := [.text d]) hp ⟨trivial, trivial⟩ ⟨trivial, trivial⟩ h
  simpa [collectionOf, codeAll, Doc.code, hn] using this

/-- The code of a comment is a call with a literal that denotes it. -/
theorem C45_comment {p : GenPkg} (hp : IsPkg p) {d src : Bytes} (h : Generates p [.comment d] src) :
    Declares src (.call b%"aitch.Collection" [.call (p.pre ++ b%"Comment") [.lit d]]) := by
  have := C56_declares_partial (ds := [.comment d]) hp ⟨trivial, trivial⟩ ⟨trivial, trivial⟩ h
  simpa [collectionOf, codeAll, Doc.code] using this

example := C45_comment (p := svgPkg) (.inr rfl) (generates_program svgPkg (ds := [.comment b%"-\"\\\n"]) ⟨trivial, trivial⟩)

/-- The code of a doctype is a call with a literal that denotes it. -/
theorem C45_doctype {d src : Bytes} (h : Generates htmlPkg [.doctype d] src) :
    Declares src (.call b%"aitch.Collection" [.call b%"html.PI" [.lit b%"DOCTYPE", .lit d]]) := by
  have := C56_declares_partial (ds := [.doctype d]) (.inl rfl) ⟨trivial, trivial⟩ ⟨trivial, trivial⟩ h
  simpa [collectionOf, codeAll, Doc.code, htmlPkg] using this

example := C45_doctype (generates_program htmlPkg (ds := [.doctype b%"html PUBLIC \"x\""]) ⟨trivial, trivial⟩)

/-- The code of an attribute's value, unless the attribute is boolean, is a literal that denotes it: for instance in
`<x-y title="v"/>`. -/
theorem C45_attribute {p : GenPkg} (hp : IsPkg p) {k : Bytes} (hk : Quotable k) (hb : toLower k ∉ p.bools) {v src : Bytes}
    (h : Generates p [.selfClosingTag b%"x-y" [(k, v)]] src) :
    ∃ f args, Declares src (.call b%"aitch.Collection" [.call b%"aitch.Element" [.lit b%"x-y", .call f (args ++ [.lit v])]]) := by
  have := C56_declares_partial (ds := [.selfClosing b%"x-y" [(k, v)]]) hp ⟨trivial, trivial⟩
    ⟨⟨by decide, by simpa using hk⟩, trivial⟩ h
  have hx : p.elems.lookup (toLower b%"x-y") = none := by rcases hp with rfl | rfl <;> decide +kernel
  simp only [collectionOf, codeAll, Doc.code, elemExpr, hx, List.map_cons, List.map_nil, List.append_nil] at this
  unfold attrExpr at this
  cases hl : p.attrs.lookup (toLower k) with
  | none => rw [hl] at this; exact ⟨_, [.lit k], this⟩
  | some f =>
    have hc : p.bools.contains (toLower k) = false := by
      rw [← Bool.not_eq_true, List.contains_iff_mem]; exact hb
    rw [hl] at this
    simp only [hc, Bool.false_eq_true, ↓reduceIte] at this
    exact ⟨_, [], this⟩

example := C45_attribute (p := htmlPkg) (k := b%"title") (.inl rfl) (by decide) (by decide +kernel)
  (generates_program htmlPkg (ds := [.selfClosing b%"x-y" [(b%"title", b%"a\"b")]]) ⟨trivial, trivial⟩)

example : ∃ src, Generates svgPkg [.text b%"a\"b\\n\n\t\\\"("] src ∧
    Declares src (.call b%"aitch.Collection" [.call b%"svg.Text" [.lit b%"a\"b\\n\n\t\\\"("]]) :=
  ⟨_, generates_program svgPkg (ds := [.text _]) ⟨trivial, trivial⟩,
    C45_text (.inr rfl) ⟨c%'a', by decide, by decide⟩ (generates_program svgPkg (ds := [.text _]) ⟨trivial, trivial⟩)⟩

/-! ### C46 — balanced parentheses -/

/-- The property for HTML: start tags of void elements such as `<br>` need no end tag. -/
def C46_claim : Prop := ∀ p, IsPkg p → ∀ ds src, QuotableNamesAll ds →
  (∀ name attrs, .void name attrs ∈ ds → name ∈ htmlVoidNames) → Generates p (tokensAll ds) src → Balanced src

/-- `<br>` -/
def lineBreak : List Doc := [.void b%"br" []]

/-- The code of `<br>`: nothing closes the parenthesis after `html.Br`. -/
def lineBreakCode : Bytes := b%"var template = aitch.Collection(\n\thtml.Br(\n\t)\n\n"

theorem lineBreak_generates : Generates htmlPkg (tokensAll lineBreak) lineBreakCode := by
  intro w hw
  have h0 : GenAt ⟨0, none, []⟩ 0 [] := ⟨rfl, rfl, rfl⟩
  have h1 := h0.line hw b%"var template = aitch.Collection("
  have h2 : GenAt (incIndent (gwrite w b%"var template = aitch.Collection(" ⟨0, none, []⟩)) 1 _ :=
    ⟨h1.err, congrArg (· + 1) h1.indent, h1.out⟩
  have h3 := h2.start hw htmlPkg b%"br" []
  have h4 : GenAt (decIndent { (genToken w htmlPkg (.startTag b%"br" []) (incIndent
      (gwrite w b%"var template = aitch.Collection(" ⟨0, none, []⟩))) with err := none }) 1 _ :=
    ⟨rfl, by simp [decIndent, genToken, h3.indent], h3.out⟩
  have h5 := h4.line hw b%")\n"
  have he : GenerateCode w htmlPkg (tokensAll lineBreak) none = gwrite w b%")\n" (decIndent { (genToken w htmlPkg
      (.startTag b%"br" []) (incIndent (gwrite w b%"var template = aitch.Collection(" ⟨0, none, []⟩))) with err := none }) := by
    have e1 : tokensAll lineBreak = [.startTag b%"br" []] := rfl
    unfold GenerateCode
    simp only [e1, genLoop_cons htmlPkg h2.err, genLoop_nil htmlPkg (s := genToken w htmlPkg (.startTag b%"br" []) _) h3.err]
  rw [he]
  exact ⟨h5.err, h5.out.trans (by decide +kernel)⟩

theorem lineBreak_unbalanced : ¬ Balanced lineBreakCode := by
  unfold Balanced
  decide +kernel

theorem C46_false : ¬ C46_claim := by
  intro h
  exact lineBreak_unbalanced (h htmlPkg (.inl rfl) lineBreak _ ⟨⟨by decide, by simp⟩, trivial⟩
    (by intro n a hm; simp [lineBreak] at hm; rw [hm.1]; decide) lineBreak_generates)

/-- If every start tag has its end tag, and names have no quotes, the parentheses are balanced. -/
theorem C46_balanced_partial {p : GenPkg} (hp : IsPkg p) {ds : List Doc} (hc : ClosedAll ds) (hq : QuotableNamesAll ds)
    {src : Bytes} (h : Generates p (tokensAll ds) src) : Balanced src := (C56_declares_partial hp hc hq h).balanced

/-- And the indentation is back to zero: the closing parenthesis is at the beginning of the last line. -/
theorem C46_indentation_partial (p : GenPkg) {ds : List Doc} (hc : ClosedAll ds) {src : Bytes}
    (h : Generates p (tokensAll ds) src) : ∃ lines, src = lines ++ b%"\n)\n\n" := by
  rw [generates_unique h (generates_program p hc)]
  obtain ⟨l, hl⟩ := programCode_lines p ds
  exact ⟨l, hl⟩

example : ∃ src, Generates htmlPkg (tokensAll page) src ∧ Balanced src :=
  ⟨_, generates_program _ page_closed, C46_balanced_partial (.inl rfl) page_closed page_quotable (generates_program _ page_closed)⟩

/-! ### C47 — functions for names -/

/-- The lower case of the ASCII letters of a name. -/
def asciiLower (n : Bytes) : Bytes := n.map fun c => if 65 ≤ c ∧ c ≤ 90 then c + 32 else c

/-- The property for elements: the function that is called for a name (instead of `aitch.Element`) builds elements of
that name. -/
def C47_claim : Prop := ∀ p, IsPkg p → ∀ name args f, elemExpr p name args = .call (p.pre ++ f) args →
  ∃ g, resolve (p.pre ++ f) = some (.element g) ∧ g.tag = asciiLower name

/-- `lin` followed by the Kelvin sign, the lower case of which is an ASCII `k`, is taken for `link`. -/
theorem C47_false : ¬ C47_claim := by
  intro h
  have h1 : elemExpr htmlPkg (b%"lin" ++ [0xE2, 0x84, 0xAA]) [] = .call (htmlPkg.pre ++ b%"Link") [] := by
    have : htmlPkg.elems.lookup (toLower (b%"lin" ++ [0xE2, 0x84, 0xAA])) = some b%"Link" := by decide +kernel
    simp only [elemExpr, this]
  obtain ⟨g, h2, h3⟩ := h htmlPkg (.inl rfl) _ _ _ h1
  have h4 : (∃ g, resolve (htmlPkg.pre ++ b%"Link") = some (.element g) ∧ g.tag = b%"link") := by
    have h := ok_html.elems _ (mem_of_lookup (k := b%"link") (v := b%"Link") (by decide +kernel))
    unfold isElemFn at h
    split at h
    · rename_i g hg
      simp only [Bool.and_eq_true, beq_iff_eq] at h
      exact ⟨g, hg, h.1⟩
    · simp at h
  obtain ⟨g', h4, h5⟩ := h4
  rw [h2] at h4
  cases h4
  rw [h3] at h5
  revert h5
  decide

/-- Elements: the function builds elements whose name is the lower case of the given name, and void elements exactly if
HTML says so. -/
theorem C47_element_partial {p : GenPkg} (hp : IsPkg p) {name f : Bytes} {args : List Expr}
    (h : elemExpr p name args = .call (p.pre ++ f) args) :
    ∃ g, resolve (p.pre ++ f) = some (.element g) ∧ g.tag = toLower name ∧ (g.isVoid = true ↔ toLower name ∈ htmlVoidNames) := by
  unfold elemExpr at h
  cases hl : p.elems.lookup (toLower name) with
  | none =>
    rw [hl] at h
    simp only [Expr.call.injEq] at h
    exact absurd (congrArg List.length h.2) (by simp)
  | some f' =>
    rw [hl] at h
    simp only [Expr.call.injEq, List.append_cancel_left_eq, and_true] at h
    subst h
    have h := (ok_pkg hp).elems _ (mem_of_lookup hl)
    unfold isElemFn at h
    split at h
    · rename_i g hg
      simp only [Bool.and_eq_true, beq_iff_eq] at h
      refine ⟨g, hg, h.1, ?_⟩
      rw [h.2, List.contains_iff_mem]
    · simp at h

example := C47_element_partial (p := htmlPkg) (.inl rfl) (name := b%"BR") (f := b%"Br") (args := []) (by
  have : htmlPkg.elems.lookup (toLower b%"BR") = some b%"Br" := by decide +kernel
  simp only [elemExpr, this])

/-- For names of ASCII characters that lower case is the usual one. -/
theorem C47_ascii (n : Bytes) (h : ∀ c ∈ n, c < 128) : toLower n = asciiLower n := by
  induction n with
  | nil => rfl
  | cons c n ih =>
    have hc := h c (.head _)
    rw [toLower.eq_3]
    · rw [ih fun c hc => h c (.tail _ hc)]; rfl
    · rintro s rfl _; exact absurd hc (by decide)
    · rintro s rfl _; exact absurd hc (by decide)

example : toLower b%"My-Tag" = b%"my-tag" := C47_ascii b%"My-Tag" (by decide)

/-- Attributes: the function, if there is one, makes attributes whose name is the lower case of the given name
(`aria-` and `data-` excepted), and it is called without a value exactly if it makes boolean attributes. -/
theorem C47_attribute_partial {p : GenPkg} (hp : IsPkg p) {k v f : Bytes} {args : List Expr}
    (h : attrExpr p (k, v) = .call (p.pre ++ f) args) (hf : p.pre ++ f ≠ b%"aitch.Attribute")
    (h1 : toLower k ≠ b%"aria-") (h2 : toLower k ≠ b%"data-") :
    ∃ g, resolve (p.pre ++ f) = some (.attribute g) ∧ g.attr = toLower k ∧
      ((g.kind = .bool ∧ args = []) ∨ (g.kind ≠ .bool ∧ args = [.lit v])) := by
  unfold attrExpr at h
  simp only at h
  cases hl : p.attrs.lookup (toLower k) with
  | none =>
    rw [hl] at h
    simp only [Expr.call.injEq] at h
    exact absurd h.1.symm hf
  | some f' =>
    rw [hl] at h
    simp only [Expr.call.injEq, List.append_cancel_left_eq] at h
    obtain ⟨rfl, ha⟩ := h
    have h := (ok_pkg hp).attrs _ (mem_of_lookup hl) h1 h2
    unfold isAttrFn at h
    split at h
    · rename_i g hg
      simp only [Bool.and_eq_true, beq_iff_eq] at h
      refine ⟨g, hg, h.1, ?_⟩
      cases hb : p.bools.contains (toLower k) with
      | true =>
        rw [hb] at h ha
        exact .inl ⟨by simpa using h.2, by simpa using ha.symm⟩
      | false =>
        rw [hb] at h ha
        exact .inr ⟨by simpa using h.2, by simpa using ha.symm⟩
    · simp at h

example := C47_attribute_partial (p := htmlPkg) (.inl rfl) (k := b%"CLASS") (v := b%"x") (f := b%"Class") (args := [.lit b%"x"]) (by
    have h1 : htmlPkg.attrs.lookup (toLower b%"CLASS") = some b%"Class" := by decide +kernel
    have h2 : htmlPkg.bools.contains (toLower b%"CLASS") = false := by decide +kernel
    simp only [attrExpr, h1, h2]; rfl) (by decide) (by decide) (by decide)

/-- `<p aria-="v"/>` is turned into a call of `html.Aria` with the value as the name: another attribute. -/
theorem C47_aria : attrExpr htmlPkg (b%"aria-", b%"v") = .call b%"html.Aria" [.lit b%"v"] ∧
    resolve b%"html.Aria" = none := by
  have h1 : htmlPkg.attrs.lookup (toLower b%"aria-") = some b%"Aria" := by decide +kernel
  have h2 : htmlPkg.bools.contains (toLower b%"aria-") = false := by decide +kernel
  refine ⟨?_, by decide +kernel⟩
  simp only [attrExpr, h1, h2]; rfl

/-- A name with a capital letter. -/
def hasCapital (k : Bytes) : Bool := k.any fun c => 65 ≤ c && c ≤ 90

/-- The functions that the tables list under a name with capital letters are never called (all of them are in svg:
`linearGradient`, `textLength` and so on, which therefore become calls of `aitch.Element` and `aitch.Attribute`). -/
theorem C47_capitals_element {p : GenPkg} (hp : IsPkg p) {k f : Bytes} (hk : (k, f) ∈ p.elems) (hc : hasCapital k = true)
    (name : Bytes) (args : List Expr) : elemExpr p name args ≠ .call (p.pre ++ f) args := by
  have hd : ∀ r ∈ p.elems, hasCapital r.1 = true → ∀ r' ∈ p.elems, r'.2 = r.2 → hasCapital r'.1 = true := by
    rcases hp with rfl | rfl <;> decide +kernel
  intro h
  unfold elemExpr at h
  cases hl : p.elems.lookup (toLower name) with
  | none =>
    rw [hl] at h
    simp only [Expr.call.injEq] at h
    exact absurd (congrArg List.length h.2) (by simp)
  | some f' =>
    rw [hl] at h
    simp only [Expr.call.injEq, List.append_cancel_left_eq, and_true] at h
    subst h
    have := hd _ hk hc _ (mem_of_lookup hl) rfl
    obtain ⟨c, hm, hu⟩ := List.any_eq_true.1 this
    exact toLower_small name c hm (by simpa using hu)

example (name : Bytes) (args : List Expr) : elemExpr svgPkg name args ≠ .call (svgPkg.pre ++ b%"LinearGradient") args :=
  C47_capitals_element (.inr rfl) (k := b%"linearGradient") (by decide +kernel) (by decide) name args

/-- The same for attributes. -/
theorem C47_capitals_attribute {p : GenPkg} (hp : IsPkg p) {k f : Bytes} (hk : (k, f) ∈ p.attrs) (hc : hasCapital k = true)
    (a : Bytes × Bytes) (args : List Expr) : attrExpr p a ≠ .call (p.pre ++ f) args := by
  have hd : ∀ r ∈ p.attrs, hasCapital r.1 = true → ∀ r' ∈ p.attrs, r'.2 = r.2 → hasCapital r'.1 = true := by
    rcases hp with rfl | rfl <;> decide +kernel
  have hf : p.pre ++ f ≠ b%"aitch.Attribute" := by
    have : p.pre.head? ≠ some c%'a' ∧ p.pre ≠ [] := by rcases hp with rfl | rfl <;> decide
    cases hq : p.pre with
    | nil => exact absurd hq this.2
    | cons c q =>
      rw [hq] at this
      intro h
      rw [List.cons_append, List.cons.injEq] at h
      exact this.1 (by rw [h.1]; rfl)
  intro h
  unfold attrExpr at h
  cases hl : p.attrs.lookup (toLower a.1) with
  | none =>
    rw [hl] at h
    simp only [Expr.call.injEq] at h
    exact hf h.1.symm
  | some f' =>
    rw [hl] at h
    simp only [Expr.call.injEq, List.append_cancel_left_eq] at h
    obtain ⟨rfl, _⟩ := h
    have := hd _ hk hc _ (mem_of_lookup hl) rfl
    obtain ⟨c, hm, hu⟩ := List.any_eq_true.1 this
    exact toLower_small a.1 c hm (by simpa using hu)

example (a : Bytes × Bytes) (args : List Expr) : attrExpr svgPkg a ≠ .call (svgPkg.pre ++ b%"TextLength") args :=
  C47_capitals_attribute (.inr rfl) (k := b%"textLength") (by decide +kernel) (by decide) a args

/-! ### C55 — write errors are reported -/

/-- The property: if the writer returned an error then so does `GenerateCode`. -/
def C55_claim : Prop := ∀ w p ts fin, (∃ ev ∈ (GenerateCode w p ts fin).log, ev.err ≠ none) →
  (GenerateCode w p ts fin).err ≠ none

/-- A writer that fails once, at the second write, and then recovers. -/
def failsOnce : Writer := fun log d => if log.length = 1 then (0, some 7) else (d.length, none)

theorem C55_false : ¬ C55_claim := by
  intro h
  exact h failsOnce htmlPkg [] none ⟨⟨b%"var template = aitch.Collection(", 0, some 7⟩, .tail _ (.head _), by decide⟩ rfl

/-- It holds for writers that stay failed. -/
theorem C55_sticky_partial {w : Writer} (hw : ∀ log d, (∃ ev ∈ log, ev.err ≠ none) → (w log d).2 ≠ none) (p : GenPkg)
    (ts : List Token) (fin : Option Err) (h : ∃ ev ∈ (GenerateCode w p ts fin).log, ev.err ≠ none) :
    (GenerateCode w p ts fin).err ≠ none := generate_sticky hw p ts fin h

/-- For any writer and any input: the error that is returned is that of the first call of `Write` that ends a line and
failed, and if there is none, that of the reader.  So exactly the errors of all other calls are lost. -/
theorem C55_exact_partial (w : Writer) {p : GenPkg} (hp : IsPkg p) {ts : List Token} (hk : ∀ t ∈ ts, t.KeysOnLine)
    (fin : Option Err) : (GenerateCode w p ts fin).err = (lineError (GenerateCode w p ts fin).log).or fin :=
  lineError_generate w (by rcases hp with rfl | rfl <;> exact ⟨_, _, rfl, by decide, by decide⟩) hk fin

/-- A writer that fails at the fourth call and at the sixth; the latter ends the second line. -/
example : (GenerateCode (fun log d => if log.length = 3 ∨ log.length = 5 then (0, some log.length) else (d.length, none))
    htmlPkg [.startTag b%"p" [], .endTag b%"p"] none).err = some 5 := by
  rw [C55_exact_partial _ (.inl rfl) (by simp [Token.KeysOnLine])]
  decide +kernel

/-- With a writer that never fails, the result is the reader's error (nil at the end of the input), for any tokens. -/
theorem C55_reader {w : Writer} (hw : Accepts w) (p : GenPkg) (ts : List Token) (fin : Option Err) :
    (GenerateCode w p ts fin).err = fin := generate_accepts hw p ts fin

/-- A writer with room for three writes. -/
def fullAfter3 : Writer := fun log d =>
  if log.length < 3 ∧ log.all (fun ev => ev.err.isNone) then (d.length, none) else (0, some 5)

theorem fullAfter3_sticky : (∀ log d, (∃ ev ∈ log, ev.err ≠ none) → (fullAfter3 log d).2 ≠ none) ∧
    (∃ ev ∈ (GenerateCode fullAfter3 htmlPkg [.comment b%"x"] none).log, ev.err ≠ none) := by
  refine ⟨fun log d ⟨ev, hm, he⟩ => ?_, ⟨[9], 0, some 5⟩, .tail _ (.tail _ (.tail _ (.head _))), by decide⟩
  have : ¬ (log.length < 3 ∧ log.all (fun ev => ev.err.isNone) = true) := fun h =>
    he (Option.isNone_iff_eq_none.1 (List.all_eq_true.1 h.2 ev hm))
  simp only [fullAfter3, if_neg this]
  decide

example : (GenerateCode fullAfter3 htmlPkg [.comment b%"x"] none).err ≠ none :=
  C55_sticky_partial fullAfter3_sticky.1 htmlPkg [.comment b%"x"] none fullAfter3_sticky.2

/-! ### C57 — running the code renders the input again -/

/-- The property for one attribute: its value comes out again. -/
def C57_claim : Prop := ∀ p, IsPkg p → ∀ k v, UsableName p.attrs k → v ≠ [] →
  ∀ src, Generates p [.selfClosingTag b%"p" [(k, v)]] src → ∀ h : Heap, ∃ n h', RunsTo false src h n h' ∧
    ∀ env s, Healthy env → s.frame.err = none → s.dl = h'.dl →
      Writes env n s (b%"<p " ++ k ++ b%"=\"" ++ escaped v ++ b%"\"></p>")

/-- For every document that is well nested, with names that the library can use, running the generated code gives a page
that writes the document: tags, attributes, texts and comments in order.  (`htmlAll` says what becomes of them: values
of boolean attributes, blank texts, contents of void elements, and svg's doctypes are lost, and text in `script` is
escaped too.) -/
theorem C57_renders_partial {p : GenPkg} (hp : IsPkg p) {ds : List Doc} (hc : ClosedAll ds) (hu : UsableAll p ds)
    {src : Bytes} (hg : Generates p (tokensAll ds) src) (strict : Bool) (h : Heap) :
    ∃ n h', RunsTo strict src h n h' ∧ ∀ env s, Healthy env → s.frame.err = none → (∀ r, r < h'.next → s.dl r = h'.dl r) →
      Writes env n s (htmlAll p ds) := by
  obtain ⟨n, h', he, _, wf, hcf, ho⟩ := eval_program (ok_pkg hp) strict ds hu h
  refine ⟨n, h', ⟨_, C56_declares_partial hp hc (usableAll_quotable (ok_pkg hp) ds hu) hg, he⟩, fun env s H hs hd => ?_⟩
  exact writes_of_out H wf (hcf s.dl hd) hs fun w' h => (ho _ _ hd w').1 h

/-- Doctypes: html writes them, with a line end after them, and svg does not; what follows is as it would be without. -/
theorem C57_doctype (d : Bytes) (ds : List Doc) :
    htmlAll htmlPkg (.doctype d :: ds) = b%"<!DOCTYPE " ++ escaped d ++ b%">\n" ++ htmlAll htmlPkg ds ∧
    htmlAll svgPkg (.doctype d :: ds) = htmlAll svgPkg ds := by
  constructor
  · rw [htmlAll, Doc.html, if_pos (show htmlPkg.doctype = true from rfl)]
  · rw [htmlAll, Doc.html, if_neg (by decide), List.nil_append]

theorem translate_usable : UsableName htmlPkg.attrs b%"translate" := by
  refine ⟨by decide, fun h => ?_⟩
  have : htmlPkg.attrs.lookup b%"translate" ≠ none := by decide +kernel
  exact absurd h this

/-- `<p translate="no"/>` comes out as `<p translate></p>`. -/
theorem C57_false : ¬ C57_claim := by
  intro hcl
  let ds : List Doc := [.selfClosing b%"p" [(b%"translate", b%"no")]]
  have hc : ClosedAll ds := ⟨trivial, trivial⟩
  have hel : UsableName htmlPkg.elems b%"p" := by
    refine ⟨by decide, fun h => ?_⟩
    have : htmlPkg.elems.lookup b%"p" ≠ none := by decide +kernel
    exact absurd h this
  have hu : UsableAll htmlPkg ds :=
    ⟨⟨hel, by simp, fun a ha => by rw [List.mem_singleton.1 ha]; exact ⟨translate_usable, by decide, by decide⟩⟩, trivial⟩
  have hg := generates_program htmlPkg hc
  obtain ⟨n, h', ⟨e, hd, he⟩, hw⟩ := C57_renders_partial (.inl rfl) hc hu hg false ⟨fun _ => [], 0⟩
  obtain ⟨n2, h2, ⟨e2, hd2, he2⟩, hw2⟩ := hcl htmlPkg (.inl rfl) b%"translate" b%"no" translate_usable (by decide) _ hg
    ⟨fun _ => [], 0⟩
  cases declares_unique hd hd2
  rw [he] at he2
  cases he2
  have h3 := writes_unique (hw Sample.env { Sample.st with dl := h'.dl } Sample.healthy rfl fun _ _ => rfl)
    (hw2 Sample.env { Sample.st with dl := h'.dl } Sample.healthy rfl rfl)
  revert h3
  have h4 : htmlAll htmlPkg ds = b%"<p translate></p>" := by decide +kernel
  rw [h4]
  decide

theorem page_usable : UsableAll htmlPkg page := by
  have key : ∀ {t : List (Bytes × Bytes)} {n : Bytes}, toLower n = n → t.lookup n ≠ none → UsableName t n :=
    fun h h' => ⟨h, fun hn => absurd hn h'⟩
  refine ⟨trivial, ⟨key (by decide) (by decide +kernel), ⟨by decide, ?_⟩, trivial, trivial,
    ⟨key (by decide) (by decide +kernel), by decide, ?_⟩, ⟨⟨by decide, fun _ => ?_⟩, ⟨by decide, by simp⟩, trivial, trivial⟩,
    trivial⟩, trivial⟩
  · intro a ha
    simp at ha
    rcases ha with rfl | rfl
    · exact ⟨key (by decide) (by decide +kernel), by decide, by decide⟩
    · exact ⟨⟨by decide, fun _ => ⟨c%'x', b%"-y", rfl, by decide, by decide⟩⟩, by decide, by decide⟩
  · intro a ha
    simp at ha
    subst ha
    exact ⟨key (by decide) (by decide +kernel), by decide, by decide⟩
  · exact ⟨c%'m', b%"y-tag", rfl, by decide, by decide⟩

example : htmlAll htmlPkg page =
    b%"<!DOCTYPE html>\n<div class=\"a &quot;b&quot;\" x-y=\"\\\">say &quot;hi&quot;\n\t(<input disabled><my-tag><!--c)--></my-tag></div>" := by
  decide +kernel

example (src : Bytes) (hg : Generates htmlPkg (tokensAll page) src) (h : Heap) :=
  C57_renders_partial (.inl rfl) page_closed page_usable hg true h

end Aitch.Props

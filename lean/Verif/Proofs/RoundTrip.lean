import Verif.Spec.RoundTrip
import Verif.Proofs.Markup
/-
Reading a page and taking it for the input of GenerateCode (lemmas for C75).
-/
namespace Aitch.Spec.Markup

theorem escapedByte_seen (s : Bytes) : escaped (seen s) = escaped s := by
  unfold escaped seen
  induction s with
  | nil => rfl
  | cons c s ih =>
    by_cases h : c = 0
    · subst h
      simp only [List.flatMap_cons, ne_eq, not_true_eq_false, decide_false, Bool.false_eq_true, not_false_eq_true,
        List.filter_cons_of_neg, ih]
      rfl
    · simp [h] at ih ⊢
      simpa [h] using ih

theorem escaped_simple (s : Bytes) (h : Simple s) : escaped s = seen s := by
  unfold escaped seen
  induction s with
  | nil => rfl
  | cons c s ih =>
    have hc := h c (by simp)
    have hs : Simple s := fun d hd => h d (by simp [hd])
    rw [List.flatMap_cons, ih hs]
    by_cases h0 : c = 0
    · subst h0; rfl
    · have : escapedByte c = [c] := by
        simp only [List.mem_cons, List.not_mem_nil, not_or, or_false] at hc
        obtain ⟨h1, h2, h3, h4, h5⟩ := hc
        simp [escapedByte, h1, h2, h3, h4, h5, h0]
      simp [this, h0]

theorem escaped_escaped (s : Bytes) (h : Simple s) : escaped (escaped s) = escaped s := by
  rw [escaped_simple s h, escapedByte_seen, escaped_simple s h]

mutual
/-- The document that is read from a tree. -/
def docOf : Tree → List Doc
  | .element name attrs cs => [.elem name (attrs.map fun a => (a.1, seen (a.2.getD []))) (docsOf cs)]
  | .void name attrs => [.void name (attrs.map fun a => (a.1, seen (a.2.getD [])))]
  | .text s => [.text (seen s)]
  | .comment s => [.comment (escaped s)]
  | .doctype s => [.doctype (escaped s), .text [10]]
/-- The documents that are read from trees. -/
def docsOf : List Tree → List Doc
  | [] => []
  | t :: ts => docOf t ++ docsOf ts
end

/-- The next token is not text. -/
def NoChar (ks : List Tok) : Prop := ∀ c rest, ks ≠ .char c :: rest

theorem items_noChar {ks : List Tok} (h : NoChar ks) : ∀ s rest, items ks ≠ .text s :: rest := by
  cases ks with
  | nil => simp [items]
  | cons k ks => cases k <;> simp_all [items, NoChar]

theorem items_text {s : Bytes} (hs : s ≠ []) {ks : List Tok} (h : NoChar ks) :
    items (s.map .char ++ ks) = .text s :: items ks := by
  induction s with
  | nil => exact absurd rfl hs
  | cons c s ih =>
    cases s with
    | nil =>
      have := items_noChar h
      simp only [List.map_cons, List.map_nil, List.cons_append, List.nil_append, items]
      unfold addText
      split
      · rename_i h1; cases h1
      · exact absurd (by assumption) (this _ _)
      · rfl
    | cons d s =>
      have := ih (by simp)
      simp only [List.map_cons, List.cons_append, items] at this ⊢
      rw [this]
      rfl

theorem tokensAll_append (as bs : List Doc) : tokensAll (as ++ bs) = tokensAll as ++ tokensAll bs := by
  induction as with
  | nil => rfl
  | cons a as ih => simp [tokensAll, ih]

theorem lower_attrs {attrs : List (Bytes × Option Bytes)} (h : ∀ a ∈ attrs, lower a.1 = a.1) :
    (attrs.map fun a => (lower a.1, seen (a.2.getD []))) = attrs.map fun a => (a.1, seen (a.2.getD [])) :=
  List.map_congr_left fun a ha => by rw [h a ha]

theorem noChar_next {p : GenPkg} {raw : Bool} {t : Tree} {ts : List Tree} {rest : List Tok}
    (ht : t.IsText ∨ ∃ s, t = .doctype s) (ha : Apart t ts.head?) (hs : StayAll p raw ts) (hr : NoChar rest) :
    NoChar (toksAll raw ts ++ rest) := by
  cases ts with
  | nil => simpa [toksAll] using hr
  | cons u us =>
    have hu : Stays p raw u := hs.1
    cases u with
    | text s =>
      rcases ht with ht | ⟨s, rfl⟩
      · cases t <;> simp_all [Tree.IsText, Apart]
      · exact absurd ha (by simp [Apart])
    | void => exact absurd hu (by simp [Stays])
    | element => intro c r h; simp [toksAll, toks, startTok] at h
    | comment => intro c r h; simp [toksAll, toks] at h
    | doctype => intro c r h; simp [toksAll, toks] at h

mutual
theorem read_tree {p : GenPkg} {raw : Bool} : (t : Tree) → Stays p raw t → (ks : List Tok) →
    ((t.IsText ∨ ∃ s, t = .doctype s) → NoChar ks) →
    (items (toks raw t ++ ks)).map tokenOf = tokensAll (docOf t) ++ (items ks).map tokenOf
  | .element name attrs cs, h, ks, _ => by
    obtain ⟨⟨h1, h2, h3⟩, h4, h5, h6⟩ := h
    have := read_trees cs h6 (.close name :: ks) (by intro c r h; cases h)
    simp only [toks, startTok, h1, lower_attrs fun a ha => (h5 a ha).1, List.cons_append, List.append_assoc,
      List.nil_append, items, List.map_cons, tokenOf, docOf, tokensAll, Doc.tokens, List.append_nil]
    rw [this]
    simp [items, tokenOf]
  | .void _ _, h, _, _ => absurd h (by simp [Stays])
  | .text s, h, ks, hk => by
    have e : (if raw then escaped s else seen s) = seen s := by
      split
      · exact escaped_simple s (h.2.2 (by assumption))
      · rfl
    simp only [toks, e]
    rw [items_text (by intro h0; have := h.1; rw [h0] at this; simp [blankText] at this) (hk (.inl trivial))]
    rfl
  | .comment s, _, ks, _ => rfl
  | .doctype s, _, ks, hk => by
    have := items_text (s := [10]) (by simp) (hk (.inr ⟨s, rfl⟩))
    simp only [List.map_cons, List.map_nil, List.cons_append, List.nil_append] at this
    simp only [toks, List.cons_append, List.nil_append, items] at this ⊢
    rw [this]
    simp [tokenOf, docOf, tokensAll, Doc.tokens]
theorem read_trees {p : GenPkg} {raw : Bool} : (ts : List Tree) → StayAll p raw ts → (ks : List Tok) → NoChar ks →
    (items (toksAll raw ts ++ ks)).map tokenOf = tokensAll (docsOf ts) ++ (items ks).map tokenOf
  | [], _, ks, _ => rfl
  | t :: ts, h, ks, hk => by
    obtain ⟨h1, h2, h3⟩ := h
    simp only [toksAll, List.append_assoc, docsOf, tokensAll_append]
    rw [read_tree t h1 _ fun ht => noChar_next ht h2 h3 hk, read_trees ts h3 ks hk]
end

theorem htmlAll_append (p : GenPkg) (as bs : List Doc) : htmlAll p (as ++ bs) = htmlAll p as ++ htmlAll p bs := by
  induction as with
  | nil => rfl
  | cons a as ih => simp [htmlAll, ih]

theorem attrs_html {p : GenPkg} {attrs : List (Bytes × Option Bytes)}
    (h : ∀ a ∈ attrs, a.2 = none ↔ a.1 ∈ p.bools) :
    (attrs.map fun a => (a.1, seen (a.2.getD []))).flatMap (attrHtml p) = attrs.flatMap writeAttr := by
  induction attrs with
  | nil => rfl
  | cons a attrs ih =>
    have ha := h a (by simp)
    simp only [List.map_cons, List.flatMap_cons]
    rw [ih fun b hb => h b (by simp [hb])]
    congr 1
    obtain ⟨n, v⟩ := a
    cases v with
    | none => simp [attrHtml, writeAttr, ha.1 rfl]
    | some v =>
      have : n ∉ p.bools := fun hn => by cases ha.2 hn
      simp [attrHtml, writeAttr, this, escapedByte_seen]

mutual
theorem html_tree {p : GenPkg} {raw : Bool} : (t : Tree) → Stays p raw t → htmlAll p (docOf t) = write t
  | .element name attrs cs, h => by
    obtain ⟨⟨h1, h2, h3⟩, h4, h5, h6⟩ := h
    simp only [docOf, htmlAll, Doc.html, elemHtml, List.append_nil, if_neg h3, write, writeTag,
      attrs_html fun a ha => (h5 a ha).2.1, html_trees cs h6, List.append_assoc]
  | .void _ _, h => absurd h (by simp [Stays])
  | .text s, h => by simp [docOf, htmlAll, Doc.html, h.1, write, escapedByte_seen]
  | .comment s, h => by simp [docOf, htmlAll, Doc.html, write, escaped_escaped s h.2]
  | .doctype s, h => by
    simp only [docOf, htmlAll, Doc.html, h.1, write, escaped_escaped s h.2.2, if_true]
    simp [blankText]
theorem html_trees {p : GenPkg} {raw : Bool} : (ts : List Tree) → StayAll p raw ts → htmlAll p (docsOf ts) = writeAll ts
  | [], _ => rfl
  | t :: ts, h => by rw [docsOf, htmlAll_append, writeAll, html_tree t h.1, html_trees ts h.2.2]
end

theorem closedAll_append {as bs : List Doc} (h : ClosedAll as) (h' : ClosedAll bs) : ClosedAll (as ++ bs) := by
  induction as with
  | nil => exact h'
  | cons a as ih => exact ⟨h.1, ih h.2⟩

theorem usableAll_append {p : GenPkg} {as bs : List Doc} (h : UsableAll p as) (h' : UsableAll p bs) :
    UsableAll p (as ++ bs) := by
  induction as with
  | nil => exact h'
  | cons a as ih => exact ⟨h.1, ih h.2⟩

theorem usableAttrs_seen {p : GenPkg} {attrs : List (Bytes × Option Bytes)}
    (h : UsableAttrs p (attrs.map fun a => (a.1, a.2.getD []))) :
    UsableAttrs p (attrs.map fun a => (a.1, seen (a.2.getD []))) := by
  obtain ⟨h1, h2⟩ := h
  refine ⟨by simpa [Function.comp_def] using h1, fun a ha => ?_⟩
  obtain ⟨b, hb, rfl⟩ := List.mem_map.1 ha
  exact h2 (b.1, b.2.getD []) (List.mem_map.2 ⟨b, hb, rfl⟩)

mutual
theorem ok_tree {p : GenPkg} {raw : Bool} : (t : Tree) → Stays p raw t → ClosedAll (docOf t) ∧ UsableAll p (docOf t)
  | .element name attrs cs, h => by
    have := ok_trees cs h.2.2.2
    exact ⟨⟨this.1, trivial⟩, ⟨h.1.2.1, usableAttrs_seen h.2.1, this.2⟩, trivial⟩
  | .void _ _, h => absurd h (by simp [Stays])
  | .text s, _ => ⟨⟨trivial, trivial⟩, trivial, trivial⟩
  | .comment s, _ => ⟨⟨trivial, trivial⟩, trivial, trivial⟩
  | .doctype s, _ => ⟨⟨trivial, trivial, trivial⟩, trivial, trivial, trivial⟩
theorem ok_trees {p : GenPkg} {raw : Bool} : (ts : List Tree) → StayAll p raw ts →
    ClosedAll (docsOf ts) ∧ UsableAll p (docsOf ts)
  | [], _ => ⟨trivial, trivial⟩
  | t :: ts, h =>
    ⟨closedAll_append (ok_tree t h.1).1 (ok_trees ts h.2.2).1, usableAll_append (ok_tree t h.1).2 (ok_trees ts h.2.2).2⟩
end

end Aitch.Spec.Markup

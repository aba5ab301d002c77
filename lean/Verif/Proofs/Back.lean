import Verif.Spec.Back
import Verif.Proofs.Lines
import Verif.Proofs.Source
import Verif.Proofs.RoundTrip
import Verif.Proofs.GenUnique
/-
The page of generated code, read as HTML (lemmas for C97).
-/
namespace Aitch.Spec.Back
open Aitch.Spec Aitch.Spec.Markup

/-- How an attribute comes out. -/
def treeAttr (p : GenPkg) (a : Bytes × Bytes) : Bytes × Option Bytes :=
  (a.1, if a.1 ∈ p.bools then none else some a.2)

/-- The tree of an element. -/
def treeElem (p : GenPkg) (name : Bytes) (attrs : List (Bytes × Bytes)) (cs : List Tree) : Tree :=
  if name ∈ htmlVoidNames then .void name (attrs.map (treeAttr p)) else .element name (attrs.map (treeAttr p)) cs

mutual
/-- The trees of the page. -/
def trees (p : GenPkg) : Doc → List Tree
  | .text d => if blankText d then [] else [.text d]
  | .comment d => [.comment d]
  | .doctype d => if p.doctype then [.doctype d] else []
  | .elem name attrs cs => [treeElem p name attrs (treesAll p cs)]
  | .selfClosing name attrs => [treeElem p name attrs []]
  | .void name attrs => [treeElem p name attrs []]
/-- The trees of the page. -/
def treesAll (p : GenPkg) : List Doc → List Tree
  | [] => []
  | d :: ds => trees p d ++ treesAll p ds
end

/-! ### The page is the trees, written -/

theorem write_attr (p : GenPkg) (attrs : List (Bytes × Bytes)) :
    (attrs.map (treeAttr p)).flatMap Markup.writeAttr = attrs.flatMap (attrHtml p) := by
  rw [List.flatMap_map]
  refine congrArg (attrs.flatMap ·) (funext fun a => ?_)
  unfold treeAttr attrHtml
  split <;> rfl

theorem write_elem (p : GenPkg) (name : Bytes) (attrs : List (Bytes × Bytes)) (cs : List Tree) :
    write (treeElem p name attrs cs) = elemHtml p name attrs (writeAll cs) := by
  unfold treeElem elemHtml
  split <;> simp [write, writeTag, write_attr]

theorem writeAll_two (as bs : List Tree) : writeAll (as ++ bs) = writeAll as ++ writeAll bs := by
  induction as with
  | nil => rfl
  | cons a as ih => simp [writeAll, ih]

mutual
theorem write_trees (p : GenPkg) : (d : Doc) → writeAll (trees p d) = d.html p
  | .text d => by unfold trees Doc.html; split <;> simp [writeAll, write]
  | .comment d => by simp [trees, Doc.html, writeAll, write]
  | .doctype d => by unfold trees Doc.html; split <;> simp [writeAll, write]
  | .elem name attrs cs => by simp [trees, Doc.html, writeAll, write_elem, write_treesAll p cs]
  | .selfClosing name attrs => by simp [trees, Doc.html, writeAll, write_elem]
  | .void name attrs => by simp [trees, Doc.html, writeAll, write_elem]
theorem write_treesAll (p : GenPkg) : (ds : List Doc) → writeAll (treesAll p ds) = htmlAll p ds
  | [] => rfl
  | d :: ds => by rw [treesAll, writeAll_two, htmlAll, write_trees p d, write_treesAll p ds]
end

/-! ### It has no carriage returns -/

theorem escaped_noReturn {s : Bytes} (h : Plainly s) : 13 ∉ escaped s := by
  intro hc
  obtain ⟨c, hs, hc⟩ := List.mem_flatMap.1 hc
  have key : ∀ n : Fin 256, UInt8.ofFin n ≠ 13 → (13 : UInt8) ∉ escapedByte (UInt8.ofFin n) := by decide +kernel
  exact key c.toFin (h c hs).2 hc

theorem valid_noReturn {n : Bytes} (h : ValidName n) : 13 ∉ n := by
  intro hc
  obtain ⟨c, rest, rfl, h1, h2⟩ := h
  rcases List.mem_cons.1 hc with rfl | hc
  · revert h1; decide
  · have := h2 _ hc; revert this; decide

theorem attr_noReturn {p : GenPkg} {attrs : List (Bytes × Bytes)} (h : KeptAttrs p attrs) :
    13 ∉ attrs.flatMap (attrHtml p) := by
  intro hc
  obtain ⟨a, ha, hc⟩ := List.mem_flatMap.1 hc
  have h1 := valid_noReturn (h a ha).1
  have h2 := escaped_noReturn (h a ha).2.1
  unfold attrHtml at hc
  split at hc <;> simp [h1, h2] at hc

theorem elem_noReturn {p : GenPkg} {name : Bytes} {attrs : List (Bytes × Bytes)} {w : Bytes} (hn : ValidName name)
    (h : KeptAttrs p attrs) (hw : 13 ∉ w) : 13 ∉ elemHtml p name attrs w := by
  have h1 := valid_noReturn hn
  have h2 := attr_noReturn h
  unfold elemHtml
  split <;> (simp only [List.mem_append, not_or]; simp [h1, h2, hw])

mutual
theorem html_noReturn {p : GenPkg} {xml raw : Bool} : (d : Doc) → Kept p xml raw d → 13 ∉ d.html p
  | .text d, h => by unfold Doc.html; split; simp; exact escaped_noReturn h.1
  | .comment d, h => by simp [Doc.html, escaped_noReturn h.1]
  | .doctype d, h => by unfold Doc.html; split <;> simp [escaped_noReturn h.2.1]
  | .elem name attrs cs, h => elem_noReturn h.1 h.2.2.2.1 (htmlAll_noReturn cs h.2.2.2.2.2.2)
  | .selfClosing name attrs, h => elem_noReturn h.1 h.2.2.1 (by simp)
  | .void _ _, h => absurd h (by simp [Kept])
theorem htmlAll_noReturn {p : GenPkg} {xml raw : Bool} : (ds : List Doc) → KeptAll p xml raw ds → 13 ∉ htmlAll p ds
  | [], _ => by simp [htmlAll]
  | d :: ds, h => by
    have h1 := html_noReturn d h.1
    have h2 := htmlAll_noReturn ds h.2
    simp [htmlAll, h1, h2]
end

/-! ### The trees are proper -/

/-- Names in lower case. -/
theorem lower_usable {table : List (Bytes × Bytes)} {n : Bytes} (h : UsableName table n) : Markup.lower n = n := by
  have hs := toLower_small n
  rw [h.1] at hs
  unfold Markup.lower
  rw [List.map_congr_left (g := id), List.map_id]
  intro c hc
  have key : ∀ n : Fin 256, ¬ (65 ≤ UInt8.ofFin n ∧ UInt8.ofFin n ≤ 90) → Markup.lowerByte (UInt8.ofFin n) = UInt8.ofFin n := by
    decide +kernel
  exact key c.toFin (hs c hc)

theorem attrs_ok {p : GenPkg} {attrs : List (Bytes × Bytes)} (hu : UsableAttrs p attrs) (hk : KeptAttrs p attrs) :
    AttrsOK (attrs.map (treeAttr p)) := by
  refine ⟨fun a ha => ?_, ?_⟩
  · obtain ⟨b, hb, rfl⟩ := List.mem_map.1 ha
    exact (hk b hb).1
  · have e : ((attrs.map (treeAttr p)).map fun a => Markup.lower a.1) = attrs.map (·.1) := by
      rw [List.map_map]
      exact List.map_congr_left fun a ha => lower_usable (hu.2 a ha).1
    rw [e]
    exact hu.1

theorem void_not_text : ∀ n ∈ htmlVoidNames, n ∉ textNames ∧ n ≠ b%"plaintext" := by decide

theorem properAll_two {as bs : List Tree} (h : ProperAll as) (h' : ProperAll bs) : ProperAll (as ++ bs) := by
  induction as with
  | nil => exact h'
  | cons a as ih => exact ⟨h.1, ih h.2⟩

theorem literalAll_two {raw : Bool} {as bs : List Tree} (h : LiteralAll raw as) (h' : LiteralAll raw bs) :
    LiteralAll raw (as ++ bs) := by
  induction as with
  | nil => exact h'
  | cons a as ih => exact ⟨h.1, ih h.2⟩

theorem texts_trees {p : GenPkg} {cs : List Doc} (h : ∀ c ∈ cs, ∃ d, c = .text d) : ∀ t ∈ treesAll p cs, t.IsText := by
  induction cs with
  | nil => simp [treesAll]
  | cons c cs ih =>
    intro t ht
    rcases List.mem_append.1 (by simpa [treesAll] using ht) with ht | ht
    · obtain ⟨d, rfl⟩ := h c (by simp)
      unfold trees at ht
      split at ht
      · simp at ht
      · simp at ht; subst ht; trivial
    · exact ih (fun c hc => h c (by simp [hc])) t ht

mutual
theorem proper_trees {p : GenPkg} {xml raw : Bool} : (d : Doc) → d.Usable p → Kept p xml raw d →
    ProperAll (trees p d) ∧ LiteralAll raw (trees p d)
  | .text d, _, h => by unfold trees; split; exact ⟨trivial, trivial⟩; exact ⟨⟨trivial, trivial⟩, h.2, trivial⟩
  | .comment d, _, h => ⟨⟨trivial, trivial⟩, h.2, trivial⟩
  | .doctype d, _, h => by unfold trees; rw [if_pos h.1]; exact ⟨⟨trivial, trivial⟩, h.2.2.1, trivial⟩
  | .elem name attrs cs, hu, h => by
    obtain ⟨h1, h2, h3, h4, h5, _, h6⟩ := h
    have hl := lower_usable hu.1
    have ih := proper_treesAll cs hu.2.2 h6
    simp only [trees, treeElem, if_neg h3]
    refine ⟨⟨⟨h1, by rwa [hl], attrs_ok hu.2.1 h4, ?_⟩, trivial⟩, ?_, trivial⟩
    · rw [hl]
      by_cases ht : name ∈ textNames
      · exact .inl ⟨ht, texts_trees (h5 ht)⟩
      · exact .inr ⟨ht, ih.1⟩
    · unfold Literal
      rw [hl]
      exact ih.2
  | .selfClosing name attrs, hu, h => by
    obtain ⟨h1, h2, h3, h4⟩ := h
    have hl := lower_usable hu.1
    simp only [trees, treeElem]
    split
    · rename_i hv
      exact ⟨⟨⟨h1, by rwa [hl], attrs_ok hu.2 h3, by rw [hl]; exact (void_not_text _ hv).1⟩, trivial⟩, trivial, trivial⟩
    · refine ⟨⟨⟨h1, by rwa [hl], attrs_ok hu.2 h3, ?_⟩, trivial⟩, trivial, trivial⟩
      by_cases ht : Markup.lower name ∈ textNames
      · exact .inl ⟨ht, by simp⟩
      · exact .inr ⟨ht, trivial⟩
  | .void _ _, _, h => absurd h (by simp [Kept])
theorem proper_treesAll {p : GenPkg} {xml raw : Bool} : (ds : List Doc) → UsableAll p ds → KeptAll p xml raw ds →
    ProperAll (treesAll p ds) ∧ LiteralAll raw (treesAll p ds)
  | [], _, _ => ⟨trivial, trivial⟩
  | d :: ds, hu, h => by
    have h1 := proper_trees d hu.1 h.1
    have h2 := proper_treesAll ds hu.2 h.2
    exact ⟨properAll_two h1.1 h2.1, literalAll_two h1.2 h2.2⟩
end

/-! ### What is read -/

theorem seen_plainly {s : Bytes} (h : Plainly s) : seen s = s :=
  List.filter_eq_self.2 fun c hc => by simpa using (h c hc).1

theorem start_tok {p : GenPkg} {name : Bytes} {attrs : List (Bytes × Bytes)} (hn : Markup.lower name = name)
    (hu : UsableAttrs p attrs) (hk : KeptAttrs p attrs) :
    startTok name (attrs.map (treeAttr p)) = .start name attrs false := by
  unfold startTok
  rw [hn, List.map_map]
  congr 1
  refine (List.map_congr_left (g := id) fun a ha => ?_).trans (List.map_id _)
  obtain ⟨n, v⟩ := a
  have h1 : Markup.lower n = n := lower_usable (hu.2 _ ha).1
  have h2 := hk _ ha
  simp only [Function.comp, treeAttr, h1, id]
  by_cases hb : n ∈ p.bools
  · have : v = [] := h2.2.2 hb
    subst this
    simp [hb, seen]
  · simp only [hb, if_false, Option.getD_some]
    rw [seen_plainly h2.2.1]

theorem meantAll_two (as bs : List Tree) : meantAll (as ++ bs) = meantAll as ++ meantAll bs := by
  induction as with
  | nil => rfl
  | cons a as ih => simp [meantAll, ih]

theorem visible_cons (xml : Bool) (t : Token) (ts : List Token) : visible xml (t :: ts) = shown xml t ++ visible xml ts := by
  simp [visible]

theorem visible_append (xml : Bool) (ts us : List Token) : visible xml (ts ++ us) = visible xml ts ++ visible xml us := by
  simp [visible]

theorem DocsApart.tail {d : Doc} {ds : List Doc} (h : DocsApart (d :: ds)) : DocsApart ds := by
  cases d with
  | text s =>
    cases ds with
    | nil => trivial
    | cons e ds => cases e <;> first | (simp only [DocsApart] at h; done) | simpa [DocsApart] using h
  | doctype s =>
    cases ds with
    | nil => trivial
    | cons e ds => cases e <;> first | exact (show _ ∧ _ from h).2 | simpa [DocsApart] using h
  | _ => simpa [DocsApart] using h

/-- After a text, or a doctype, no text comes that is to be seen. -/
theorem noChar_rest {p : GenPkg} {xml raw : Bool} {ds : List Doc} (hk : KeptAll p xml raw ds) (hs : DocsApart ds)
    (hb : ∀ d ds', ds = .text d :: ds' → blankText d = true) {rest : List Tok} (hr : NoChar rest) :
    NoChar (meantAll (treesAll p ds) ++ rest) := by
  induction ds with
  | nil => simpa [treesAll, meantAll] using hr
  | cons d ds ih =>
    have hd : Kept p xml raw d := hk.1
    cases d with
    | text s =>
      rw [treesAll, trees, if_pos (hb s ds rfl), List.nil_append]
      refine ih hk.2 hs.tail fun d ds' e => ?_
      subst e
      exact absurd hs (by simp [DocsApart])
    | comment s => intro c r h; simp [treesAll, trees, meantAll, meant] at h
    | doctype s => intro c r h; simp [treesAll, trees, hd.1, meantAll, meant] at h
    | elem n as cs => intro c r h; simp only [treesAll, trees, treeElem] at h; split at h <;> simp [meantAll, meant, startTok] at h
    | selfClosing n as => intro c r h; simp only [treesAll, trees, treeElem] at h; split at h <;> simp [meantAll, meant, startTok] at h
    | void n as => exact absurd hd (by simp [Kept])

theorem doctype_token {d : Bytes} (h : ∀ c, d.head? = some c → ¬ Markup.isSpace c) :
    token (.doctype (b%"DOCTYPE " ++ d)) = .doctype d := by
  have e : (b%"DOCTYPE " ++ d).drop 7 = 32 :: d := rfl
  simp only [token, e]
  cases d with
  | nil => rfl
  | cons c s =>
    have hc : Markup.isSpace c = false := by simpa using h c rfl
    rw [List.dropWhile_cons_of_pos (by decide), List.dropWhile_cons_of_neg (by simp [hc])]

mutual
theorem read_doc {p : GenPkg} {xml raw : Bool} : (d : Doc) → d.Usable p → Kept p xml raw d → (rest : List Tok) →
    ((∃ s, d = .text s ∧ blankText s = false) ∨ (∃ s, d = .doctype s) → NoChar rest) →
    visible xml ((items (meantAll (trees p d) ++ rest)).map token) =
      visible xml d.tokens ++ visible xml ((items rest).map token)
  | .text s, _, h, rest, hr => by
    unfold trees
    split
    · rename_i hb
      simp [meantAll, Doc.tokens, visible, shown, hb]
    · rename_i hb
      have hb' : blankText s = false := by simpa using hb
      have hn : s ≠ [] := by rintro rfl; simp [blankText] at hb
      have := items_text hn (hr (.inl ⟨s, rfl, hb'⟩))
      simp only [meantAll, meant, List.append_nil, seen_plainly h.1]
      rw [this]
      simp [token, Doc.tokens, visible]
  | .comment s, _, h, rest, _ => by
    simp [trees, meantAll, meant, seen_plainly h.1, items, token, Doc.tokens, visible]
  | .doctype s, _, h, rest, hr => by
    obtain ⟨h1, h2, h3, h4⟩ := h
    have := items_text (s := [10]) (by simp) (hr (.inr ⟨s, rfl⟩))
    simp only [List.map_cons, List.map_nil, List.cons_append, List.nil_append] at this
    simp only [trees, h1, if_true, meantAll, meant, List.append_nil, List.cons_append, List.nil_append, seen_plainly h2]
    have ht : token (.doctype (68 :: 79 :: 67 :: 84 :: 89 :: 80 :: 69 :: 32 :: s)) = .doctype s := doctype_token h4
    rw [items, this, List.map_cons, List.map_cons, ht]
    simp only [visible_cons, Doc.tokens, token]
    simp [visible, shown, blankText]
  | .elem name attrs cs, hu, h, rest, _ => by
    obtain ⟨h1, h2, h3, h4, h5, h6, h7⟩ := h
    have hl := lower_usable hu.1
    have ih := read_docs cs hu.2.2 h7 h6 (.close name :: rest) (by intro c r h; cases h)
    simp only [trees, treeElem, if_neg h3, meantAll, meant, start_tok hl hu.2.1 h4, hl, List.append_nil, List.append_assoc,
      List.cons_append, List.nil_append, items, List.map_cons, visible_cons, ih, Doc.tokens, visible_append]
    simp [visible, token]
  | .selfClosing name attrs, hu, h, rest, _ => by
    obtain ⟨h1, h2, h3, h4⟩ := h
    have hl := lower_usable hu.1
    simp only [trees, treeElem]
    split
    · rename_i hv
      have hx : xml = false := by cases xml; rfl; exact absurd hv (h4.1 rfl)
      simp [meantAll, meant, start_tok hl hu.2 h3, items, token, Doc.tokens, visible, shown, hx]
    · rename_i hv
      have hx : xml = true := h4.2 hv
      simp [meantAll, meant, start_tok hl hu.2 h3, hl, items, token, Doc.tokens, visible, shown, hx]
  | .void _ _, _, h, _, _ => absurd h (by simp [Kept])
theorem read_docs {p : GenPkg} {xml raw : Bool} : (ds : List Doc) → UsableAll p ds → KeptAll p xml raw ds → DocsApart ds →
    (rest : List Tok) → NoChar rest →
    visible xml ((items (meantAll (treesAll p ds) ++ rest)).map token) =
      visible xml (tokensAll ds) ++ visible xml ((items rest).map token)
  | [], _, _, _, rest, _ => by simp [treesAll, meantAll, tokensAll, visible]
  | d :: ds, hu, hk, hs, rest, hr => by
    rw [treesAll, meantAll_two, List.append_assoc, read_doc d hu.1 hk.1 _ ?_, read_docs ds hu.2 hk.2 hs.tail rest hr,
      tokensAll, visible_append, List.append_assoc]
    intro hd
    refine noChar_rest hk.2 hs.tail (fun e ds' he => ?_) hr
    subst he
    rcases hd with ⟨s, rfl, hb⟩ | ⟨s, rfl⟩
    · exact absurd hs (by simp [DocsApart])
    · exact (show _ ∧ _ from hs).1
end

/-- What is to be seen of the page is what is to be seen of the input. -/
theorem read_back (R : CharRefs) {p : GenPkg} {xml : Bool} {ds : List Doc} (hu : UsableAll p ds)
    (hk : KeptAll p xml false ds) (hs : DocsApart ds) :
    visible xml (tokenize R (htmlAll p ds)) = visible xml (tokensAll ds) := by
  have hp := proper_treesAll ds hu hk
  have h := read_docs ds hu hk hs [] (by intro c r h; cases h)
  unfold tokenize
  rw [newlines_nl, nl_noReturn (htmlAll_noReturn ds hk), ← write_treesAll, read_write R _ hp.1, toksAll_meant false _ hp.2]
  simpa [items, visible] using h

mutual
theorem kept_closed {p : GenPkg} {xml raw : Bool} : (d : Doc) → Kept p xml raw d → d.Closed
  | .text _, _ => trivial
  | .comment _, _ => trivial
  | .doctype _, _ => trivial
  | .elem _ _ cs, h => keptAll_closed cs h.2.2.2.2.2.2
  | .selfClosing _ _, _ => trivial
  | .void _ _, h => absurd h (by simp [Kept])
theorem keptAll_closed {p : GenPkg} {xml raw : Bool} : (ds : List Doc) → KeptAll p xml raw ds → ClosedAll ds
  | [], _ => trivial
  | d :: ds, h => ⟨kept_closed d h.1, keptAll_closed ds h.2⟩
end

end Aitch.Spec.Back

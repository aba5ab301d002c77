import Verif.Proofs.Dom
import Verif.Proofs.Source
import Verif.Proofs.Built
import Verif.Spec.Page
/-
The DOM of a page.
-/
namespace Aitch.Spec.Markup

/-! ### The head -/

theorem spaces_append {s : Bytes} (hs : s.all isSpace = true) (t : Bytes) :
    spaces (s ++ t) = s ++ spaces t ∧ rest (s ++ t) = rest t := by
  induction s with
  | nil => exact ⟨rfl, rfl⟩
  | cons c s ih =>
    simp only [List.all_cons, Bool.and_eq_true] at hs
    obtain ⟨h1, h2⟩ := ih hs.2
    unfold spaces rest at *
    rw [List.cons_append, List.takeWhile_cons_of_pos hs.1, List.dropWhile_cons_of_pos hs.1, h1, h2]
    exact ⟨rfl, rfl⟩

theorem feed_head_spaces {b : Builder} (hm : b.mode = .inHead) {s : Bytes} (hs : s.all isSpace = true) (is : List Item) :
    b.feed (addText s is) = (b.insertText s).feed is := by
  have step : ∀ {b : Builder}, b.mode = .inHead → ∀ t, b.step (.text t) =
      if rest t = [] then some (b.insertText (spaces t))
      else (b.insertText (spaces t)).endHead.afterHead (.text (rest t)) := by
    intro b hm t
    rw [Builder.step, hm]
    rfl
  refine feed_addText (fun t => ?_) ?_ is
  · rw [step hm, step (by rw [mode_insertText, hm]), insertText_append, (spaces_append hs t).1, (spaces_append hs t).2]
  · rw [step (by rw [mode_insertText, hm])]
    rfl

theorem feed_head {x y : List Dom} {st : List Open} : (ts : List Tree) → ProperAll ts → ∀ (o : Open) (rest : List Tok),
    ts.all fitsHead = true →
    Builder.feed ⟨.inHead, o :: st, x, y⟩ (items (meantAll ts ++ rest)) =
      Builder.feed ⟨.inHead, { o with kids := (nodes ts).foldl add o.kids } :: st, x, y⟩ (items rest)
  | [], _, _, _, _ => rfl
  | t :: ts, hp, o, rest, hf => by
    rw [List.all_cons, Bool.and_eq_true] at hf
    have ih := fun kids => feed_head (x := x) (y := y) (st := st) ts hp.2 { o with kids := kids } rest hf.2
    rw [meantAll, List.append_assoc]
    cases t with
    | element name attrs cs =>
      have hn : lower name ∈ headTextNames := by simpa [fitsHead] using hf.1
      obtain ⟨⟨_, _, _, hp⟩, _⟩ := hp
      have h1 : ∀ n ∈ headTextNames, n ∈ textNames ∧ n ∉ [b%"html", b%"template", b%"noscript"] ∧ n ∉ headVoidNames := by
        decide
      have hp := (hp.resolve_right fun h => h.1 (h1 _ hn).1).2
      rw [meant, startTok, List.cons_append, List.cons_append, List.append_assoc, items,
        feed_step (b' := ⟨.text .inHead, ⟨lower name, domAttrs attrs, []⟩ :: o :: st, x, y⟩), feed_texts cs hp,
        List.singleton_append, items, feed_step (b' := ⟨.inHead, { o with kids := _ :: o.kids } :: st, x, y⟩) rfl]
      · rw [ih]
        rw [nodes, List.foldl_cons, node, ← children, ← addAll_children]
        rfl
      · rw [Builder.step]
        simp only
        rw [Builder.head, if_neg (h1 _ hn).2.1, if_neg (h1 _ hn).2.2, if_pos hn]
        rfl
    | void name attrs =>
      have hn : lower name ∈ headVoidNames := by simpa [fitsHead] using hf.1
      have h1 : ∀ n ∈ headVoidNames, n ∉ [b%"html", b%"template", b%"noscript"] := by decide
      rw [meant, startTok, List.singleton_append, items,
        feed_step (b' := ⟨.inHead, { o with kids := .element (lower name) (domAttrs attrs) [] :: o.kids } :: st, x, y⟩)]
      · rw [ih]
        rfl
      · rw [Builder.step]
        simp only
        rw [Builder.head, if_neg (h1 _ hn), if_pos hn]
        rfl
    | text s =>
      rw [meant, items_chars, feed_head_spaces rfl hf.1, insertText_add, ih]
      rfl
    | comment s =>
      rw [meant, List.singleton_append, items,
        feed_step (b' := ⟨.inHead, { o with kids := .comment (seen s) :: o.kids } :: st, x, y⟩) rfl, ih]
      rfl
    | doctype s => cases hf.1

/-! ### The whole page -/

theorem dom_page {attrs headAttrs bodyAttrs : List (Bytes × Option Bytes)} {heads bodies : List Tree}
    (hh : ProperAll heads) (hb : ProperAll bodies) (fh : heads.all fitsHead = true)
    (fb : fitsAll [b%"body", b%"html"] bodies = true) (headless : Bool)
    (hl : headless = true → headAttrs = [] ∧ heads = []) :
    domOf (items (meantAll [.doctype b%"html", .element b%"html" attrs
      ((if headless then [] else [.element b%"head" headAttrs heads]) ++ [.element b%"body" bodyAttrs bodies])])) =
    some [.doctype b%"DOCTYPE html", .element b%"html" (domAttrs attrs)
      [.element b%"head" (domAttrs headAttrs) (children heads),
       .element b%"body" (domAttrs bodyAttrs) (children bodies)]] := by
  -- the body and the rest
  have body : ∀ (headNode : Dom) (rest : List Tok), rest = [.close b%"body", .close b%"html"] →
      (Builder.feed ⟨.inBody, [⟨b%"body", domAttrs bodyAttrs, []⟩, ⟨b%"html", domAttrs attrs, [headNode]⟩],
        [.doctype b%"DOCTYPE html"], []⟩ (items (meantAll bodies ++ rest))).map (·.document) =
      some [.doctype b%"DOCTYPE html", .element b%"html" (domAttrs attrs) [headNode,
        .element b%"body" (domAttrs bodyAttrs) (children bodies)]] := by
    rintro headNode rest rfl
    rw [feed_trees (st := [⟨b%"html", domAttrs attrs, [headNode]⟩]) bodies hb ⟨b%"body", domAttrs bodyAttrs, []⟩ _ fb, ← addAll_children]
    rfl
  have start : ∀ ks, Builder.start.feed (items (.doctype b%"DOCTYPE html" :: .char 10 ::
      .start b%"html" (domAttrs attrs) false :: ks)) =
      Builder.feed ⟨.beforeHead, [⟨b%"html", domAttrs attrs, []⟩], [.doctype b%"DOCTYPE html"], []⟩ (items ks) := by
    intro ks
    rfl
  have tail : ∀ ks : List Tok, meantAll [.doctype b%"html", .element b%"html" attrs
      ((if headless then [] else [.element b%"head" headAttrs heads]) ++ [.element b%"body" bodyAttrs bodies])] =
      .doctype b%"DOCTYPE html" :: .char 10 :: .start b%"html" (domAttrs attrs) false ::
        (meantAll ((if headless then [] else [.element b%"head" headAttrs heads]) ++
          [.element b%"body" bodyAttrs bodies]) ++ [.close b%"html"]) := by
    intro _
    rw [meantAll, meantAll, meantAll, meant, meant, List.append_nil]
    rfl
  have last : meantAll [.element b%"body" bodyAttrs bodies] ++ [.close b%"html"] =
      .start b%"body" (domAttrs bodyAttrs) false :: (meantAll bodies ++ [.close b%"body", .close b%"html"]) := by
    rw [meantAll, meantAll, meant, List.append_nil, List.cons_append, List.cons_append, List.append_assoc]
    rfl
  rw [domOf, tail [], start]
  cases headless with
  | true =>
    obtain ⟨rfl, rfl⟩ := hl rfl
    rw [if_pos rfl, List.nil_append, last, items, feed_step (b' := ⟨.inBody, [⟨b%"body", domAttrs bodyAttrs, []⟩,
      ⟨b%"html", domAttrs attrs, [.element b%"head" [] []]⟩], [.doctype b%"DOCTYPE html"], []⟩) rfl]
    exact body _ _ rfl
  | false =>
    have head : meantAll ([.element b%"head" headAttrs heads] ++ [.element b%"body" bodyAttrs bodies]) ++
        [.close b%"html"] = .start b%"head" (domAttrs headAttrs) false :: (meantAll heads ++ .close b%"head" ::
          .start b%"body" (domAttrs bodyAttrs) false :: (meantAll bodies ++ [.close b%"body", .close b%"html"])) := by
      rw [List.singleton_append, meantAll, List.append_assoc, last, meant, List.cons_append, List.cons_append,
        List.append_assoc]
      rfl
    rw [if_neg (by simp), head, items, feed_step (b' := ⟨.inHead, [⟨b%"head", domAttrs headAttrs, []⟩,
      ⟨b%"html", domAttrs attrs, []⟩], [.doctype b%"DOCTYPE html"], []⟩) rfl, feed_head heads hh _ _ fh, items,
      feed_step (b' := ⟨.afterHead, [⟨b%"html", domAttrs attrs,
        [.element b%"head" (domAttrs headAttrs) ((nodes heads).foldl add []).reverse]⟩], [.doctype b%"DOCTYPE html"], []⟩) rfl,
      items, feed_step (b' := ⟨.inBody, [⟨b%"body", domAttrs bodyAttrs, []⟩, ⟨b%"html", domAttrs attrs,
        [.element b%"head" (domAttrs headAttrs) ((nodes heads).foldl add []).reverse]⟩],
        [.doctype b%"DOCTYPE html"], []⟩) rfl, addAll_children]
    exact body _ _ rfl

/-! ### The page as a source -/

/-- The `html` element of a page; what is nil is an empty text. -/
def Page.src (p : Page) : Src :=
  .element b%"html" (p.lang.toList.map fun l => (b%"lang", some [l]))
    ((if p.lang.isNone then [.text []] else []) ++
     (if p.headless then [.text []] else [.element b%"head" p.headAttrs p.head]) ++
     [.element b%"body" p.bodyAttrs p.body])

/-- Making an element with different attributes leaves the memory as it is. -/
theorem newElement_memory {c : Ctx} {h : Heap} {name : Bytes} {attrs : List (Bytes × Option (List Part))} {ts : List Src}
    (ha : AttrsOK (attrs.map (attrOf c))) (hs : StringsAll c ts) (hp : ProperAll (treesOf c ts)) :
    (NewElement name (argsFor h attrs ts) h).2 = h := by
  have hn : ((attrs.map (attrOf c)).map fun a => a.1).Nodup := nodup_of_map (f := lower) (by
    rw [List.map_map]; exact ha.2)
  obtain ⟨e, n1, -⟩ := newElement_distinct name (srcAttrs_nodup h hn) (madeAll h ts hs hp).leaf h
  rw [argsFor, buildArgs_eq, n1]

theorem newElement_nodes {name : Bytes} {h : Heap} {as bs : List Any}
    (e : contentsToNodes h.dl as = contentsToNodes h.dl bs) : NewElement name as h = NewElement name bs h := by
  unfold NewElement
  rw [e]

theorem buildAll_append (h : Heap) : (ts us : List Src) → buildAll h (ts ++ us) = buildAll h ts ++ buildAll h us
  | [], _ => rfl
  | t :: ts, us => by rw [List.cons_append, buildAll, buildAll, buildAll_append h ts us, List.cons_append]

theorem contentsToNodes_nodes (dl : Nat → List Value) (ns : List Node) : contentsToNodes dl (ns.map .node) = ns := by
  simp [contentsToNodes, Function.comp_def]

theorem contentsToNodes_append (dl : Nat → List Value) (as bs : List Any) :
    contentsToNodes dl (as ++ bs) = contentsToNodes dl as ++ contentsToNodes dl bs := by
  simp [contentsToNodes]

theorem page_src {c : Ctx} {h : Heap} {p : Page} (hs : p.Strings c) (ha : AttrsOK (p.headAttrs.map (attrOf c)))
    (hb : AttrsOK (p.bodyAttrs.map (attrOf c))) (ph : ProperAll (treesOf c p.head)) (pb : ProperAll (treesOf c p.body)) :
    p.build h = .document (some (DocType h.dl)) [build h p.src] := by
  have hbody : (Body (argsFor h p.bodyAttrs p.body) h).2 = h := newElement_memory hb hs.body pb
  have hhead : (headArg (argsFor h p.headAttrs p.head) h).2 = h := by
    rw [headArg.eq_def]
    split
    · rfl
    · exact newElement_memory ha hs.head ph
  rw [Page.build, document_eq, hhead, hbody]
  congr 2
  rw [Page.src, build]
  congr 1
  apply newElement_nodes
  have h1 : contentsToNodes h.dl [(headArg (argsFor h p.headAttrs p.head) h).1] =
      buildAll h (if p.headless then [.text []] else [.element b%"head" p.headAttrs p.head]) := by
    rw [Page.headless]
    obtain ⟨l, as, ts, as', ts'⟩ := p
    cases as with
    | nil =>
      cases ts with
      | nil => rfl
      | cons t ts => rfl
    | cons a as => rfl
  rw [contentsToNodes_append, contentsToNodes_nodes, buildAll_append, buildAll_append, ← h1]
  cases p.lang with
  | none => rfl
  | some l => cases l <;> rfl

theorem properAll_append_iff : (ts us : List Tree) → ProperAll (ts ++ us) ↔ ProperAll ts ∧ ProperAll us
  | [], _ => by simp [ProperAll]
  | t :: ts, us => by simp only [List.cons_append, ProperAll, properAll_append_iff ts us, and_assoc]

theorem writeAll_append' : (ts us : List Tree) → writeAll (ts ++ us) = writeAll ts ++ writeAll us
  | [], _ => rfl
  | t :: ts, us => by rw [List.cons_append, writeAll, writeAll, writeAll_append' ts us, List.append_assoc]

theorem treesOf_append (c : Ctx) : (ts us : List Src) → treesOf c (ts ++ us) = treesOf c ts ++ treesOf c us
  | [], _ => rfl
  | t :: ts, us => by rw [List.cons_append, treesOf, treesOf, treesOf_append c ts us, List.cons_append]

theorem stringsAll_append (c : Ctx) : (ts us : List Src) → StringsAll c (ts ++ us) ↔ StringsAll c ts ∧ StringsAll c us
  | [], _ => by simp [StringsAll]
  | t :: ts, us => by simp only [List.cons_append, StringsAll, stringsAll_append c ts us, and_assoc]

theorem headless_iff {p : Page} : p.headless = true ↔ p.headAttrs = [] ∧ p.head = [] := by
  simp [Page.headless]

/-- What `Proper` says of a page. -/
theorem page_proper {c : Ctx} {p : Page} (hp : ProperAll (p.trees c)) :
    AttrsOK (p.htmlAttrs c) ∧ AttrsOK (p.headAttrs.map (attrOf c)) ∧ AttrsOK (p.bodyAttrs.map (attrOf c)) ∧
      ProperAll (treesOf c p.head) ∧ ProperAll (treesOf c p.body) := by
  have hh : b%"head" ∉ textNames := by decide
  have hb : b%"body" ∉ textNames := by decide
  have hn : b%"html" ∉ textNames := by decide
  obtain ⟨-, ⟨-, -, h1, h2⟩, -⟩ := hp
  have h2 := (h2.resolve_left fun h => hn h.1).2
  rw [properAll_append_iff] at h2
  obtain ⟨h2, ⟨-, -, h3, h4⟩, -⟩ := h2
  have h4 := (h4.resolve_left fun h => hb h.1).2
  by_cases hl : p.headless = true
  · obtain ⟨e1, e2⟩ := headless_iff.1 hl
    rw [e1, e2]
    exact ⟨h1, ⟨by simp, by simp⟩, h3, trivial, h4⟩
  · rw [if_neg hl] at h2
    obtain ⟨⟨-, -, h5, h6⟩, -⟩ := h2
    exact ⟨h1, h5, h3, (h6.resolve_left fun h => hh h.1).2, h4⟩

/-- A page is written as its trees. -/
theorem page_made {c : Ctx} {h : Heap} {p : Page} (hs : p.Strings c) (hp : ProperAll (p.trees c)) :
    Made c (p.build h) (writeAll (p.trees c)) := by
  obtain ⟨h1, h2, h3, h4, h5⟩ := page_proper hp
  rw [page_src hs h2 h3 h4 h5]
  have hat : (p.lang.toList.map fun l => (b%"lang", some [l])).map (attrOf c) = p.htmlAttrs c := by
    rw [Page.htmlAttrs, List.map_map]
    congr 1
    funext l
    simp [attrOf, stringOf]
  have htree : treeOf c p.src = .element b%"html" (p.htmlAttrs c) ((if p.lang.isNone then [.text []] else []) ++
      (if p.headless then [.text []] else [.element b%"head" (p.headAttrs.map (attrOf c)) (treesOf c p.head)]) ++
      [.element b%"body" (p.bodyAttrs.map (attrOf c)) (treesOf c p.body)]) := by
    rw [Page.src, treeOf, hat, treesOf_append, treesOf_append]
    congr 3
    · split <;> rfl
    · split <;> rfl
  have hsrc : Strings c p.src := by
    rw [Page.src]
    refine ⟨?_, ?_⟩
    · intro a ha q hq
      obtain ⟨l, hl, rfl⟩ := List.mem_map.1 ha
      simp only [Option.getD_some, List.mem_singleton] at hq
      subst hq
      exact hs.lang q (by simpa using hl)
    · rw [stringsAll_append, stringsAll_append]
      refine ⟨⟨?_, ?_⟩, ⟨hs.bodyAttrs, hs.body⟩, trivial⟩
      · split
        · exact ⟨nofun, trivial⟩
        · trivial
      · split
        · exact ⟨nofun, trivial⟩
        · exact ⟨⟨hs.headAttrs, hs.head⟩, trivial⟩
  have v : ∀ s, htmlTagMatch s = true → ValidName s := fun s => (htmlTagMatch_iff s).1
  have hproper : Proper (treeOf c p.src) := by
    rw [htree]
    refine ⟨v _ (by decide), by decide, h1, .inr ⟨by decide, ?_⟩⟩
    rw [properAll_append_iff, properAll_append_iff]
    refine ⟨⟨?_, ?_⟩, ⟨v _ (by decide), by decide, h3, .inr ⟨by decide, h5⟩⟩, trivial⟩
    · split
      · exact ⟨trivial, trivial⟩
      · trivial
    · split
      · exact ⟨trivial, trivial⟩
      · exact ⟨⟨v _ (by decide), by decide, h2, .inr ⟨by decide, h4⟩⟩, trivial⟩
  have hwrite : write (treeOf c p.src) = writeAll ((p.trees c).tail) := by
    rw [htree, Page.trees, List.tail_cons, writeAll, writeAll, List.append_nil, write, write, writeAll_append',
      writeAll_append', writeAll_append']
    congr 5
    cases p.lang.isNone <;> cases p.headless <;> rfl
  have m := made h p.src hsrc hproper
  refine ⟨rfl, ⟨trivial, m.wf, trivial⟩, fun dl => ⟨?_, m.free dl, trivial⟩, fun P w' => ?_⟩
  · exact valuesUse_plain (by simp [Plain])
  rw [show writeAll (p.trees c) = b%"<!DOCTYPE html>\n" ++ writeAll ((p.trees c).tail) from rfl, ← hwrite]
  constructor
  · intro ho
    cases ho with
    | document ha =>
      cases ha with
      | cons a b =>
        cases b with
        | cons b e =>
          cases e
          cases a
          rw [(m.out P _).1 b, List.append_nil]
          rfl
  · rintro rfl
    have := Out.document (P := P) (c := c) (prologue := some (DocType h.dl)) (.cons .pi (.cons ((m.out P _).2 rfl) .nil))
    rw [List.append_nil] at this
    exact this

/-! ### Line ends, checked -/

/-- No `pre` or the like starts with a line feed. -/
def firstKept : List Item → Bool
  | .start n _ _ :: .text s :: is => (n ∉ preNames || s.head? != some 10) && firstKept (.text s :: is)
  | _ :: is => firstKept is
  | [] => true

theorem firstKept_tail (i : Item) (is : List Item) (h : firstKept (i :: is) = true) : firstKept is = true := by
  cases i with
  | start n as sc =>
    cases is with
    | nil => rfl
    | cons j is =>
      cases j <;> simp only [firstKept, Bool.and_eq_true] at h ⊢ <;> first | exact h | exact h.2
  | _ => exact h

theorem linesKept_of {is : List Item} (h1 : (is.all fun i => i.strings.all fun s => !s.contains 13) = true)
    (h2 : firstKept is = true) : LinesKept is := by
  refine ⟨fun i hi s hs => ?_, fun before n as sc s after e hn => ?_⟩
  · have := List.all_eq_true.1 (List.all_eq_true.1 h1 i hi) s hs
    simpa using this
  · subst e
    clear h1
    induction before with
    | nil =>
      rw [List.nil_append, firstKept, Bool.and_eq_true] at h2
      simpa [hn] using h2.1
    | cons i before ih => exact ih (firstKept_tail _ _ h2)

end Aitch.Spec.Markup

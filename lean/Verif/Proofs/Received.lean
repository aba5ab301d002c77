import Verif.Proofs.Page
import Verif.Proofs.Lines
import Verif.Spec.Received
/-
The DOM of a page with any strings in it.
-/
namespace Aitch.Spec.Markup

/-! ### Dropping line feeds, in tokens -/

/-- The tokens without the line feeds that are dropped; `f`: after a start tag of `pre` or the like. -/
def dropToks : Bool → List Tok → List Tok
  | _, [] => []
  | f, .char c :: ks => if f ∧ c = 10 then dropToks false ks else .char c :: dropToks false ks
  | _, .start n as sc :: ks => .start n as sc :: dropToks (decide (n ∈ preNames)) ks
  | _, .close n :: ks => .close n :: dropToks false ks
  | _, .comment d :: ks => .comment d :: dropToks false ks
  | _, .doctype d :: ks => .doctype d :: dropToks false ks

/-- The same with items. -/
def dropItems : Bool → List Item → List Item
  | true, .text (10 :: s) :: is => addText s (dropFirst is)
  | _, is => dropFirst is

theorem dropFirst_other {i : Item} (h : ∀ n as sc, i ≠ .start n as sc) (is : List Item) :
    dropFirst (i :: is) = i :: dropFirst is := by
  cases i <;> first | exact absurd rfl (h _ _ _) | rw [dropFirst]; exact nofun

theorem dropFirst_skip {n : Bytes} {as : List (Bytes × Bytes)} {sc : Bool} {is : List Item}
    (h : ∀ s is', is ≠ .text (10 :: s) :: is') : dropFirst (.start n as sc :: is) = .start n as sc :: dropFirst is := by
  rw [dropFirst]
  intro n' as' sc' s rest _ e
  exact h _ _ e

theorem dropItems_skip {f : Bool} {is : List Item} (h : ∀ s is', is ≠ .text (10 :: s) :: is') :
    dropItems f is = dropFirst is := by
  rw [dropItems]
  intro s rest _ e
  exact h _ _ e

theorem dropFirst_start (n : Bytes) (as : List (Bytes × Bytes)) (sc : Bool) (is : List Item) :
    dropFirst (.start n as sc :: is) = .start n as sc :: dropItems (decide (n ∈ preNames)) is := by
  by_cases h : ∃ s is', is = .text (10 :: s) :: is'
  · obtain ⟨s, is', rfl⟩ := h
    by_cases hn : n ∈ preNames
    · simp only [hn, decide_true]
      rw [dropFirst, if_pos hn, dropItems]
    · simp only [hn, decide_false]
      rw [dropFirst, if_neg hn, dropItems, dropFirst_other (by simp)]
      exact nofun
  · have h : ∀ s is', is ≠ .text (10 :: s) :: is' := fun s is' e => h ⟨s, is', e⟩
    rw [dropFirst_skip h, dropItems_skip h]

theorem addText_nil (is : List Item) : addText [] is = is := by simp [addText]

/-- After a start tag comes no text twice. -/
theorem dropItems_addText (f : Bool) (c : UInt8) (is : List Item) (h : LinesApart is) :
    dropItems f (addText [c] is) = if f = true ∧ c = 10 then dropFirst is else addText [c] (dropFirst is) := by
  have key : ∀ s is', (∀ t is'', is' ≠ .text t :: is'') → addText s (dropFirst is') = match s with
      | [] => dropFirst is'
      | s => .text s :: dropFirst is' := by
    intro s is' hne
    cases s with
    | nil => simp [addText]
    | cons d s =>
      cases is' with
      | nil => rfl
      | cons i is' =>
        cases i with
        | text t => exact absurd rfl (hne t is')
        | start n as sc => rw [dropFirst_start]; rfl
        | _ => rw [dropFirst_other (by simp)]; rfl
  cases is with
  | nil =>
    cases f <;> by_cases hc : c = 10
    all_goals simp [addText, dropItems, dropFirst, hc]
  | cons i is =>
    cases i with
    | text t =>
      have e : addText [c] (.text t :: is) = .text (c :: t) :: is := rfl
      have h1 : ∀ t is'', is ≠ .text t :: is'' := h.2.2
      rw [e, dropFirst_other (by simp), show addText [c] (.text t :: dropFirst is) = .text (c :: t) :: dropFirst is from rfl]
      by_cases hc : f = true ∧ c = 10
      · obtain ⟨rfl, rfl⟩ := hc
        rw [dropItems, if_pos ⟨rfl, rfl⟩, key t is h1]
        cases t with
        | nil => exact absurd rfl h.1
        | cons => rfl
      · rw [if_neg hc]
        cases f with
        | false => rw [dropItems, dropFirst_other (by simp)]; exact nofun
        | true =>
          have hc : c ≠ 10 := fun e => hc ⟨rfl, e⟩
          rw [dropItems_skip (by simp [hc]), dropFirst_other (by simp)]
    | _ =>
      rw [show ∀ (i : Item), (∀ t, i ≠ .text t) → addText [c] (i :: is) = .text [c] :: i :: is from
        fun i hi => by cases i <;> first | rfl | exact absurd rfl (hi _)]
      · by_cases hc : f = true ∧ c = 10
        · obtain ⟨rfl, rfl⟩ := hc
          rw [dropItems, if_pos ⟨rfl, rfl⟩, addText_nil]
        · rw [if_neg hc]
          have hd : ∀ i : Item, dropItems f (.text [c] :: i :: is) = .text [c] :: dropFirst (i :: is) := by
            intro i
            cases f with
            | false => rw [dropItems, dropFirst_other (by simp)]; exact nofun
            | true =>
              have hc : c ≠ 10 := fun e => hc ⟨rfl, e⟩
              rw [dropItems_skip (by simp [hc]), dropFirst_other (by simp)]
          rw [hd]
          exact (key [c] _ (by simp)).symm
      · exact nofun

theorem dropFirst_items : (f : Bool) → (ks : List Tok) → dropItems f (items ks) = items (dropToks f ks)
  | f, [] => by cases f <;> rfl
  | f, .char c :: ks => by
    have ih := dropFirst_items false ks
    have e : dropItems false (items ks) = dropFirst (items ks) := by rw [dropItems]; exact nofun
    rw [e] at ih
    rw [show items (.char c :: ks) = addText [c] (items ks) from items_chars [c] ks,
      dropItems_addText f c _ (linesApart_items ks), dropToks]
    by_cases hc : f = true ∧ c = 10
    · rw [if_pos hc, if_pos (by simpa using hc), ih]
    · rw [if_neg hc, if_neg (by simpa using hc), ih]
      exact (items_chars [c] _).symm
  | f, .start n as sc :: ks => by
    rw [items, dropItems_skip (by simp), dropFirst_start, dropFirst_items, dropToks, items]
  | f, .close n :: ks => by
    have ih := dropFirst_items false ks
    rw [show dropItems false (items ks) = dropFirst (items ks) by rw [dropItems]; exact nofun] at ih
    rw [items, dropItems_skip (by simp), dropFirst_other (by simp), ih, dropToks, items]
  | f, .comment n :: ks => by
    have ih := dropFirst_items false ks
    rw [show dropItems false (items ks) = dropFirst (items ks) by rw [dropItems]; exact nofun] at ih
    rw [items, dropItems_skip (by simp), dropFirst_other (by simp), ih, dropToks, items]
  | f, .doctype n :: ks => by
    have ih := dropFirst_items false ks
    rw [show dropItems false (items ks) = dropFirst (items ks) by rw [dropItems]; exact nofun] at ih
    rw [items, dropItems_skip (by simp), dropFirst_other (by simp), ih, dropToks, items]

/-! ### Trees as they arrive -/

/-- A line feed at the start is dropped, if `f`. -/
def dropIf (f : Bool) : Bytes → Bytes
  | 10 :: s => if f then s else 10 :: s
  | s => s

/-- The text of a tree, with line ends normalised. -/
def textGot (raw b : Bool) (s : Bytes) : Bytes := if raw then escaped (nl b (seen s)) else nl b (seen s)

mutual
/-- A tree as it arrives; `f`: after a start tag of `pre`, `raw`: without decoding, `b`: after a carriage return. -/
def got (f raw b : Bool) : Tree → Tree
  | .element name attrs children => .element name (nlAttrs attrs)
    (gotAll (decide (lower name ∈ preNames)) (decide (lower name ∈ rawtextNames)) false children)
  | .void name attrs => .void name (nlAttrs attrs)
  | .text s => .text (dropIf f (textGot raw b s))
  | .comment s => .comment (escaped (nl false (seen s)))
  | .doctype s => .doctype (escaped (nl false (seen s)))
/-- The same for all. -/
def gotAll (f raw b : Bool) : List Tree → List Tree
  | [] => []
  | t :: ts => got f raw b t :: gotAll (stillFirst f raw b t) raw (flagAfter b t) ts
/-- Whether there was nothing yet after the start tag. -/
def stillFirst (f raw b : Bool) : Tree → Bool
  | .text s => f && (textGot raw b s).isEmpty
  | _ => false
end

mutual
/-- No void element is called `pre` or the like. -/
def Tame : Tree → Prop
  | .element _ _ children => TameAll children
  | .void name _ => lower name ∉ preNames
  | _ => True
/-- The same for all. -/
def TameAll : List Tree → Prop
  | [] => True
  | t :: ts => Tame t ∧ TameAll ts
end

theorem dropToks_chars (f : Bool) (s : Bytes) (ks : List Tok) :
    dropToks f (s.map .char ++ ks) = (dropIf f s).map .char ++ dropToks (f && s.isEmpty) ks := by
  have plain : ∀ (s : Bytes), dropToks false (s.map .char ++ ks) = s.map .char ++ dropToks false ks := by
    intro s
    induction s with
    | nil => rfl
    | cons c s ih => rw [List.map_cons, List.cons_append, dropToks, if_neg (by simp), ih]; rfl
  cases s with
  | nil => cases f <;> rfl
  | cons c s =>
    rw [List.map_cons, List.cons_append, dropToks, plain]
    by_cases hc : c = 10
    · subst hc
      cases f <;> simp [dropIf]
    · rw [if_neg (by simp [hc]), dropIf]
      · simp
      · intro t e
        simp only [List.cons.injEq] at e
        exact absurd e.1 hc

theorem escaped_noNul (s : Bytes) : 0 ∉ escaped s := by
  have key : ∀ c : UInt8, 0 ∉ escapedByte c := forall_byte (by decide +kernel)
  intro h
  rw [escaped, List.mem_flatMap] at h
  obtain ⟨c, _, hc⟩ := h
  exact key c hc

theorem dropIf_noNul {f : Bool} {s : Bytes} (h : 0 ∉ s) : 0 ∉ dropIf f s := by
  unfold dropIf
  split
  · split <;> simp_all
  · exact h

theorem textGot_noNul (raw b : Bool) (s : Bytes) : 0 ∉ textGot raw b s := by
  rw [textGot]
  split
  · exact escaped_noNul _
  · exact nl_noNul b (seen_noNul s)

mutual
theorem toks_got : (f raw b : Bool) → (t : Tree) → Tame t → (ks : List Tok) →
    dropToks f (toks raw (nlTree b t) ++ ks) = meant (got f raw b t) ++ dropToks (stillFirst f raw b t) ks
  | f, raw, b, .text s, _, ks => by
    rw [nlTree, toks, got, meant, stillFirst, seen_of (nl_noNul b (seen_noNul s))]
    rw [show (if raw = true then escaped (nl b (seen s)) else nl b (seen s)) = textGot raw b s from rfl, dropToks_chars,
      seen_of (dropIf_noNul (textGot_noNul raw b s))]
  | f, raw, b, .comment s, _, ks => by
    rw [nlTree, toks, got, meant, List.singleton_append, dropToks, seen_of (escaped_noNul _)]
    rfl
  | f, raw, b, .doctype s, _, ks => by
    rw [nlTree, toks, got, meant, List.cons_append, List.singleton_append, dropToks, dropToks,
      if_neg (by simp), seen_of (escaped_noNul _)]
    rfl
  | f, raw, b, .void name attrs, h, ks => by
    rw [nlTree, toks, got, meant, List.singleton_append, startTok, dropToks,
      show decide (lower name ∈ preNames) = false from decide_eq_false h]
    rfl
  | f, raw, b, .element name attrs children, h, ks => by
    have ih := toksAll_got (decide (lower name ∈ preNames)) (decide (lower name ∈ rawtextNames)) false children h
      (.close (lower name) :: ks)
    rw [nlTree, toks, got, meant, startTok, List.cons_append, List.cons_append, List.append_assoc, dropToks,
      List.singleton_append, ih, dropToks, List.cons_append, List.cons_append, List.append_assoc, List.singleton_append]
    rfl
theorem toksAll_got : (f raw b : Bool) → (ts : List Tree) → TameAll ts → (ks : List Tok) →
    dropToks f (toksAll raw (nlTrees b ts) ++ ks) =
      meantAll (gotAll f raw b ts) ++ dropToks (ts.foldl (fun p t => (stillFirst p.1 raw p.2 t, flagAfter p.2 t)) (f, b)).1 ks
  | f, raw, b, [], _, ks => by rw [nlTrees, toksAll, gotAll, meantAll]; rfl
  | f, raw, b, t :: ts, h, ks => by
    rw [nlTrees, toksAll, gotAll, meantAll, List.append_assoc, toks_got f raw b t h.1,
      toksAll_got _ raw _ ts h.2, List.append_assoc]
    rfl
end

/-- What a browser sees of trees. -/
theorem readPage_got (R : CharRefs) (ts : List Tree) (h : ProperAll ts) (ht : TameAll ts) :
    readPage R (writeAll ts) = items (meantAll (gotAll false false false ts)) := by
  have e := nl_writeAll false ts (properAll_named ts h) []
  rw [List.append_nil] at e
  have e2 := toksAll_got false false false ts ht []
  rw [List.append_nil, dropToks, List.append_nil] at e2
  rw [readPage, newlines_nl, e, nl, List.append_nil, read_write R _ (properAll_nl false ts h), ← e2, ← dropFirst_items,
    dropItems]
  exact nofun

/-! ### The conditions are kept -/

theorem isText_got (f raw b : Bool) (t : Tree) (h : t.IsText) : (got f raw b t).IsText := by
  cases t <;> trivial

theorem texts_got (f raw b : Bool) (ts : List Tree) (h : ∀ t ∈ ts, t.IsText) : ∀ t ∈ gotAll f raw b ts, t.IsText := by
  induction ts generalizing f b with
  | nil => simp [gotAll]
  | cons t ts ih =>
    simp only [List.forall_mem_cons] at h
    simp only [gotAll, List.forall_mem_cons]
    exact ⟨isText_got f raw b t h.1, ih _ _ h.2⟩

mutual
theorem proper_got : (f raw b : Bool) → (t : Tree) → Proper t → Proper (got f raw b t)
  | _, _, _, .text _, _ => by rw [got]; trivial
  | _, _, _, .comment _, _ => by rw [got]; trivial
  | _, _, _, .doctype _, _ => by rw [got]; trivial
  | _, _, _, .void _ _, h => by rw [got]; exact ⟨h.1, h.2.1, attrsOK_nl h.2.2.1, h.2.2.2⟩
  | _, _, _, .element _ _ children, h => by
    have ih := fun f raw => properAll_got f raw false children
    rw [got]
    refine ⟨h.1, h.2.1, attrsOK_nl h.2.2.1, ?_⟩
    rcases h.2.2.2 with h' | h'
    · exact .inl ⟨h'.1, texts_got _ _ _ _ h'.2⟩
    · exact .inr ⟨h'.1, ih _ _ h'.2⟩
theorem properAll_got : (f raw b : Bool) → (ts : List Tree) → ProperAll ts → ProperAll (gotAll f raw b ts)
  | _, _, _, [], _ => by rw [gotAll]; trivial
  | f, raw, b, t :: ts, h => by
    rw [gotAll]; exact ⟨proper_got f raw b t h.1, properAll_got _ _ _ ts h.2⟩
end

theorem nl_spaces {b : Bool} {s : Bytes} (h : s.all isSpace = true) : (nl b s).all isSpace = true := by
  induction s generalizing b with
  | nil => rfl
  | cons c r ih =>
    simp only [List.all_cons, Bool.and_eq_true] at h
    rw [nl]
    split
    · rw [List.all_cons, ih h.2]; rfl
    · split
      · exact ih h.2
      · rw [List.all_cons, ih h.2, h.1]; rfl

theorem escaped_spaces {s : Bytes} (h : s.all isSpace = true) : (escaped s).all isSpace = true := by
  have key : ∀ c : UInt8, isSpace c = true → (escapedByte c).all isSpace = true := forall_byte (by decide +kernel)
  rw [List.all_eq_true] at h ⊢
  intro d hd
  rw [escaped, List.mem_flatMap] at hd
  obtain ⟨c, hc, hd⟩ := hd
  exact List.all_eq_true.1 (key c (h c hc)) d hd

theorem dropIf_spaces {f : Bool} {s : Bytes} (h : s.all isSpace = true) : (dropIf f s).all isSpace = true := by
  unfold dropIf
  split
  · split
    · rw [List.all_cons, Bool.and_eq_true] at h; exact h.2
    · exact h
  · exact h

theorem got_spaces (f raw b : Bool) (s : Bytes) (h : (seen s).all isSpace = true) :
    (seen (dropIf f (textGot raw b s))).all isSpace = true := by
  rw [seen_of (dropIf_noNul (textGot_noNul raw b s))]
  apply dropIf_spaces
  rw [textGot]
  split
  · exact escaped_spaces (nl_spaces h)
  · exact nl_spaces h

mutual
theorem fits_got : (f raw b : Bool) → (path : List Bytes) → (t : Tree) → fits path t = true → fits path (got f raw b t) = true
  | f, raw, b, path, .text s, h => by
    rw [got, fits]
    rw [fits] at h
    split at h <;> first | rfl | exact got_spaces f raw b s h
  | _, _, _, _, .comment _, _ => by rw [got]; rfl
  | _, _, _, _, .doctype _, h => by rw [fits] at h; cases h
  | _, _, _, _, .void _ _, h => by rw [got]; rw [fits] at h ⊢; exact h
  | _, _, _, path, .element name _ children, h => by
    have ih := fun f raw => fitsAll_got f raw false (lower name :: path) children
    rw [got]
    rw [fits, Bool.and_eq_true] at h ⊢
    exact ⟨h.1, ih _ _ h.2⟩
theorem fitsAll_got : (f raw b : Bool) → (path : List Bytes) → (ts : List Tree) → fitsAll path ts = true →
    fitsAll path (gotAll f raw b ts) = true
  | _, _, _, _, [], _ => by rw [gotAll]; rfl
  | f, raw, b, path, t :: ts, h => by
    rw [fitsAll, Bool.and_eq_true] at h
    rw [gotAll, fitsAll, Bool.and_eq_true]
    exact ⟨fits_got f raw b path t h.1, fitsAll_got _ _ _ path ts h.2⟩
end

theorem fitsHead_got (f raw b : Bool) (t : Tree) (h : fitsHead t = true) : fitsHead (got f raw b t) = true := by
  cases t with
  | text s => rw [got]; exact got_spaces f raw b s h
  | doctype => cases h
  | comment => rw [got]; rfl
  | element => rw [got]; exact h
  | void => rw [got]; exact h

theorem fitsHeads_got (f raw b : Bool) (ts : List Tree) (h : ts.all fitsHead = true) :
    (gotAll f raw b ts).all fitsHead = true := by
  induction ts generalizing f b with
  | nil => rw [gotAll]; rfl
  | cons t ts ih =>
    rw [List.all_cons, Bool.and_eq_true] at h
    rw [gotAll, List.all_cons, Bool.and_eq_true]
    exact ⟨fitsHead_got f raw b t h.1, ih _ _ h.2⟩

theorem texts_tame (ts : List Tree) (h : ∀ t ∈ ts, t.IsText) : TameAll ts := by
  induction ts with
  | nil => trivial
  | cons t ts ih =>
    simp only [List.forall_mem_cons] at h
    refine ⟨?_, ih h.2⟩
    cases t <;> first | trivial | exact absurd h.1 id

mutual
theorem fits_tame : (path : List Bytes) → (t : Tree) → fits path t = true → Tame t
  | _, .text _, _ => trivial
  | _, .comment _, _ => trivial
  | _, .doctype _, _ => trivial
  | path, .void name _, h => by
    have h1 : ∀ n ∈ preNames, kind n = .block ∨ kind n = .text := by decide +kernel
    have h2 : b%"col" ∉ preNames := by decide
    intro hn
    rw [fits] at h
    split at h
    all_goals first
      | (rcases h1 _ hn with e | e <;> rw [mayStand, e] at h <;> cases h)
      | (rw [decide_eq_true_eq] at h; rw [h] at hn; exact h2 hn)
      | cases h
  | path, .element name _ children, h => by
    rw [fits, Bool.and_eq_true] at h
    exact fitsAll_tame _ children h.2
theorem fitsAll_tame : (path : List Bytes) → (ts : List Tree) → fitsAll path ts = true → TameAll ts
  | _, [], _ => trivial
  | path, t :: ts, h => by
    rw [fitsAll, Bool.and_eq_true] at h
    exact ⟨fits_tame path t h.1, fitsAll_tame path ts h.2⟩
end

theorem fitsHead_tame (ts : List Tree) (hp : ProperAll ts) (h : ts.all fitsHead = true) : TameAll ts := by
  induction ts with
  | nil => trivial
  | cons t ts ih =>
    rw [List.all_cons, Bool.and_eq_true] at h
    refine ⟨?_, ih hp.2 h.2⟩
    cases t with
    | element name attrs cs =>
      have h1 : ∀ n ∈ headTextNames, n ∈ textNames := by decide
      obtain ⟨⟨_, _, _, hp⟩, _⟩ := hp
      have hn : lower name ∈ headTextNames := by simpa [fitsHead] using h.1
      exact texts_tame cs (hp.resolve_right fun h => h.1 (h1 _ hn)).2
    | void name attrs =>
      have h1 : ∀ n ∈ headVoidNames, n ∉ preNames := by decide
      have hn : lower name ∈ headVoidNames := by simpa [fitsHead] using h.1
      exact h1 _ hn
    | _ => trivial

/-! ### Their nodes -/

/-- A text before other children. -/
def putFirst (s : Bytes) (ds : List Dom) : List Dom :=
  match ds with
  | .text t :: more => .text (s ++ t) :: more
  | more => if s = [] then more else .text s :: more

/-- Joined texts have no text after them. -/
def JoinedTexts : List Dom → Prop
  | .text s :: ds => s ≠ [] ∧ (∀ t ds', ds ≠ .text t :: ds') ∧ JoinedTexts ds
  | _ :: ds => JoinedTexts ds
  | [] => True

theorem joined_text (s : Bytes) (ds : List Dom) : joined (.text s :: ds) = putFirst s (joined ds) := by
  rw [joined]
  rfl

theorem joined_other {d : Dom} (h : ∀ s, d ≠ .text s) (ds : List Dom) : joined (d :: ds) = d :: joined ds := by
  cases d <;> first | exact absurd rfl (h _) | rfl

theorem joinedTexts_joined : (ds : List Dom) → JoinedTexts (joined ds)
  | [] => trivial
  | .text s :: ds => by
    have ih := joinedTexts_joined ds
    rw [joined_text]
    unfold putFirst
    split
    · next t more e =>
      rw [e] at ih
      exact ⟨fun h => ih.1 (List.append_eq_nil_iff.1 h).2, ih.2⟩
    · next h =>
      split
      · exact ih
      · next hs => exact ⟨hs, h, ih⟩
  | .element .. :: ds => joinedTexts_joined ds
  | .comment .. :: ds => joinedTexts_joined ds
  | .doctype .. :: ds => joinedTexts_joined ds

/-- The children, with line ends normalised; `f` and `b` as for `got`. -/
def linedFrom (f b : Bool) : List Dom → List Dom
  | .text s :: ds => putFirst (dropIf f (nl b s)) (lined ds)
  | ds => lined ds

theorem putFirst_append {s t : Bytes} {ds : List Dom} (h : ∀ u ds', ds ≠ .text u :: ds') :
    putFirst s (putFirst t ds) = putFirst (s ++ t) ds := by
  have e : ∀ s, putFirst s ds = if s = [] then ds else .text s :: ds := by
    intro s
    unfold putFirst
    split
    · exact absurd rfl (h _ _)
    · rfl
  rw [e t, e (s ++ t)]
  by_cases ht : t = []
  · subst ht
    rw [if_pos rfl, e, List.append_nil]
  · rw [if_neg ht, if_neg (fun h => ht (List.append_eq_nil_iff.1 h).2)]
    rfl

theorem dropIf_append (f : Bool) (s t : Bytes) : dropIf f (s ++ t) = dropIf f s ++ dropIf (f && s.isEmpty) t := by
  have e : ∀ t, dropIf false t = t := by
    intro t
    unfold dropIf
    split
    · rfl
    · rfl
  cases s with
  | nil => cases f <;> simp [dropIf]
  | cons c s =>
    rw [List.isEmpty_cons, Bool.and_false, e]
    by_cases hc : c = 10
    · subst hc
      cases f <;> rfl
    · rw [List.cons_append, dropIf, dropIf]
      · rfl
      · intro t e
        simp only [List.cons.injEq] at e
        exact absurd e.1 hc
      · intro t e
        simp only [List.cons.injEq] at e
        exact absurd e.1 hc

theorem lined_noText {ds : List Dom} (h : ∀ u ds', ds ≠ .text u :: ds') : ∀ u ds', lined ds ≠ .text u :: ds' := by
  cases ds with
  | nil => simp [lined]
  | cons d ds => cases d <;> first | exact absurd rfl (h _ _) | simp [lined]

theorem linedFrom_noText {f b : Bool} {ds : List Dom} (h : ∀ u ds', ds ≠ .text u :: ds') : linedFrom f b ds = lined ds := by
  rw [linedFrom]
  intro s ds' e
  exact h _ _ e

/-- Normalising and joining. -/
theorem linedFrom_putFirst (f b : Bool) (s : Bytes) {ds : List Dom} (h : JoinedTexts ds) :
    linedFrom f b (putFirst s ds) =
      putFirst (dropIf f (nl b s)) (linedFrom (f && (nl b s).isEmpty) (nlAfter b s) ds) := by
  by_cases hd : ∃ u ds', ds = .text u :: ds'
  · obtain ⟨u, ds', rfl⟩ := hd
    obtain ⟨_, h2, _⟩ := h
    rw [show putFirst s (.text u :: ds') = .text (s ++ u) :: ds' from rfl, linedFrom, nl_append, dropIf_append,
      linedFrom, putFirst_append (lined_noText h2)]
  · have hd : ∀ u ds', ds ≠ .text u :: ds' := fun u ds' e => hd ⟨u, ds', e⟩
    rw [linedFrom_noText hd]
    have e : putFirst s ds = if s = [] then ds else .text s :: ds := by
      unfold putFirst
      split
      · exact absurd rfl (hd _ _)
      · rfl
    rw [e]
    split
    · next hs =>
      subst hs
      rw [linedFrom_noText hd]
      have e2 : dropIf f (nl b []) = [] := by cases f <;> rfl
      rw [e2]
      unfold putFirst
      split
      · next h => exact absurd h (lined_noText hd _ _)
      · rfl
    · rw [linedFrom]

theorem linedFrom_false {ds : List Dom} (h : JoinedTexts ds) : linedFrom false false ds = lined ds := by
  by_cases hd : ∃ u ds', ds = .text u :: ds'
  · obtain ⟨u, ds', rfl⟩ := hd
    obtain ⟨h1, h2, _⟩ := h
    have e : dropIf false (nl false u) = nl false u := by
      unfold dropIf
      split
      · next h => rw [h]; rfl
      · rfl
    rw [linedFrom, show lined (.text u :: ds') = .text (newlines u) :: lined ds' from rfl, newlines_nl, e]
    unfold putFirst
    split
    · next h => exact absurd h (lined_noText h2 _ _)
    · rw [if_neg (nl_ne_nil h1)]
  · exact linedFrom_noText fun u ds' e => hd ⟨u, ds', e⟩

theorem firstLine_lined (n : Bytes) {ds : List Dom} (h : JoinedTexts ds) :
    firstLine n (lined ds) = linedFrom (decide (n ∈ preNames)) false ds := by
  by_cases hd : ∃ u ds', ds = .text u :: ds'
  · obtain ⟨u, ds', rfl⟩ := hd
    obtain ⟨h1, h2, _⟩ := h
    rw [linedFrom, show lined (.text u :: ds') = .text (newlines u) :: lined ds' from rfl, newlines_nl]
    have e : ∀ s, putFirst s (lined ds') = if s = [] then lined ds' else .text s :: lined ds' := by
      intro s
      unfold putFirst
      split
      · next e => exact absurd e (lined_noText h2 _ _)
      · rfl
    have hne := nl_ne_nil h1
    rw [e]
    generalize nl false u = v at hne
    cases v with
    | nil => exact absurd rfl hne
    | cons c v =>
      by_cases hc : c = 10
      · subst hc
        rw [firstLine, dropIf]
        by_cases hn : n ∈ preNames
        · simp [hn]
        · simp [hn]
      · rw [firstLine, dropIf, if_neg (by simp)]
        · intro t e
          simp only [List.cons.injEq] at e
          exact absurd e.1 hc
        · intro s more e
          simp only [List.cons.injEq, Dom.text.injEq] at e
          exact absurd e.1.1 hc
  · have hd : ∀ u ds', ds ≠ .text u :: ds' := fun u ds' e => hd ⟨u, ds', e⟩
    rw [linedFrom_noText hd, firstLine]
    intro s more e
    exact absurd e (lined_noText hd _ _)

theorem domAttrs_nl (attrs : List (Bytes × Option Bytes)) : domAttrs (nlAttrs attrs) = linedAttrs attrs := by
  rw [domAttrs, nlAttrs, linedAttrs, domAttrs, List.map_map, List.map_map]
  apply List.map_congr_left
  intro a _
  obtain ⟨n, v⟩ := a
  cases v with
  | none => rfl
  | some v =>
    simp only [Function.comp, Option.map_some, Option.getD_some, newlines_nl]
    rw [seen_of (nl_noNul false (seen_noNul v))]

mutual
theorem node_got : (f raw b : Bool) → (t : Tree) → (∀ s, t ≠ .text s) → node (got f raw b t) = received raw t
  | _, _, _, .text s, h => absurd rfl (h s)
  | _, _, _, .comment s, _ => by
    rw [got, node, received, seen_of (escaped_noNul _), newlines_nl, (nl_escaped false s).1]
  | _, _, _, .doctype s, _ => by
    rw [got, node, received, seen_of (escaped_noNul _), newlines_nl, nl_piece (by simp) (by decide), (nl_escaped false s).1]
  | _, _, _, .void name attrs, _ => by rw [got, node, received, domAttrs_nl]
  | f, raw, b, .element name attrs children, _ => by
    rw [got, node, received, domAttrs_nl, firstLine_lined _ (joinedTexts_joined _), ← nodes_got]
theorem nodes_got : (f raw b : Bool) → (ts : List Tree) →
    joined (nodes (gotAll f raw b ts)) = linedFrom f b (joined (receivedAll raw ts))
  | f, raw, b, [] => by rw [gotAll, nodes, receivedAll]; rfl
  | f, raw, b, t :: ts => by
    have ih := nodes_got (stillFirst f raw b t) raw (flagAfter b t) ts
    rw [gotAll, nodes, receivedAll]
    by_cases h : ∃ s, t = .text s
    · obtain ⟨s, rfl⟩ := h
      rw [got, node, received, joined_text, joined_text, ih, linedFrom_putFirst f b _ (joinedTexts_joined _),
        seen_of (dropIf_noNul (textGot_noNul raw b s))]
      cases raw
      · rfl
      · simp only [if_true]
        rw [(nl_escaped b s).1, (nl_escaped b s).2]
        rfl
    · have h : ∀ s, t ≠ .text s := fun s e => h ⟨s, e⟩
      have h2 : ∀ s, received raw t ≠ .text s := by
        cases t <;> first | exact absurd rfl (h _) | (rw [received]; simp)
      have e1 : stillFirst f raw b t = false := by
        cases t <;> first | exact absurd rfl (h _) | rfl
      have e2 : flagAfter b t = false := by
        cases t <;> first | exact absurd rfl (h _) | rfl
      rw [node_got f raw b t h, joined_other h2, joined_other h2, ih, e1, e2, linedFrom_false (joinedTexts_joined _),
        linedFrom_noText (ds := received raw t :: _) fun u ds' e => by
          rw [List.cons.injEq] at e
          exact absurd e.1 (h2 _)]
      unfold lined
      rw [List.map_cons]
      congr 1
      split
      · next e => exact absurd e (h2 _)
      · rfl
end

theorem children_got (ts : List Tree) : children (gotAll false false false ts) = contents ts := by
  rw [children, nodes_got, contents, linedFrom_false (joinedTexts_joined _)]

/-! ### The whole page -/

theorem tameAll_append {a b : List Tree} (ha : TameAll a) (hb : TameAll b) : TameAll (a ++ b) := by
  induction a with
  | nil => exact hb
  | cons t a ih => exact ⟨ha.1, ih ha.2⟩

/-- The DOM of a page with a head (or none) and a body. -/
theorem dom_received (R : CharRefs) {attrs headAttrs bodyAttrs : List (Bytes × Option Bytes)} {heads bodies : List Tree}
    (hh : ProperAll heads) (hb : ProperAll bodies) (fh : heads.all fitsHead = true)
    (fb : fitsAll [b%"body", b%"html"] bodies = true) (headless : Bool)
    (hl : headless = true → headAttrs = [] ∧ heads = [])
    (hp : ProperAll [.doctype b%"html", .element b%"html" attrs
      ((if headless then [] else [.element b%"head" headAttrs heads]) ++ [.element b%"body" bodyAttrs bodies])]) :
    domOf (readPage R (writeAll [.doctype b%"html", .element b%"html" attrs
      ((if headless then [] else [.element b%"head" headAttrs heads]) ++ [.element b%"body" bodyAttrs bodies])])) =
    some [.doctype b%"DOCTYPE html", .element b%"html" (linedAttrs attrs)
      [.element b%"head" (linedAttrs headAttrs) (contents heads),
       .element b%"body" (linedAttrs bodyAttrs) (contents bodies)]] := by
  rw [readPage_got R _ hp]
  · have key := dom_page (attrs := nlAttrs attrs) (headAttrs := nlAttrs headAttrs) (bodyAttrs := nlAttrs bodyAttrs)
      (properAll_got false false false heads hh) (properAll_got false false false bodies hb)
      (fitsHeads_got false false false heads fh) (fitsAll_got false false false _ bodies fb) headless (by
        intro h
        obtain ⟨rfl, rfl⟩ := hl h
        exact ⟨rfl, rfl⟩)
    rw [domAttrs_nl, domAttrs_nl, domAttrs_nl, children_got, children_got] at key
    rw [← key]
    cases headless <;> rfl
  · refine ⟨trivial, tameAll_append ?_ ⟨fitsAll_tame _ _ fb, trivial⟩, trivial⟩
    cases headless
    · exact ⟨fitsHead_tame heads hh fh, trivial⟩
    · trivial

end Aitch.Spec.Markup

import Verif.Spec.Lines
import Verif.Proofs.Markup
/-
Proofs for C85: normalising the line ends of a written page is normalising those of its strings.
-/
namespace Aitch.Spec.Markup

/-- `newlines`, byte by byte; `b`: the byte before is a carriage return. -/
def nl : Bool → Bytes → Bytes
  | _, [] => []
  | b, c :: r =>
    if c = 13 then 10 :: nl true r
    else if c = 10 ∧ b = true then nl false r
    else c :: nl false r

/-- Whether the last byte is a carriage return. -/
def nlAfter : Bool → Bytes → Bool
  | b, [] => b
  | _, c :: r => nlAfter (decide (c = 13)) r

theorem newlines_nl : ∀ s, newlines s = nl false s
  | [] => rfl
  | [c] => by by_cases h : c = 13 <;> simp [newlines, nl, h]
  | c :: d :: rest => by
    have ih := newlines_nl (d :: rest)
    have ih' := newlines_nl rest
    by_cases h : c = 13
    · subst h
      by_cases h' : d = 10
      · subst h'; rw [newlines, ih']; simp [nl]
      · rw [newlines, ih]
        · simp only [nl, if_true]
          simp [h']
        · exact fun _ h1 => absurd h1 h'
    · rw [newlines, ih]
      · simp [nl, h]
      · intro h1; exact absurd h1 h
termination_by s => s.length

theorem nl_append (b : Bool) (s t : Bytes) : nl b (s ++ t) = nl b s ++ nl (nlAfter b s) t := by
  induction s generalizing b with
  | nil => rfl
  | cons c r ih =>
    simp only [List.cons_append, nl, nlAfter]
    by_cases h : c = 13
    · simp [h, ih]
    · by_cases h' : c = 10 ∧ b = true
      · simp [h', ih]
      · simp [h, h', ih]

theorem nlAfter_append (b : Bool) (s t : Bytes) : nlAfter b (s ++ t) = nlAfter (nlAfter b s) t := by
  induction s generalizing b with
  | nil => rfl
  | cons c r ih => simp only [List.cons_append, nlAfter, ih]

theorem nlAfter_last (b : Bool) (s : Bytes) {c : UInt8} (h : c ≠ 13) : nlAfter b (s ++ [c]) = false := by
  rw [nlAfter_append]; simp [nlAfter, h]

/-- Bytes other than line ends stay. -/
theorem nl_plain (b : Bool) {s : Bytes} (h : ∀ c ∈ s, c ≠ 13 ∧ c ≠ 10) : nl b s = s := by
  induction s generalizing b with
  | nil => rfl
  | cons c r ih =>
    simp only [List.forall_mem_cons] at h
    simp [nl, h.1, ih false h.2]

theorem nl_noReturn {s : Bytes} (h : 13 ∉ s) : nl false s = s := by
  induction s with
  | nil => rfl
  | cons c r ih =>
    simp only [List.mem_cons, not_or] at h
    simp [nl, Ne.symm h.1, ih h.2]

theorem nl_noNul (b : Bool) {s : Bytes} (h : 0 ∉ s) : 0 ∉ nl b s := by
  induction s generalizing b with
  | nil => simp [nl]
  | cons c r ih =>
    simp only [List.mem_cons, not_or] at h
    rw [nl]
    split
    · simp [ih true h.2]
    · split
      · exact ih false h.2
      · simp [h.1, ih false h.2]

theorem seen_noNul (s : Bytes) : 0 ∉ seen s := by simp [seen]

theorem seen_of {s : Bytes} (h : 0 ∉ s) : seen s = s := by
  rw [seen, List.filter_eq_self]
  intro c hc
  simp only [ne_eq, decide_eq_true_eq]
  rintro rfl
  exact h hc

theorem escaped_seen (s : Bytes) : escaped (seen s) = escaped s := by
  induction s with
  | nil => rfl
  | cons c r ih =>
    rw [escaped_cons, ← ih]
    by_cases h : c = 0
    · subst h; rfl
    · rw [seen, List.filter_cons_of_pos (by simpa using h)]; rfl

/-- The bytes of an escaped byte, other than itself, are no line ends. -/
theorem escapedByte_lines : ∀ c : UInt8, c = 0 ∨ c = 10 ∨ c = 13 ∨
    ((∀ d ∈ escapedByte c, d ≠ 13 ∧ d ≠ 10) ∧ escapedByte c ≠ [] ∧ nlAfter true (escapedByte c) = false) :=
  forall_byte (by decide +kernel)

theorem nlAfter_ne {s : Bytes} (h : s ≠ []) (b b' : Bool) : nlAfter b s = nlAfter b' s := by
  cases s with
  | nil => exact absurd rfl h
  | cons c r => rfl

/-- Normalising what is escaped. -/
theorem nl_escaped (b : Bool) (s : Bytes) :
    nl b (escaped s) = escaped (nl b (seen s)) ∧ nlAfter b (escaped s) = nlAfter b (seen s) := by
  induction s generalizing b with
  | nil => exact ⟨rfl, rfl⟩
  | cons c r ih =>
    rw [escaped_cons, nl_append, nlAfter_append]
    rcases escapedByte_lines c with rfl | rfl | rfl | ⟨h1, h2, h3⟩
    · exact ih b
    · have e : seen (10 :: r) = 10 :: seen r := rfl
      have e2 : escapedByte 10 = [10] := rfl
      rw [e, e2]
      have a : nlAfter b [10] = false := rfl
      rw [a, (ih false).1, (ih false).2]
      refine ⟨?_, rfl⟩
      cases b
      · simp [nl, escaped_cons, e2]
      · simp [nl]
    · have e : seen (13 :: r) = 13 :: seen r := rfl
      have e2 : escapedByte 13 = [13] := rfl
      rw [e, e2]
      have a : nlAfter b [13] = true := rfl
      rw [a, (ih true).1, (ih true).2]
      exact ⟨by simp [nl, escaped_cons]; rfl, rfl⟩
    · have c0 : c ≠ 0 := by rintro rfl; exact h2 rfl
      have c10 : c ≠ 10 := by rintro rfl; exact (h1 10 (by decide)).2 rfl
      have c13 : c ≠ 13 := by rintro rfl; exact (h1 13 (by decide)).1 rfl
      have e : seen (c :: r) = c :: seen r := by rw [seen, List.filter_cons_of_pos (by simpa using c0)]; rfl
      rw [nl_plain b h1, nlAfter_ne h2 b true, h3, e, (ih false).1, (ih false).2]
      exact ⟨by simp [nl, c10, c13, escaped_cons], by simp [nlAfter, c13]⟩

/-! ### Trees -/

/-- The attributes with their values normalised. -/
def nlAttrs (attrs : List (Bytes × Option Bytes)) : List (Bytes × Option Bytes) :=
  attrs.map fun a => (a.1, a.2.map fun v => nl false (seen v))

mutual
/-- A tree with its strings normalised; `b`: what comes before ends in a carriage return. -/
def nlTree (b : Bool) : Tree → Tree
  | .element name attrs children => .element name (nlAttrs attrs) (nlTrees false children)
  | .void name attrs => .void name (nlAttrs attrs)
  | .text s => .text (nl b (seen s))
  | .comment s => .comment (nl false (seen s))
  | .doctype s => .doctype (nl false (seen s))
/-- The same for all. -/
def nlTrees (b : Bool) : List Tree → List Tree
  | [] => []
  | t :: ts => nlTree b t :: nlTrees (flagAfter b t) ts
/-- Whether what is written ends in a carriage return. -/
def flagAfter (b : Bool) : Tree → Bool
  | .text s => nlAfter b (seen s)
  | _ => false
end

theorem name_plain {n : Bytes} (h : ValidName n) : ∀ c ∈ n, c ≠ 13 ∧ c ≠ 10 := by
  obtain ⟨c, cs, rfl, h1, h2⟩ := h
  have key : ∀ c ∈ nameChars, c ≠ 13 ∧ c ≠ 10 := by decide
  intro d hd
  rcases List.mem_cons.1 hd with rfl | hd
  · exact key _ (letter_nameChar h1)
  · exact key _ (h2 _ hd)

theorem plain_append {s t : Bytes} (hs : ∀ c ∈ s, c ≠ 13 ∧ c ≠ 10) (ht : ∀ c ∈ t, c ≠ 13 ∧ c ≠ 10) :
    ∀ c ∈ s ++ t, c ≠ 13 ∧ c ≠ 10 := fun c hc => (List.mem_append.1 hc).elim (hs c) (ht c)

theorem nlAfter_plain {s : Bytes} (hne : s ≠ []) (h : ∀ c ∈ s, c ≠ 13 ∧ c ≠ 10) (b : Bool) : nlAfter b s = false := by
  induction s generalizing b with
  | nil => exact absurd rfl hne
  | cons c r ih =>
    simp only [List.forall_mem_cons] at h
    cases r with
    | nil => simp [nlAfter, h.1]
    | cons d r' => rw [nlAfter]; exact ih (by simp) h.2 _

/-- A piece without line ends, and then the rest. -/
theorem nl_piece {s : Bytes} (hne : s ≠ []) (h : ∀ c ∈ s, c ≠ 13 ∧ c ≠ 10) (b : Bool) (rest : Bytes) :
    nl b (s ++ rest) = s ++ nl false rest := by
  rw [nl_append, nl_plain b h, nlAfter_plain hne h]

theorem nl_attrs (attrs : List (Bytes × Option Bytes)) (h : ∀ a ∈ attrs, ValidName a.1) (rest : Bytes) :
    nl false (attrs.flatMap writeAttr ++ rest) = (nlAttrs attrs).flatMap writeAttr ++ nl false rest := by
  induction attrs with
  | nil => rfl
  | cons a as ih =>
    simp only [List.forall_mem_cons] at h
    have ih := ih h.2
    obtain ⟨n, v⟩ := a
    have hn : ValidName n := h.1
    have hp := name_plain hn
    cases v with
    | none =>
      have e : ((n, none) :: as).flatMap writeAttr ++ rest = (b%" " ++ n) ++ (as.flatMap writeAttr ++ rest) := by
        simp [writeAttr]
      rw [e, nl_piece (by simp) (plain_append (by decide) hp), ih]
      simp [nlAttrs, writeAttr]
    | some v =>
      have e : ((n, some v) :: as).flatMap writeAttr ++ rest =
          (b%" " ++ n ++ b%"=\"") ++ (escaped v ++ (b%"\"" ++ (as.flatMap writeAttr ++ rest))) := by
        simp [writeAttr]
      rw [e, nl_piece (by simp) (plain_append (plain_append (by decide) hp) (by decide)), nl_append, (nl_escaped false v).1, nl_piece (by simp) (by decide), ih]
      simp [nlAttrs, writeAttr]

theorem nl_tag (b : Bool) (name : Bytes) (attrs : List (Bytes × Option Bytes)) (hn : ValidName name)
    (h : ∀ a ∈ attrs, ValidName a.1) (rest : Bytes) :
    nl b (writeTag name attrs ++ rest) = writeTag name (nlAttrs attrs) ++ nl false rest := by
  have e : writeTag name attrs ++ rest = (b%"<" ++ name) ++ (attrs.flatMap writeAttr ++ (b%">" ++ rest)) := by
    simp [writeTag]
  rw [e, nl_piece (by simp) (plain_append (by decide) (name_plain hn)), nl_attrs attrs h, nl_piece (by simp) (by decide)]
  simp [writeTag]

mutual
theorem nl_write : (b : Bool) → (t : Tree) → Named t → (rest : Bytes) →
    nl b (write t ++ rest) = write (nlTree b t) ++ nl (flagAfter b t) rest
  | b, .text s, _, rest => by
    rw [write, nl_append, (nl_escaped b s).1, (nl_escaped b s).2]; simp [nlTree, write, flagAfter]
  | b, .comment s, _, rest => by
    have e : write (.comment s) ++ rest = b%"<!--" ++ (escaped s ++ (b%"-->" ++ rest)) := by simp [write]
    rw [e, nl_piece (by simp) (by decide), nl_append, (nl_escaped false s).1, nl_piece (by simp) (by decide)]
    simp [nlTree, write, flagAfter]
  | b, .doctype s, _, rest => by
    have e : write (.doctype s) ++ rest = b%"<!DOCTYPE " ++ (escaped s ++ (b%">" ++ ([10] ++ rest))) := by simp [write]
    rw [e, nl_piece (by simp) (by decide), nl_append, (nl_escaped false s).1, nl_piece (by simp) (by decide)]
    simp [nlTree, write, flagAfter, nl]
  | b, .void name attrs, h, rest => by
    rw [write, nl_tag b name attrs h.1 h.2.1]; simp [nlTree, write, flagAfter]
  | b, .element name attrs children, h, rest => by
    have ih := nl_writeAll false children
    obtain ⟨h1, h2, _, hc⟩ := h
    have e : write (.element name attrs children) ++ rest =
        writeTag name attrs ++ (writeAll children ++ ((b%"</" ++ name ++ b%">") ++ rest)) := by
      rw [write]; simp only [List.append_assoc]
    rw [e, nl_tag b name attrs h1 h2, ih hc, nl_piece (by simp) (plain_append (plain_append (by decide) (name_plain h1)) (by decide))]
    simp [nlTree, write, flagAfter]
theorem nl_writeAll : (b : Bool) → (ts : List Tree) → NamedAll ts → (rest : Bytes) →
    nl b (writeAll ts ++ rest) = writeAll (nlTrees b ts) ++ nl (ts.foldl flagAfter b) rest
  | b, [], _, rest => by simp [writeAll, nlTrees]
  | b, t :: ts, h, rest => by
    have h1 := nl_write b t h.1 (writeAll ts ++ rest)
    have h2 := nl_writeAll (flagAfter b t) ts h.2 rest
    rw [writeAll, List.append_assoc, h1, h2, nlTrees, writeAll, List.append_assoc]; rfl
end

theorem attrsOK_nl {attrs : List (Bytes × Option Bytes)} (h : AttrsOK attrs) : AttrsOK (nlAttrs attrs) := by
  refine ⟨?_, ?_⟩
  · intro a ha
    obtain ⟨a', h', rfl⟩ := List.mem_map.1 ha
    exact h.1 a' h'
  · have : (nlAttrs attrs).map (fun a => lower a.1) = attrs.map (fun a => lower a.1) := by simp [nlAttrs]
    rw [this]; exact h.2

theorem isText_nl (b : Bool) (t : Tree) (h : t.IsText) : (nlTree b t).IsText := by
  cases t <;> first | trivial | exact absurd h id

theorem texts_nl (b : Bool) (ts : List Tree) (h : ∀ t ∈ ts, t.IsText) : ∀ t ∈ nlTrees b ts, t.IsText := by
  induction ts generalizing b with
  | nil => simp [nlTrees]
  | cons t ts ih =>
    simp only [List.forall_mem_cons] at h
    simp only [nlTrees, List.forall_mem_cons]
    exact ⟨isText_nl b t h.1, ih _ h.2⟩

mutual
theorem proper_nl : (b : Bool) → (t : Tree) → Proper t → Proper (nlTree b t)
  | _, .text _, _ => by rw [nlTree]; trivial
  | _, .comment _, _ => by rw [nlTree]; trivial
  | _, .doctype _, _ => by rw [nlTree]; trivial
  | _, .void _ _, h => by rw [nlTree]; exact ⟨h.1, h.2.1, attrsOK_nl h.2.2.1, h.2.2.2⟩
  | _, .element _ _ children, h => by
    have ih := properAll_nl false children
    rw [nlTree]
    refine ⟨h.1, h.2.1, attrsOK_nl h.2.2.1, ?_⟩
    rcases h.2.2.2 with h' | h'
    · exact .inl ⟨h'.1, texts_nl _ _ h'.2⟩
    · exact .inr ⟨h'.1, ih h'.2⟩
theorem properAll_nl : (b : Bool) → (ts : List Tree) → ProperAll ts → ProperAll (nlTrees b ts)
  | _, [], _ => by rw [nlTrees]; trivial
  | b, t :: ts, h => by
    rw [nlTrees]; exact ⟨proper_nl b t h.1, properAll_nl _ ts h.2⟩
end

/-! ### Tokens -/

/-- Tokens with their strings normalised. -/
def nlToks : Bool → List Tok → List Tok
  | _, [] => []
  | b, .char c :: ts => (nl b [c]).map .char ++ nlToks (decide (c = 13)) ts
  | _, .start n as sc :: ts => .start n (as.map fun a => (a.1, newlines a.2)) sc :: nlToks false ts
  | _, .close n :: ts => .close n :: nlToks false ts
  | _, .comment d :: ts => .comment (newlines d) :: nlToks false ts
  | _, .doctype d :: ts => .doctype (newlines d) :: nlToks false ts

theorem nlToks_chars (b : Bool) (s : Bytes) (ts : List Tok) :
    nlToks b (s.map .char ++ ts) = (nl b s).map .char ++ nlToks (nlAfter b s) ts := by
  induction s generalizing b with
  | nil => rfl
  | cons c r ih =>
    have e : nl b (c :: r) = nl b [c] ++ nl (decide (c = 13)) r := by
      have := nl_append b [c] r
      exact this
    rw [e, List.map_append, List.append_assoc, nlAfter, ← ih]; rfl

theorem startTok_nl (name : Bytes) (attrs : List (Bytes × Option Bytes)) (b : Bool) (ts : List Tok) :
    nlToks b (startTok name attrs :: ts) = startTok name (nlAttrs attrs) :: nlToks false ts := by
  simp only [startTok, nlToks, nlAttrs, List.map_map]
  congr 2
  apply List.map_congr_left
  intro a _
  obtain ⟨n, v⟩ := a
  cases v with
  | none => rfl
  | some v =>
    simp only [Function.comp, Option.map_some, Option.getD_some, newlines_nl]
    rw [seen_of (nl_noNul false (seen_noNul v))]

mutual
theorem toks_nl : (raw b : Bool) → (t : Tree) → (ts : List Tok) →
    nlToks b (toks raw t ++ ts) = toks raw (nlTree b t) ++ nlToks (flagAfter b t) ts
  | raw, b, .text s, ts => by
    rw [toks, nlTree, toks, flagAfter, nlToks_chars]
    cases raw
    · simp [seen_of (nl_noNul b (seen_noNul s))]
    · simp [(nl_escaped b s).1, (nl_escaped b s).2]
  | raw, b, .comment s, ts => by
    simp only [toks, nlTree, flagAfter, List.cons_append, List.nil_append, nlToks, newlines_nl, (nl_escaped false s).1]
  | raw, b, .doctype s, ts => by
    have e : nl false (b%"DOCTYPE " ++ escaped s) = b%"DOCTYPE " ++ escaped (nl false (seen s)) := by
      rw [nl_piece (by simp) (by decide), (nl_escaped false s).1]
    rw [toks, nlTree, toks, List.cons_append, nlToks, newlines_nl, e]
    rfl
  | raw, b, .void name attrs, ts => by
    simp only [toks, nlTree, flagAfter, List.cons_append, List.nil_append, startTok_nl]
  | raw, b, .element name attrs children, ts => by
    have ih := toksAll_nl (decide (lower name ∈ rawtextNames)) false children (.close (lower name) :: ts)
    simp only [toks, nlTree, flagAfter, List.cons_append, List.append_assoc, List.nil_append, startTok_nl, ih, nlToks]
theorem toksAll_nl : (raw b : Bool) → (ts : List Tree) → (us : List Tok) →
    nlToks b (toksAll raw ts ++ us) = toksAll raw (nlTrees b ts) ++ nlToks (ts.foldl flagAfter b) us
  | raw, b, [], us => by simp [toksAll, nlTrees]
  | raw, b, t :: ts, us => by
    rw [toksAll, List.append_assoc, toks_nl raw b t, toksAll_nl raw _ ts us, nlTrees, toksAll, List.append_assoc]; rfl
end

/-! ### Items -/

/-- The items with strings normalised, where `b`: the text before them ends in a carriage return. -/
def nlItems : Bool → List Item → List Item
  | b, .text s :: is => addText (nl b s) (is.map Item.lines)
  | _, is => is.map Item.lines

theorem items_chars (s : Bytes) (ts : List Tok) : items (s.map .char ++ ts) = addText s (items ts) := by
  induction s with
  | nil => simp [addText]
  | cons c r ih =>
    simp only [List.map_cons, List.cons_append, items, ih]
    cases r with
    | nil => simp [addText]
    | cons d r' =>
      cases items ts with
      | nil => rfl
      | cons i is => cases i <;> rfl

/-- No two texts in a row, and none empty. -/
def LinesApart : List Item → Prop
  | [] => True
  | .text s :: is => s ≠ [] ∧ LinesApart is ∧ ∀ t is', is ≠ .text t :: is'
  | _ :: is => LinesApart is

theorem linesApart_items : (ts : List Tok) → LinesApart (items ts)
  | [] => trivial
  | .char c :: ts => by
    have ih := linesApart_items ts
    rw [items]
    cases h : items ts with
    | nil => exact ⟨by simp, trivial, by simp⟩
    | cons i is =>
      rw [h] at ih
      cases i with
      | text t => exact ⟨by simp, ih.2⟩
      | _ => exact ⟨by simp, ih, by simp⟩
  | .start _ _ _ :: ts => by have := linesApart_items ts; simpa [items, LinesApart] using this
  | .close _ :: ts => by have := linesApart_items ts; simpa [items, LinesApart] using this
  | .comment _ :: ts => by have := linesApart_items ts; simpa [items, LinesApart] using this
  | .doctype _ :: ts => by have := linesApart_items ts; simpa [items, LinesApart] using this

theorem nl_ne_nil {s : Bytes} (h : s ≠ []) : nl false s ≠ [] := by
  cases s with
  | nil => exact absurd rfl h
  | cons c r => rw [nl]; split <;> simp

theorem nlItems_false {is : List Item} (h : LinesApart is) : nlItems false is = is.map Item.lines := by
  cases is with
  | nil => rfl
  | cons i is =>
    cases i with
    | text s =>
      have hne := nl_ne_nil h.1
      have h2 := h.2.2
      simp only [nlItems, List.map_cons, Item.lines, newlines_nl]
      cases e : nl false s with
      | nil => exact absurd e hne
      | cons c r =>
        cases is with
        | nil => rfl
        | cons j js =>
          cases j with
          | text t => exact absurd rfl (h2 t js)
          | _ => rfl
    | _ => rfl

theorem addText_append (s t : Bytes) (is : List Item) : addText (s ++ t) is = addText s (addText t is) := by
  cases s with
  | nil => simp [addText]
  | cons c r =>
    cases t with
    | nil => simp [addText]
    | cons d r' =>
      cases is with
      | nil => simp [addText]
      | cons i is => cases i <;> simp [addText]

/-- Joining the normalised characters is normalising the joined ones. -/
theorem items_nl : (b : Bool) → (ts : List Tok) → items (nlToks b ts) = nlItems b (items ts)
  | _, [] => rfl
  | b, .char c :: ts => by
    have ih := items_nl (decide (c = 13)) ts
    have ha := linesApart_items ts
    rw [nlToks, items_chars, ih, items]
    cases h : items ts with
    | nil =>
      simp only [nlItems, List.map_nil, addText]
    | cons i is =>
      cases i with
      | text t =>
        have e : nl b ([c] ++ t) = nl b [c] ++ nl (decide (c = 13)) t := nl_append b [c] t
        show addText (nl b [c]) (addText (nl (decide (c = 13)) t) (is.map Item.lines)) =
          addText (nl b ([c] ++ t)) (is.map Item.lines)
        rw [e, addText_append]
      | _ => rfl
  | _, .start _ _ _ :: ts => by
    have := items_nl false ts
    rw [nlItems_false (linesApart_items ts)] at this
    simp [nlToks, items, nlItems, Item.lines, this]
  | _, .close _ :: ts => by
    have := items_nl false ts
    rw [nlItems_false (linesApart_items ts)] at this
    simp [nlToks, items, nlItems, Item.lines, this]
  | _, .comment _ :: ts => by
    have := items_nl false ts
    rw [nlItems_false (linesApart_items ts)] at this
    simp [nlToks, items, nlItems, Item.lines, this]
  | _, .doctype _ :: ts => by
    have := items_nl false ts
    rw [nlItems_false (linesApart_items ts)] at this
    simp [nlToks, items, nlItems, Item.lines, this]

/-- Reading a written page whose line ends are normalised. -/
theorem read_newlines (R : CharRefs) (ts : List Tree) (h : ProperAll ts) :
    readHtml R (newlines (writeAll ts)) = (items (toksAll false ts)).map Item.lines := by
  have e := nl_writeAll false ts (properAll_named ts h) []
  rw [List.append_nil] at e
  rw [newlines_nl, e, nl, List.append_nil, read_write R _ (properAll_nl false ts h)]
  have e2 := toksAll_nl false false ts []
  rw [List.append_nil] at e2
  rw [nlToks, List.append_nil] at e2
  rw [← e2, items_nl, nlItems_false (linesApart_items _)]

theorem lines_self {i : Item} (h : ∀ s ∈ i.strings, 13 ∉ s) : i.lines = i := by
  cases i with
  | text s => simp only [Item.lines, newlines_nl]; rw [nl_noReturn (h s (by simp [Item.strings]))]
  | start n as sc =>
    simp only [Item.lines]
    congr 1
    conv => rhs; rw [← List.map_id as]
    apply List.map_congr_left
    intro a ha
    rw [newlines_nl, nl_noReturn (h a.2 (by simp only [Item.strings]; exact List.mem_map_of_mem ha))]; rfl
  | close n => rfl
  | comment d => simp only [Item.lines, newlines_nl]; rw [nl_noReturn (h d (by simp [Item.strings]))]
  | doctype d => simp only [Item.lines, newlines_nl]; rw [nl_noReturn (h d (by simp [Item.strings]))]

theorem dropFirst_self {is : List Item}
    (h : ∀ before n as sc s after, is = before ++ .start n as sc :: .text s :: after → n ∈ preNames → s.head? ≠ some 10) :
    dropFirst is = is := by
  fun_induction dropFirst is with
  | case1 n as sc s rest hn ih => exact absurd rfl (h [] n as sc (10 :: s) rest rfl hn)
  | case2 n as sc s rest hn ih =>
    rw [ih]
    intro before n' as' sc' s' after e
    exact h (.start n as sc :: .text (10 :: s) :: before) n' as' sc' s' after (by rw [e]; rfl)
  | case3 i rest _ ih =>
    rw [ih]
    intro before n' as' sc' s' after e
    exact h (i :: before) n' as' sc' s' after (by rw [e]; rfl)
  | case4 => rfl

theorem linesKept_read {is : List Item} (h : LinesKept is) : dropFirst (is.map Item.lines) = is := by
  have : is.map Item.lines = is := by
    conv => rhs; rw [← List.map_id is]
    exact List.map_congr_left fun i hi => lines_self (h.noReturn i hi)
  rw [this, dropFirst_self h.noFirst]

/-- Tags are neither lost nor added by `dropFirst`. -/
theorem mem_dropFirst {is : List Item} {i : Item} (hi : ∀ s, i ≠ .text s) : i ∈ dropFirst is ↔ i ∈ is := by
  have key : ∀ s js, i ∈ addText s js ↔ i ∈ js := by
    intro s js
    cases s with
    | nil => simp [addText]
    | cons c r =>
      cases js with
      | nil => simp [addText, hi]
      | cons j js => cases j <;> simp [addText, hi]
  fun_induction dropFirst is with
  | case1 n as sc s rest hn ih => simp [key, ih, hi]
  | case2 n as sc s rest hn ih => simp [ih]
  | case3 i rest _ ih => simp [ih]
  | case4 => rfl

end Aitch.Spec.Markup

import Verif.Spec.Markup
/-
Reading what was written.
-/
namespace Aitch.Spec.Markup

open Aitch

/-! ### Bytes -/

theorem forall_byte {p : UInt8 → Prop} (h : ∀ i : Fin 256, p ⟨⟨i⟩⟩) (c : UInt8) : p c := h c.toFin

theorem letter_facts : ∀ c ∈ letters, isAlpha c = true ∧ isSpace c = false ∧ c ≠ c%'/' ∧ c ≠ c%'>' ∧ c ≠ c%'=' ∧
    c ≠ c%'!' ∧ c ≠ c%'&' ∧ noNul (lowerByte c) = [lowerByte c] := by decide

theorem nameChar_facts : ∀ c ∈ nameChars, isSpace c = false ∧ c ≠ c%'/' ∧ c ≠ c%'>' ∧ c ≠ c%'=' ∧ c ≠ c%'&' ∧
    noNul (lowerByte c) = [lowerByte c] := by decide

theorem letter_nameChar {c : UInt8} (h : c ∈ letters) : c ∈ nameChars := List.mem_append_left _ h

/-! ### Running -/

variable (R : CharRefs)

theorem run_step {st : State} {c : UInt8} (rest : Bytes) (h : c ≠ c%'&' ∨ refState st = none) :
    run R st 0 (c :: rest) = (step st c).2 ++ run R (step st c).1 0 rest := by
  rw [run]
  have : reference R st c rest = none := by
    unfold reference
    rcases h with h | h
    · simp [h]
    · simp [h]
  rw [this]

theorem run_skip (st : State) (u rest : Bytes) : run R st u.length (u ++ rest) = run R st 0 rest := by
  induction u with
  | nil => rfl
  | cons c u ih => simpa [run] using ih

theorem run_ref {st : State} {b : Bool} {put : Bytes → State × List Tok} (hs : refState st = some (b, put)) (u rest v : Bytes)
    (hf : R.find b (u ++ rest) = some (u.length, v)) :
    run R st 0 (c%'&' :: (u ++ rest)) = (put v).2 ++ run R (put v).1 0 rest := by
  rw [run]
  have : reference R st c%'&' (u ++ rest) = some (u.length, put v) := by
    simp [reference, hs, hf]
  rw [this]
  simp only [run_skip]

/-- An escaped byte, read in a state that decodes references. -/
theorem run_escapedByte {st : State} {b : Bool} {put : Bytes → State × List Tok} (hs : refState st = some (b, put))
    (c : UInt8) (rest : Bytes)
    (hplain : c ≠ 0 → c ≠ c%'"' → c ≠ c%'\'' → c ≠ c%'<' → c ≠ c%'>' → step st c = put [c])
    (hnil : put [] = (st, [])) :
    run R st 0 (escapedByte c ++ rest) = (put (seen [c])).2 ++ run R (put (seen [c])).1 0 rest := by
  by_cases h1 : c = c%'"'
  · subst h1; exact run_ref R hs b%"quot;" rest b%"\"" (R.quot b rest)
  by_cases h2 : c = c%'\''
  · subst h2; exact run_ref R hs b%"apos;" rest b%"'" (R.apos b rest)
  by_cases h3 : c = c%'&'
  · subst h3; exact run_ref R hs b%"amp;" rest b%"&" (R.amp b rest)
  by_cases h4 : c = c%'<'
  · subst h4; exact run_ref R hs b%"lt;" rest b%"<" (R.lt b rest)
  by_cases h5 : c = c%'>'
  · subst h5; exact run_ref R hs b%"gt;" rest b%">" (R.gt b rest)
  by_cases h6 : c = 0
  · subst h6
    have : seen [0] = [] := rfl
    rw [this, hnil]
    rfl
  · have e1 : escapedByte c = [c] := by simp [escapedByte, h1, h2, h3, h4, h5, h6]
    have e2 : seen [c] = [c] := by simp [seen, h6]
    rw [e1, e2, List.singleton_append, run_step R rest (.inl h3), hplain h6 h1 h2 h4 h5]

theorem seen_cons (c : UInt8) (s : Bytes) : seen (c :: s) = seen [c] ++ seen s := by
  unfold seen
  rw [← List.filter_append]; rfl

theorem escaped_cons (c : UInt8) (s : Bytes) : escaped (c :: s) = escapedByte c ++ escaped s := rfl

theorem noNul_of {c : UInt8} (h : c ≠ 0) : noNul c = [c] := by simp [noNul, h]

/-! ### Text -/

theorem run_data (s rest : Bytes) :
    run R .data 0 (escaped s ++ rest) = (seen s).map .char ++ run R .data 0 rest := by
  induction s with
  | nil => rfl
  | cons c s ih =>
    rw [escaped_cons, List.append_assoc, run_escapedByte R (st := .data) rfl c _ ?_ rfl, ih, seen_cons c s]
    · simp
    · intro _ _ _ h _
      simp [step, stepData, h]

theorem run_rcdata (e s rest : Bytes) :
    run R (.text true e) 0 (escaped s ++ rest) = (seen s).map .char ++ run R (.text true e) 0 rest := by
  induction s with
  | nil => rfl
  | cons c s ih =>
    rw [escaped_cons, List.append_assoc, run_escapedByte R (st := .text true e) rfl c _ ?_ rfl, ih, seen_cons c s]
    · simp
    · intro h0 _ _ h _
      simp [step, stepText, h, noNul_of h0]

/-- Bytes of an escaped string. -/
theorem escaped_bytes (s : Bytes) : ∀ c ∈ escaped s, c ≠ c%'<' ∧ c ≠ c%'>' ∧ c ≠ 0 := by
  intro c hc
  obtain ⟨d, _, hd⟩ := List.mem_flatMap.1 hc
  unfold escapedByte at hd
  split at hd
  · clear hc; revert c; decide
  split at hd
  · clear hc; revert c; decide
  split at hd
  · clear hc; revert c; decide
  split at hd
  · clear hc; revert c; decide
  split at hd
  · clear hc; revert c; decide
  split at hd
  · simp at hd
  · simp at hd; subst hd; refine ⟨?_, ?_, ?_⟩ <;> assumption

theorem run_rawtext (e u rest : Bytes) (hu : ∀ c ∈ u, c ≠ c%'<' ∧ c ≠ c%'>' ∧ c ≠ 0) :
    run R (.text false e) 0 (u ++ rest) = u.map .char ++ run R (.text false e) 0 rest := by
  induction u with
  | nil => rfl
  | cons c u ih =>
    obtain ⟨h1, _, h2⟩ := hu c (.head _)
    rw [List.cons_append, run_step R _ (.inr rfl)]
    simp [step, stepText, h1, noNul_of h2, ih fun d hd => hu d (.tail _ hd)]

/-! ### Attribute values -/

theorem run_quoted (t : Tag) (n v s rest : Bytes) :
    run R (.doubleQuoted t n v) 0 (escaped s ++ c%'"' :: rest) = run R (.afterAttrValue (t.add n (v ++ seen s))) 0 rest := by
  induction s generalizing v with
  | nil =>
    rw [show escaped [] = [] from rfl, List.nil_append, run_step R _ (.inl (by decide))]
    simp [step, seen]
  | cons c s ih =>
    rw [escaped_cons, List.append_assoc, run_escapedByte R (st := .doubleQuoted t n v) rfl c _ ?_ (by simp), ih,
      seen_cons c s]
    · simp
    · intro h0 h1 _ _ _
      simp [step, h1, noNul_of h0]

/-! ### Comments -/

/-- A comment whose data so far is known up to the dashes just read. -/
inductive InComment : State → Bytes → Prop
  | start : InComment .commentStart []
  | startDash : InComment .commentStartDash b%"-"
  | comment (d) : InComment (.comment d) d
  | endDash (d) : InComment (.commentEndDash d) (d ++ b%"-")
  | «end» (d) : InComment (.commentEnd d) (d ++ b%"--")
  | bang (d) : InComment (.commentEndBang d) (d ++ b%"--!")

theorem stepComment_in (d : Bytes) (c : UInt8) (h1 : c ≠ c%'<') (h2 : c ≠ 0) :
    (stepComment d c).2 = [] ∧ InComment (stepComment d c).1 (d ++ [c]) := by
  unfold stepComment
  rw [if_neg h1]
  split
  · rename_i h; subst h; exact ⟨rfl, .endDash d⟩
  · rw [noNul_of h2]; exact ⟨rfl, .comment _⟩

theorem InComment.step {st : State} {d : Bytes} (h : InComment st d) (c : UInt8) (h1 : c ≠ c%'<') (h2 : c ≠ c%'>')
    (h3 : c ≠ 0) : (Markup.step st c).2 = [] ∧ InComment (Markup.step st c).1 (d ++ [c]) := by
  cases h with
  | start =>
    simp only [Markup.step, if_neg h2]
    split
    · rename_i h; subst h; exact ⟨rfl, .startDash⟩
    · exact stepComment_in _ c h1 h3
  | startDash =>
    simp only [Markup.step, if_neg h2]
    split
    · rename_i h; subst h; exact ⟨rfl, .end []⟩
    · exact stepComment_in _ c h1 h3
  | comment d => exact stepComment_in d c h1 h3
  | endDash d =>
    simp only [Markup.step, stepCommentEndDash]
    split
    · rename_i h; subst h; refine ⟨rfl, ?_⟩; have := InComment.end d; simpa using this
    · exact stepComment_in _ c h1 h3
  | «end» d =>
    simp only [Markup.step, stepCommentEnd, if_neg h2]
    split
    · rename_i h; subst h; refine ⟨rfl, ?_⟩; have := InComment.bang d; simpa using this
    split
    · rename_i h; subst h; refine ⟨rfl, ?_⟩; have := InComment.end (d ++ b%"-"); simpa using this
    · exact stepComment_in _ c h1 h3
  | bang d =>
    simp only [Markup.step, stepCommentEndBang, if_neg h2]
    split
    · rename_i h; subst h; refine ⟨rfl, ?_⟩; have := InComment.endDash (d ++ b%"--!"); simpa using this
    · exact stepComment_in _ c h1 h3

theorem InComment.noRef {st : State} {d : Bytes} (h : InComment st d) : refState st = none := by cases h <;> rfl

theorem InComment.finish {st : State} {d : Bytes} (h : InComment st d) (rest : Bytes) :
    run R st 0 (b%"-->" ++ rest) = .comment d :: run R .data 0 rest := by
  cases h <;>
    (rw [show b%"-->" ++ rest = c%'-' :: c%'-' :: c%'>' :: rest from rfl,
      run_step R _ (.inl (by decide)), run_step R _ (.inl (by decide)), run_step R _ (.inl (by decide))]
     simp [Markup.step, stepComment, stepCommentEnd, stepCommentEndDash, stepCommentEndBang])

theorem InComment.run {st : State} {d : Bytes} (h : InComment st d) (u rest : Bytes)
    (hu : ∀ c ∈ u, c ≠ c%'<' ∧ c ≠ c%'>' ∧ c ≠ 0) :
    Markup.run R st 0 (u ++ (b%"-->" ++ rest)) = .comment (d ++ u) :: Markup.run R .data 0 rest := by
  induction u generalizing st d with
  | nil => rw [List.nil_append, h.finish, List.append_nil]
  | cons c u ih =>
    obtain ⟨h1, h2, h3⟩ := hu c (.head _)
    obtain ⟨e, h'⟩ := h.step c h1 h2 h3
    rw [List.cons_append, run_step R _ (.inr h.noRef), e, List.nil_append, ih h' fun x hx => hu x (.tail _ hx)]
    simp

theorem run_comment (u rest : Bytes) (hu : ∀ c ∈ u, c ≠ c%'<' ∧ c ≠ c%'>' ∧ c ≠ 0) :
    run R .data 0 (b%"<!--" ++ (u ++ (b%"-->" ++ rest))) = .comment u :: run R .data 0 rest := by
  rw [show b%"<!--" ++ (u ++ (b%"-->" ++ rest)) = c%'<' :: c%'!' :: c%'-' :: c%'-' :: (u ++ (b%"-->" ++ rest)) from rfl,
    run_step R _ (.inl (by decide)), run_step R _ (.inl (by decide)), run_step R _ (.inl (by decide)),
    run_step R _ (.inl (by decide))]
  have := InComment.start.run R u rest hu
  simpa [step, stepData, stepTagOpen] using this

theorem run_declaration (d u rest : Bytes) (hu : ∀ c ∈ u, c ≠ c%'<' ∧ c ≠ c%'>' ∧ c ≠ 0) :
    run R (.declaration d) 0 (u ++ rest) = run R (.declaration (d ++ u)) 0 rest := by
  induction u generalizing d with
  | nil => simp
  | cons c u ih =>
    obtain ⟨_, h1, h2⟩ := hu c (.head _)
    rw [List.cons_append, run_step R _ (.inr rfl)]
    simp [step, h1, noNul_of h2, ih _ fun d hd => hu d (.tail _ hd)]

theorem run_doctype (u rest : Bytes) (hu : ∀ c ∈ u, c ≠ c%'<' ∧ c ≠ c%'>' ∧ c ≠ 0) :
    run R .data 0 (b%"<!DOCTYPE " ++ (u ++ (b%">\n" ++ rest))) =
      .doctype (b%"DOCTYPE " ++ u) :: .char 10 :: run R .data 0 rest := by
  have e : b%"<!DOCTYPE " ++ (u ++ (b%">\n" ++ rest)) =
      c%'<' :: c%'!' :: c%'D' :: ((b%"OCTYPE " ++ u) ++ (c%'>' :: 10 :: rest)) := by simp
  rw [e, run_step R _ (.inl (by decide)), run_step R _ (.inl (by decide)), run_step R _ (.inl (by decide))]
  have e1 : step .data c%'<' = (.tagOpen, []) := rfl
  rw [e1]
  have e2 : step .tagOpen c%'!' = (.markupDecl, []) := rfl
  rw [e2]
  have e3 : step .markupDecl c%'D' = (.declaration b%"D", []) := rfl
  rw [e3]
  simp only [List.nil_append]
  rw [run_declaration R b%"D" (b%"OCTYPE " ++ u) _ ?_, run_step R _ (.inl (by decide)),
    run_step R _ (.inl (by decide))]
  · simp [step, stepData, lower, lowerByte, isUpper]
  · intro c hc
    rcases List.mem_append.1 hc with h | h
    · clear e hc; revert c; decide
    · exact hu c h

/-! ### Tags -/

theorem run_tagName (t : Tag) (cs rest : Bytes) (h : ∀ c ∈ cs, c ∈ nameChars) :
    run R (.tagName t) 0 (cs ++ rest) = run R (.tagName { t with name := t.name ++ lower cs }) 0 rest := by
  induction cs generalizing t with
  | nil => simp [lower]
  | cons c cs ih =>
    obtain ⟨h1, h2, h3, h4, h5, h6⟩ := nameChar_facts c (h c (.head _))
    rw [List.cons_append, run_step R _ (.inl h5)]
    simp only [step, stepTagName, h1, Bool.false_eq_true, ↓reduceIte, h2, h3, h6, List.nil_append]
    rw [ih _ fun d hd => h d (.tail _ hd)]
    simp [lower]

theorem run_attrName (t : Tag) (n cs rest : Bytes) (h : ∀ c ∈ cs, c ∈ nameChars) :
    run R (.attrName t n) 0 (cs ++ rest) = run R (.attrName t (n ++ lower cs)) 0 rest := by
  induction cs generalizing n with
  | nil => simp [lower]
  | cons c cs ih =>
    obtain ⟨h1, h2, h3, h4, h5, h6⟩ := nameChar_facts c (h c (.head _))
    rw [List.cons_append, run_step R _ (.inl h5)]
    simp only [step, stepAttrName, h1, Bool.false_or, beq_eq_false_iff_ne.2 h2, beq_eq_false_iff_ne.2 h3,
      Bool.false_eq_true, ↓reduceIte, h4, h6, List.nil_append]
    rw [ih _ fun d hd => h d (.tail _ hd)]
    simp [lower]

/-- Between attributes: the attributes read so far are those of `t`. -/
inductive Between (t : Tag) : State → Prop
  | name : Between t (.tagName t)
  | value : Between t (.afterAttrValue t)
  | attr (t₀ n) : t = t₀.add n [] → Between t (.attrName t₀ n)

theorem Between.noRef {t : Tag} {st : State} (h : Between t st) : refState st = none := by cases h <;> rfl

/-- A space and the name of the next attribute. -/
theorem Between.next {t : Tag} {st : State} (h : Between t st) {n : Bytes} (hn : ValidName n) (rest : Bytes) :
    run R st 0 (c%' ' :: (n ++ rest)) = run R (.attrName t (lower n)) 0 rest := by
  obtain ⟨c, cs, rfl, hc, hcs⟩ := hn
  obtain ⟨h1, h2, h3, h4, h5, h6⟩ := nameChar_facts c (letter_nameChar hc)
  have key : stepAttrName t [] c = (.attrName t [lowerByte c], []) := by
    simp [stepAttrName, h1, h2, h3, h4, h6]
  have hlow : lower (c :: cs) = [lowerByte c] ++ lower cs := rfl
  rw [hlow, ← run_attrName R t _ cs rest hcs, List.cons_append]
  cases h with
  | name =>
    rw [run_step R _ (.inl (by decide)), run_step R _ (.inl h5)]
    simp [step, stepTagName, stepBeforeAttrName, isSpace, key, h2, h3, h4]
    simp [isSpace] at h1; simp [h1]
  | value =>
    rw [run_step R _ (.inl (by decide)), run_step R _ (.inl h5)]
    simp [step, stepAfterAttrValue, stepBeforeAttrName, isSpace, key, h2, h3, h4]
    simp [isSpace] at h1; simp [h1]
  | attr t₀ n ht =>
    subst ht
    rw [run_step R _ (.inl (by decide)), run_step R _ (.inl h5)]
    have e1 : step (.attrName t₀ n) c%' ' = (.afterAttrName t₀ n, []) := rfl
    rw [e1]
    simp [step, stepAfterAttrName, key, h1, h2, h3, h4]

theorem Between.close {t : Tag} {st : State} (h : Between t st) (rest : Bytes) :
    run R st 0 (c%'>' :: rest) = (emitTag t false).2 ++ run R (emitTag t false).1 0 rest := by
  rw [run_step R _ (.inl (by decide))]
  cases h with
  | name => simp [step, stepTagName, isSpace]
  | value => simp [step, stepAfterAttrValue, isSpace]
  | attr t₀ n ht => subst ht; simp [step, stepAttrName, stepAfterAttrName, isSpace]

/-- The tag with further attributes. -/
def Tag.addAll (t : Tag) (attrs : List (Bytes × Option Bytes)) : Tag :=
  { t with attrs := t.attrs ++ attrs.map fun a => (lower a.1, seen (a.2.getD [])) }

theorem run_attrs (attrs : List (Bytes × Option Bytes)) (hv : ∀ a ∈ attrs, ValidName a.1) {t : Tag} {st : State}
    (h : Between t st) (rest : Bytes) :
    run R st 0 (attrs.flatMap writeAttr ++ c%'>' :: rest) =
      (emitTag (t.addAll attrs) false).2 ++ run R (emitTag (t.addAll attrs) false).1 0 rest := by
  induction attrs generalizing t st with
  | nil =>
    have : t.addAll [] = t := by simp [Tag.addAll]
    rw [this]; exact h.close R rest
  | cons a attrs ih =>
    obtain ⟨n, v⟩ := a
    have hn := hv _ (.head _)
    have ih := fun {t st} => ih (fun b hb => hv b (.tail _ hb)) (t := t) (st := st)
    cases v with
    | none =>
      have e : (((n, none) :: attrs).flatMap writeAttr ++ c%'>' :: rest) =
          c%' ' :: (n ++ (attrs.flatMap writeAttr ++ c%'>' :: rest)) := by simp [writeAttr]
      rw [e, h.next R hn, ih (.attr t (lower n) rfl)]
      have : (t.add (lower n) []).addAll attrs = t.addAll ((n, none) :: attrs) := by
        simp [Tag.addAll, Tag.add, seen]
      rw [this]
    | some v =>
      have e : (((n, some v) :: attrs).flatMap writeAttr ++ c%'>' :: rest) =
          c%' ' :: (n ++ (c%'=' :: c%'"' :: (escaped v ++ c%'"' :: (attrs.flatMap writeAttr ++ c%'>' :: rest)))) := by
        simp [writeAttr]
      rw [e, h.next R hn, run_step R _ (.inl (by decide)), run_step R _ (.inl (by decide))]
      have e1 : step (.attrName t (lower n)) c%'=' = (.beforeAttrValue t (lower n), []) := rfl
      rw [e1]
      have e2 : step (.beforeAttrValue t (lower n)) c%'"' = (.doubleQuoted t (lower n) [], []) := rfl
      rw [e2]
      simp only [List.nil_append]
      rw [run_quoted, ih (.value)]
      have : (t.add (lower n) ([] ++ seen v)).addAll attrs = t.addAll ((n, some v) :: attrs) := by
        simp [Tag.addAll, Tag.add]
      rw [this]

theorem firstOnly_nodup (as : List (Bytes × Bytes)) (h : (as.map (·.1)).Nodup) : firstOnly as = as := by
  induction as with
  | nil => rfl
  | cons a as ih =>
    rw [List.map_cons, List.nodup_cons] at h
    rw [firstOnly, ih h.2]
    congr 1
    rw [List.filter_eq_self]
    intro b hb
    have : b.1 ≠ a.1 := fun e => h.1 (e ▸ List.mem_map_of_mem hb)
    simpa using this

theorem run_startTag (name : Bytes) (attrs : List (Bytes × Option Bytes)) (hn : ValidName name) (ha : AttrsOK attrs)
    (rest : Bytes) :
    run R .data 0 (writeTag name attrs ++ rest) =
      startTok name attrs :: run R (contentState (lower name)) 0 rest := by
  obtain ⟨c, cs, rfl, hc, hcs⟩ := hn
  obtain ⟨l1, l2, l3, l4, l5, l6, l7, l8⟩ := letter_facts c hc
  have e : writeTag (c :: cs) attrs ++ rest =
      c%'<' :: c :: (cs ++ (attrs.flatMap writeAttr ++ c%'>' :: rest)) := by simp [writeTag]
  rw [e, run_step R _ (.inl (by decide)), run_step R _ (.inl (by simpa using l7))]
  have e1 : step .data c%'<' = (.tagOpen, []) := rfl
  rw [e1]
  have e2 : step .tagOpen c = (.tagName { isEnd := false, name := [lowerByte c] }, []) := by
    simp [step, stepTagOpen, l1, l3, l6]
  rw [e2]
  simp only [List.nil_append]
  rw [run_tagName R _ cs _ hcs, run_attrs R attrs ha.1 .name]
  simp only [emitTag, Tag.addAll, Bool.false_eq_true, ↓reduceIte, List.nil_append, List.singleton_append]
  have e3 : [lowerByte c] ++ lower cs = lower (c :: cs) := rfl
  simp only [List.cons_append, List.nil_append] at e3
  rw [e3, firstOnly_nodup _ (by rw [List.map_map]; exact ha.2)]
  rfl

theorem run_endTag (name : Bytes) (hn : ValidName name) (rest : Bytes) :
    run R .data 0 (b%"</" ++ name ++ b%">" ++ rest) = .close (lower name) :: run R .data 0 rest := by
  obtain ⟨c, cs, rfl, hc, hcs⟩ := hn
  obtain ⟨l1, l2, l3, l4, l5, l6, l7, l8⟩ := letter_facts c hc
  have e : b%"</" ++ (c :: cs) ++ b%">" ++ rest = c%'<' :: c%'/' :: c :: (cs ++ c%'>' :: rest) := by simp
  rw [e, run_step R _ (.inl (by decide)), run_step R _ (.inl (by decide)), run_step R _ (.inl (by simpa using l7))]
  have e1 : step .data c%'<' = (.tagOpen, []) := rfl
  rw [e1]
  have e2 : step .tagOpen c%'/' = (.endTagOpen, []) := rfl
  rw [e2]
  have e3 : step .endTagOpen c = (.tagName { isEnd := true, name := [lowerByte c] }, []) := by
    simp [step, stepEndTagOpen, l1]
  rw [e3]
  simp only [List.nil_append]
  rw [run_tagName R _ cs _ hcs, Between.name.close]
  rfl

/-! ### Text elements -/

theorem alpha_of_lower : ∀ c : UInt8, isAlpha (lowerByte c) = true → isAlpha c = true :=
  forall_byte (by decide +kernel)

theorem textNames_alpha : ∀ n ∈ textNames, ∀ c ∈ n, isAlpha c = true := by decide

theorem alpha_facts : ∀ c : UInt8, isAlpha c = true → isSpace c = false ∧ c ≠ c%'/' ∧ c ≠ c%'>' ∧ c ≠ c%'&' :=
  forall_byte (by decide +kernel)

theorem run_textEndName (refs : Bool) (elem buf cs rest : Bytes) (h : ∀ c ∈ cs, isAlpha c = true) :
    run R (.textEndName refs elem buf) 0 (cs ++ rest) = run R (.textEndName refs elem (buf ++ cs)) 0 rest := by
  induction cs generalizing buf with
  | nil => simp
  | cons c cs ih =>
    have hc := h c (.head _)
    obtain ⟨h1, h2, h3, h4⟩ := alpha_facts c hc
    rw [List.cons_append, run_step R _ (.inl h4)]
    simp only [step, stepTextEndName, h1, Bool.false_and, Bool.false_eq_true, ↓reduceIte, beq_eq_false_iff_ne.2 h2,
      beq_eq_false_iff_ne.2 h3, hc, List.nil_append]
    rw [ih _ fun d hd => h d (.tail _ hd)]
    simp

theorem run_textEnd (refs : Bool) (name : Bytes) (hn : name ≠ []) (hm : lower name ∈ textNames) (rest : Bytes) :
    run R (.text refs (lower name)) 0 (b%"</" ++ name ++ b%">" ++ rest) = .close (lower name) :: run R .data 0 rest := by
  have ha : ∀ c ∈ name, isAlpha c = true := fun c hc =>
    alpha_of_lower c (textNames_alpha _ hm _ (List.mem_map_of_mem hc))
  obtain ⟨c, cs, rfl⟩ := List.exists_cons_of_ne_nil hn
  have hc := ha c (.head _)
  obtain ⟨h1, h2, h3, h4⟩ := alpha_facts c hc
  have e : b%"</" ++ (c :: cs) ++ b%">" ++ rest = c%'<' :: c%'/' :: c :: (cs ++ c%'>' :: rest) := by simp
  rw [e, run_step R _ (.inl (by decide)), run_step R _ (.inl (by decide)), run_step R _ (.inl h4)]
  have e1 : step (.text refs (lower (c :: cs))) c%'<' = (.textLess refs (lower (c :: cs)), []) := rfl
  rw [e1]
  have e2 : step (.textLess refs (lower (c :: cs))) c%'/' = (.textEndOpen refs (lower (c :: cs)), []) := rfl
  rw [e2]
  have e3 : step (.textEndOpen refs (lower (c :: cs))) c = (.textEndName refs (lower (c :: cs)) [c], []) := by
    simp [step, hc]
  rw [e3]
  simp only [List.nil_append]
  rw [run_textEndName R _ _ _ cs _ fun d hd => ha d (.tail _ hd), run_step R _ (.inl (by decide))]
  simp [step, stepTextEndName, isSpace, emitTag]

theorem run_texts (refs : Bool) (e : Bytes) (ts : List Tree) (h : ∀ t ∈ ts, t.IsText) (rest : Bytes) :
    run R (.text refs e) 0 (writeAll ts ++ rest) = toksAll (!refs) ts ++ run R (.text refs e) 0 rest := by
  induction ts with
  | nil => simp [writeAll, toksAll]
  | cons t ts ih =>
    have ht := h t (.head _)
    cases t with
    | text s =>
      rw [writeAll, write, List.append_assoc, toksAll, toks, List.append_assoc, ← ih fun x hx => h x (.tail _ hx)]
      cases refs with
      | true => exact run_rcdata R e s _
      | false => exact run_rawtext R e _ _ (escaped_bytes s)
    | _ => exact ht.elim

theorem contentState_data {n : Bytes} (h : n ∉ textNames) (hp : n ≠ b%"plaintext") : contentState n = .data := by
  rw [textNames, List.mem_append, not_or] at h
  simp [contentState, h.1, h.2, hp]

theorem contentState_text {n : Bytes} (h : n ∈ textNames) :
    contentState n = .text (!decide (n ∈ rawtextNames)) n := by
  have key : ∀ n ∈ textNames, (n ∈ rcdataNames ∧ n ∉ rawtextNames) ∨ (n ∉ rcdataNames ∧ n ∈ rawtextNames) := by
    decide
  rcases key n h with ⟨h1, h2⟩ | ⟨h1, h2⟩
  · simp [contentState, h1, h2]
  · simp [contentState, h1, h2]

/-! ### Trees -/

theorem nodup_of_map {α β : Type} (f : α → β) {l : List α} (h : (l.map f).Nodup) : l.Nodup := by
  induction l with
  | nil => exact .nil
  | cons a l ih =>
    rw [List.map_cons, List.nodup_cons] at h
    exact List.nodup_cons.2 ⟨fun ha => h.1 (List.mem_map_of_mem ha), ih h.2⟩

theorem AttrsOK.nodup {attrs : List (Bytes × Option Bytes)} (h : AttrsOK attrs) : (attrs.map fun a => a.1).Nodup := by
  refine nodup_of_map lower ?_
  rw [List.map_map]; exact h.2

theorem texts_named {ts : List Tree} (h : ∀ t ∈ ts, t.IsText) : NamedAll ts := by
  induction ts with
  | nil => trivial
  | cons t ts ih =>
    simp only [List.forall_mem_cons] at h
    refine ⟨?_, ih h.2⟩
    cases t <;> first | trivial | exact absurd h.1 id

mutual
theorem Proper.named : (t : Tree) → Proper t → Named t
  | .element _ _ children, h => by
    have ih := properAll_named children
    refine ⟨h.1, h.2.2.1.1, h.2.2.1.nodup, ?_⟩
    rcases h.2.2.2 with h' | h'
    · exact texts_named h'.2
    · exact ih h'.2
  | .void _ _, h => ⟨h.1, h.2.2.1.1, h.2.2.1.nodup⟩
  | .text _, _ => trivial
  | .comment _, _ => trivial
  | .doctype _, _ => trivial
theorem properAll_named : (ts : List Tree) → ProperAll ts → NamedAll ts
  | [], _ => trivial
  | t :: ts, h => ⟨Proper.named t h.1, properAll_named ts h.2⟩
end

theorem ValidName.ne_nil {n : Bytes} (h : ValidName n) : n ≠ [] := by
  obtain ⟨c, cs, rfl, _, _⟩ := h; simp

mutual
theorem run_tree : (t : Tree) → Proper t → (rest : Bytes) →
    run R .data 0 (write t ++ rest) = toks false t ++ run R .data 0 rest
  | .text s, _, rest => by rw [write, toks]; exact run_data R s rest
  | .comment s, _, rest => by
    rw [write, toks, List.append_assoc, List.append_assoc]
    exact run_comment R _ rest (escaped_bytes s)
  | .doctype s, _, rest => by
    rw [write, toks, List.append_assoc, List.append_assoc]
    exact run_doctype R _ rest (escaped_bytes s)
  | .void name attrs, h, rest => by
    obtain ⟨h1, h2, h3, h4⟩ := h
    rw [write, run_startTag R name attrs h1 h3, contentState_data h4 h2, toks]; rfl
  | .element name attrs children, h, rest => by
    have ih := run_trees children
    obtain ⟨h1, h2, h3, h4⟩ := h
    have e : write (.element name attrs children) ++ rest =
        writeTag name attrs ++ (writeAll children ++ (b%"</" ++ name ++ b%">" ++ rest)) := by
      rw [write]; simp only [List.append_assoc]
    rw [e, run_startTag R name attrs h1 h3, toks]
    rcases h4 with ⟨h4, h5⟩ | ⟨h4, h5⟩
    · rw [contentState_text h4, run_texts R _ _ children h5, run_textEnd R _ name (ValidName.ne_nil h1) h4]
      simp
    · rw [contentState_data h4 h2, ih h5, run_endTag R name h1]
      have : decide (lower name ∈ rawtextNames) = false := by
        rw [textNames, List.mem_append, not_or] at h4; simp [h4.2]
      rw [this]; simp
theorem run_trees : (ts : List Tree) → ProperAll ts → (rest : Bytes) →
    run R .data 0 (writeAll ts ++ rest) = toksAll false ts ++ run R .data 0 rest
  | [], _, _ => by simp [writeAll, toksAll]
  | t :: ts, h, rest => by
    have h1 := run_tree t h.1 (writeAll ts ++ rest)
    have h2 := run_trees ts h.2 rest
    rw [writeAll, List.append_assoc, h1, h2, toksAll, List.append_assoc]
end

/-- Reading what was written. -/
theorem read_write (ts : List Tree) (h : ProperAll ts) : readHtml R (writeAll ts) = items (toksAll false ts) := by
  have := run_trees R ts h []
  rw [List.append_nil] at this
  rw [readHtml, this]
  simp [run, finish]

end Aitch.Spec.Markup

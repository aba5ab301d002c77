import Verif.Spec.Xml
import Verif.Proofs.Lines
import Verif.Proofs.Utf8
import Verif.Proofs.Clean
import Verif.Proofs.Format
/-
Proofs for C90: reading trees as XML.
-/
namespace Aitch.Spec.Xml

open Markup (Tree seen Named NamedAll nl nlTree nlTrees nlAttrs write writeAll writeAttr writeTag escaped_cons
  escaped_bytes forall_byte
  nlToks nlToks_chars seen_of seen_noNul nl_noNul flagAfter newlines_nl nl_escaped newlines Item addText items items_nl
  nlItems_false linesApart_items nl_write escaped_seen letter_nameChar Within WithinAll SafeFns SafeCtx)

/-! ### The reader, step by step -/

theorem run_step {m m' : Mode} {ts : List Tok} {c : UInt8} (rest : Bytes) (h : c ≠ c%'&' ∨ refStep m = none)
    (hs : step m c = some (m', ts)) : run m none (c :: rest) = (run m' none rest).map (ts ++ ·) := by
  have : ¬ (c = c%'&' ∧ (refStep m).isSome) := by
    rintro ⟨h1, h2⟩
    rcases h with h | h
    · exact h h1
    · simp [h] at h2
  cases m <;> simp only [run] <;> rw [if_neg this, hs]

theorem run_none {m : Mode} {c : UInt8} (rest : Bytes) (h : c ≠ c%'&' ∨ refStep m = none) (hs : step m c = none) :
    run m none (c :: rest) = none := by
  have : ¬ (c = c%'&' ∧ (refStep m).isSome) := by
    rintro ⟨h1, h2⟩
    rcases h with h | h
    · exact h h1
    · simp [h] at h2
  cases m <;> simp only [run] <;> rw [if_neg this, hs]

/-- A reference. -/
theorem run_ref {m : Mode} {f : UInt8 → Mode × List Tok} {u : UInt8} (e rest : Bytes) (hf : refStep m = some f)
    (he : entity e = some u) (hs : c%';' ∉ e) :
    run m none (c%'&' :: e ++ c%';' :: rest) = (run (f u).1 none rest).map ((f u).2 ++ ·) := by
  have key : ∀ (e r : Bytes), c%';' ∉ e → entity (r ++ e) = some u →
      run m (some r) (e ++ c%';' :: rest) = (run (f u).1 none rest).map ((f u).2 ++ ·) := by
    intro e
    induction e with
    | nil =>
      intro r _ he
      rw [List.append_nil] at he
      cases m <;> simp only [List.nil_append, run, if_true] <;> rw [hf, he]
    | cons c e ih =>
      intro r h he
      simp only [List.mem_cons, not_or] at h
      have := ih (r ++ [c]) h.2 (by simpa using he)
      cases m <;> simp only [List.cons_append, run] <;> rw [if_neg (Ne.symm h.1)] <;> exact this
  have h2 := key e [] hs he
  have h3 : (refStep m).isSome = true := by simp [hf]
  cases m <;> simp only [List.cons_append, run, true_and] <;> rw [if_pos h3] <;> exact h2

/-- The characters that are escaped. -/
def special (c : UInt8) : Bool := c == c%'"' || c == c%'\'' || c == c%'&' || c == c%'<' || c == c%'>'

/-- An escaped byte, where references are read. -/
theorem run_escapedByte {m : Mode} {f : UInt8 → Mode × List Tok} (hf : refStep m = some f) (c : UInt8) (h0 : c ≠ 0)
    (rest : Bytes) {m' : Mode} {ts : List Tok} (hs : special c = false → step m c = some (m', ts))
    (hr : special c = true → f c = (m', ts)) :
    run m none (escapedByte c ++ rest) = (run m' none rest).map (ts ++ ·) := by
  have k : ∀ e, entity e = some c → c%';' ∉ e → special c = true → escapedByte c = c%'&' :: e ++ [c%';'] →
      run m none (escapedByte c ++ rest) = (run m' none rest).map (ts ++ ·) := by
    intro e he hn hc h
    have := run_ref e rest hf he hn
    rw [hr hc] at this
    rw [h, List.append_assoc]; exact this
  by_cases h1 : c = c%'"'
  · subst h1; exact k b%"quot" (by decide) (by decide) (by decide) (by decide)
  by_cases h2 : c = c%'\''
  · subst h2; exact k b%"apos" (by decide) (by decide) (by decide) (by decide)
  by_cases h3 : c = c%'&'
  · subst h3; exact k b%"amp" (by decide) (by decide) (by decide) (by decide)
  by_cases h4 : c = c%'<'
  · subst h4; exact k b%"lt" (by decide) (by decide) (by decide) (by decide)
  by_cases h5 : c = c%'>'
  · subst h5; exact k b%"gt" (by decide) (by decide) (by decide) (by decide)
  have e1 : escapedByte c = [c] := by simp [escapedByte, h0, h1, h2, h3, h4, h5]
  have e2 : special c = false := by simp [special, h1, h2, h3, h4, h5]
  rw [e1, List.singleton_append]
  exact run_step rest (.inl h3) (hs e2)

theorem escapedByte_zero : escapedByte 0 = [] := rfl

/-! ### Texts -/

/-- The tokens of a text. -/
def chars (s : Bytes) : List Tok := (seen s).map fun c => .char c (special c)

theorem seen_cons_of {c : UInt8} (h : c ≠ 0) (s : Bytes) : seen (c :: s) = c :: seen s := by
  rw [seen, List.filter_cons_of_pos (by simpa using h)]; rfl

theorem map_append_append (x : Option (List Tok)) (a b : List Tok) :
    (x.map (b ++ ·)).map (a ++ ·) = x.map (a ++ b ++ ·) := by
  cases x <;> simp

theorem run_text (s : Bytes) : ∀ k, ∃ k', ∀ rest,
    run (.content k) none (escaped s ++ rest) = (run (.content k') none rest).map (chars s ++ ·) := by
  induction s with
  | nil =>
    intro k
    refine ⟨k, fun rest => ?_⟩
    have : chars [] = [] := rfl
    simp [escaped, this]
  | cons c s ih =>
    intro k
    by_cases h0 : c = 0
    · subst h0
      obtain ⟨k', h⟩ := ih k
      refine ⟨k', fun rest => ?_⟩
      rw [escaped_cons, escapedByte_zero, List.nil_append, h rest]; rfl
    · have hch : chars (c :: s) = .char c (special c) :: chars s := by simp [chars, seen_cons_of h0]
      have hk : ∃ k₁, (special c = false → step (.content k) c = some (.content k₁, [.char c (special c)])) ∧
          (special c = true → (Mode.content 0, [Tok.char c true]) = (.content k₁, [.char c (special c)])) := by
        by_cases hs : special c = true
        · exact ⟨0, by simp [hs], by simp [hs]⟩
        · have hs' : special c = false := by simpa using hs
          have h2 : c ≠ c%'<' ∧ c ≠ c%'>' := by
            constructor <;> (rintro rfl; exact absurd hs' (by decide))
          by_cases hb : c = c%']'
          · exact ⟨min (k + 1) 2, by intro _; rw [hs', hb]; rfl, by simp [hs']⟩
          · exact ⟨0, by intro _; simp [step, h2, hb, hs'], by simp [hs']⟩
      obtain ⟨k₁, hk1, hk2⟩ := hk
      obtain ⟨k', h⟩ := ih k₁
      refine ⟨k', fun rest => ?_⟩
      rw [escaped_cons, List.append_assoc, run_escapedByte (m := .content k) rfl c h0 _ hk1 hk2, h rest,
        map_append_append, hch]
      rfl

theorem run_value (n a : Bytes) (as : List (Bytes × Bytes)) (s rest : Bytes) : ∀ v,
    run (.value n as a c%'"' v) none (escaped s ++ rest) =
      run (.value n as a c%'"' (v ++ spaces (seen s))) none rest := by
  induction s with
  | nil => intro v; simp [escaped, seen, spaces]
  | cons c s ih =>
    intro v
    by_cases h0 : c = 0
    · subst h0
      rw [escaped_cons, escapedByte_zero, List.nil_append, ih]; rfl
    · have hsp : special c = true → isSpace c = false := by
        have key : ∀ c : UInt8, special c = true → isSpace c = false := forall_byte (by decide +kernel)
        exact key c
      rw [escaped_cons, List.append_assoc,
        run_escapedByte (m := .value n as a c%'"' v) (m' := .value n as a c%'"' (v ++ spaces [c])) (ts := []) rfl c h0 _
          ?_ ?_, ih, seen_cons_of h0]
      · simp [spaces]
      · intro hs
        have h2 : c ≠ c%'<' ∧ c ≠ c%'"' := by
          constructor <;> (rintro rfl; exact absurd hs (by decide))
        by_cases hc : isSpace c = true
        · simp [step, h2, hc, spaces]
        · simp [step, h2, hc, spaces]
      · intro hs
        simp [spaces, hsp hs]

/-! ### Names and tags -/

theorem nameChar_of {c : UInt8} (h : c ∈ nameChars) : isNameChar c = true ∧ c ≠ c%'&' := by
  have key : ∀ c ∈ nameChars, isNameChar c = true ∧ c ≠ c%'&' := by decide +kernel
  exact key c h

theorem nameStart_of {c : UInt8} (h : c ∈ letters) :
    isNameStart c = true ∧ c ≠ c%'&' ∧ isSpace c = false ∧ c ≠ c%'/' ∧ c ≠ c%'>' ∧ c ≠ c%'!' := by
  have key : ∀ c ∈ letters, isNameStart c = true ∧ c ≠ c%'&' ∧ isSpace c = false ∧ c ≠ c%'/' ∧ c ≠ c%'>' ∧ c ≠ c%'!' := by
    decide +kernel
  exact key c h

theorem map_nil_append (x : Option (List Tok)) : x.map (([] : List Tok) ++ ·) = x := by cases x <;> simp

/-- The characters of a name after the first. -/
theorem run_nameChars (m : Bytes → Mode) (hm : ∀ n c, isNameChar c = true → step (m n) c = some (m (n ++ [c]), []))
    (n cs rest : Bytes) (h : ∀ c ∈ cs, c ∈ nameChars) : run (m n) none (cs ++ rest) = run (m (n ++ cs)) none rest := by
  induction cs generalizing n with
  | nil => simp
  | cons c cs ih =>
    obtain ⟨h1, h2⟩ := nameChar_of (h c (.head _))
    rw [List.cons_append, run_step _ (.inl h2) (hm n c h1), map_nil_append, ih _ fun d hd => h d (.tail _ hd)]
    simp

theorem run_startName {n : Bytes} (hn : ValidName n) (k : Nat) (rest : Bytes) :
    run (.content k) none (b%"<" ++ n ++ rest) = run (.tagName n) none rest := by
  obtain ⟨c, cs, rfl, h1, h2⟩ := hn
  obtain ⟨g1, g2, g3, g4, g5, g6⟩ := nameStart_of h1
  have e : b%"<" ++ (c :: cs) ++ rest = c%'<' :: c :: (cs ++ rest) := by simp
  rw [e, run_step (m' := .less) (ts := []) _ (.inl (by decide)) (by simp [step]), map_nil_append,
    run_step (m' := .tagName [c]) (ts := []) _ (.inl g2) (by simp [step, g1, g4, g6]), map_nil_append,
    run_nameChars .tagName (fun n c h => by simp [step, h]) _ _ _ h2]
  rfl

theorem run_attrName {a : Bytes} (ha : ValidName a) (n : Bytes) (as : List (Bytes × Bytes)) (rest : Bytes) :
    run (.inTag n as) none (a ++ rest) = run (.attrName n as a) none rest := by
  obtain ⟨c, cs, rfl, h1, h2⟩ := ha
  obtain ⟨g1, g2, g3, g4, g5, g6⟩ := nameStart_of h1
  rw [List.cons_append, run_step (m' := .attrName n as [c]) (ts := []) _ (.inl g2) (by simp [step, g1, g3, g4, g5]),
    map_nil_append, run_nameChars (.attrName n as) (fun n c h => by simp [step, h]) _ _ _ h2]
  rfl

/-- An attribute with a value. -/
theorem run_attr {a : Bytes} (ha : ValidName a) (n : Bytes) (as : List (Bytes × Bytes)) (v rest : Bytes) :
    run (.afterValue n as) none (writeAttr (a, some v) ++ rest) =
      run (.afterValue n (as ++ [(a, spaces (seen v))])) none rest := by
  have e : writeAttr (a, some v) ++ rest = c%' ' :: (a ++ (c%'=' :: c%'"' :: (escaped v ++ c%'"' :: rest))) := by
    simp [writeAttr]
  rw [e, run_step (m' := .inTag n as) (ts := []) _ (.inl (by decide)) (by simp [step, isSpace]), map_nil_append,
    run_attrName ha,
    run_step (m' := .beforeValue n as a) (ts := []) _ (.inl (by decide)) (by simp [step, isSpace, isNameChar, isNameStart]),
    map_nil_append,
    run_step (m' := .value n as a c%'"' []) (ts := []) _ (.inl (by decide)) (by simp [step, isSpace]), map_nil_append,
    run_value,
    run_step (m' := .afterValue n (as ++ [(a, spaces (seen v))])) (ts := []) _ (.inl (by decide)) (by simp [step]),
    map_nil_append]

/-- The attributes, as read. -/
def readAttrs (attrs : List (Bytes × Option Bytes)) : List (Bytes × Bytes) :=
  attrs.map fun a => (a.1, spaces (seen (a.2.getD [])))

theorem run_attrs (n : Bytes) (attrs : List (Bytes × Option Bytes)) (hn : ∀ a ∈ attrs, ValidName a.1)
    (hv : ∀ a ∈ attrs, a.2 ≠ none) (as : List (Bytes × Bytes)) (rest : Bytes) :
    run (.afterValue n as) none (attrs.flatMap writeAttr ++ rest) = run (.afterValue n (as ++ readAttrs attrs)) none rest := by
  induction attrs generalizing as with
  | nil => simp [readAttrs]
  | cons a attrs ih =>
    obtain ⟨a, _ | v⟩ := a
    · exact absurd rfl (hv _ (.head _))
    · simp only [List.flatMap_cons, List.append_assoc]
      rw [run_attr (hn _ (.head _)), ih (fun b hb => hn b (.tail _ hb)) fun b hb => hv b (.tail _ hb)]
      simp [readAttrs]

/-- A boolean attribute cannot be read. -/
theorem run_boolean {a : Bytes} (ha : ValidName a) (n : Bytes) (as : List (Bytes × Bytes)) (attrs : List (Bytes × Option Bytes))
    (hn : ∀ a ∈ attrs, ValidName a.1) (rest : Bytes) :
    run (.afterValue n as) none (writeAttr (a, none) ++ (attrs.flatMap writeAttr ++ (b%">" ++ rest))) = none := by
  have e : writeAttr (a, none) ++ (attrs.flatMap writeAttr ++ (b%">" ++ rest)) =
      c%' ' :: (a ++ (attrs.flatMap writeAttr ++ (b%">" ++ rest))) := by simp [writeAttr]
  rw [e, run_step (m' := .inTag n as) (ts := []) _ (.inl (by decide)) (by simp [step, isSpace]), map_nil_append,
    run_attrName ha]
  cases attrs with
  | nil => exact run_none _ (.inl (by decide)) (by simp [step, isSpace, isNameChar, isNameStart])
  | cons b attrs =>
    obtain ⟨b, v⟩ := b
    have hb := hn _ (.head _)
    obtain ⟨c, cs, hbc, h1, h2⟩ := hb
    simp only at hbc
    obtain ⟨g1, g2, g3, g4, g5, g6⟩ := nameStart_of h1
    have e2 : ∃ r, ((b, v) :: attrs).flatMap writeAttr ++ (b%">" ++ rest) = c%' ' :: c :: r := by
      subst hbc
      cases v <;> exact ⟨_, by simp [writeAttr]; rfl⟩
    obtain ⟨r, e2⟩ := e2
    rw [e2, run_step (m' := .afterAttrName n as a) (ts := []) _ (.inl (by decide))
      (by simp [step, isSpace, isNameChar, isNameStart]), map_nil_append]
    have h3 : c ≠ c%'=' := by
      have key : ∀ c ∈ letters, c ≠ c%'=' := by decide +kernel
      exact key c h1
    exact run_none _ (.inl g2) (by simp [step, g3, h3])

theorem run_tagName (n : Bytes) (attrs : List (Bytes × Option Bytes)) (rest : Bytes) :
    run (.tagName n) none (attrs.flatMap writeAttr ++ (b%">" ++ rest)) =
      run (.afterValue n []) none (attrs.flatMap writeAttr ++ (b%">" ++ rest)) := by
  have key : ∀ c r, c = c%' ' ∨ c = c%'>' → run (.tagName n) none (c :: r) = run (.afterValue n []) none (c :: r) := by
    intro c r hc
    have hs : step (.tagName n) c = step (.afterValue n []) c := by
      rcases hc with rfl | rfl <;> simp [step, isSpace, isNameChar, isNameStart]
    have hr : ¬ (c = c%'&' ∧ (refStep (.tagName n)).isSome = true) := by simp [refStep]
    have hr' : ¬ (c = c%'&' ∧ (refStep (.afterValue n [])).isSome = true) := by simp [refStep]
    simp only [run, if_neg hr, if_neg hr', hs]
  cases attrs with
  | nil => exact key _ _ (.inr rfl)
  | cons a attrs =>
    obtain ⟨a, _ | v⟩ := a
    · exact key _ _ (.inl rfl)
    · exact key _ _ (.inl rfl)

/-- The start tag, when all attributes have values. -/
theorem run_tag {n : Bytes} {attrs : List (Bytes × Option Bytes)} (hn : ValidName n) (ha : ∀ a ∈ attrs, ValidName a.1)
    (hd : (attrs.map fun a => a.1).Nodup) (hv : ∀ a ∈ attrs, a.2 ≠ none) (k : Nat) (rest : Bytes) :
    run (.content k) none (writeTag n attrs ++ rest) =
      (run (.content 0) none rest).map ([.start n (readAttrs attrs)] ++ ·) := by
  have e : writeTag n attrs ++ rest = b%"<" ++ n ++ (attrs.flatMap writeAttr ++ (b%">" ++ rest)) := by simp [writeTag]
  have hd' : ((readAttrs attrs).map (·.1)).Nodup := by
    have : (readAttrs attrs).map (·.1) = attrs.map fun a => a.1 := by simp [readAttrs]
    rw [this]; exact hd
  rw [e, run_startName hn, run_tagName, run_attrs n attrs ha hv, List.nil_append]
  exact run_step _ (.inl (by decide)) (by simp [step, isSpace, tagEnd, startTag, hd'])

/-- The start tag, when not all attributes have values. -/
theorem run_tag_none {n : Bytes} {attrs : List (Bytes × Option Bytes)} (hn : ValidName n) (ha : ∀ a ∈ attrs, ValidName a.1)
    (hv : ¬ ∀ a ∈ attrs, a.2 ≠ none) (k : Nat) (rest : Bytes) :
    run (.content k) none (writeTag n attrs ++ rest) = none := by
  have e : writeTag n attrs ++ rest = b%"<" ++ n ++ (attrs.flatMap writeAttr ++ (b%">" ++ rest)) := by simp [writeTag]
  rw [e, run_startName hn, run_tagName]
  have key : ∀ as, run (.afterValue n as) none (attrs.flatMap writeAttr ++ (b%">" ++ rest)) = none := by
    clear e
    induction attrs with
    | nil => exact absurd (by simp) hv
    | cons a attrs ih =>
      intro as
      obtain ⟨a, _ | v⟩ := a
      · rw [List.flatMap_cons, List.append_assoc]
        exact run_boolean (ha _ (.head _)) n as attrs (fun b hb => ha b (.tail _ hb)) rest
      · rw [List.flatMap_cons, List.append_assoc, run_attr (ha _ (.head _))]
        refine ih (fun b hb => ha b (.tail _ hb)) ?_ _
        intro h
        exact hv (by simpa using h)
  exact key []

theorem run_endTag {n : Bytes} (hn : ValidName n) (k : Nat) (rest : Bytes) :
    run (.content k) none (b%"</" ++ n ++ b%">" ++ rest) = (run (.content 0) none rest).map ([.close n] ++ ·) := by
  obtain ⟨c, cs, rfl, h1, h2⟩ := hn
  obtain ⟨g1, g2, g3, g4, g5, g6⟩ := nameStart_of h1
  have e : b%"</" ++ (c :: cs) ++ b%">" ++ rest = c%'<' :: c%'/' :: c :: (cs ++ c%'>' :: rest) := by simp
  rw [e, run_step (m' := .less) (ts := []) _ (.inl (by decide)) (by simp [step]), map_nil_append,
    run_step (m' := .endName []) (ts := []) _ (.inl (by decide)) (by simp [step]), map_nil_append,
    run_step (m' := .endName [c]) (ts := []) _ (.inl g2) (by simp [step, g1]), map_nil_append]
  have key : ∀ cs n rest, n ≠ [] → (∀ c ∈ cs, c ∈ nameChars) →
      run (.endName n) none (cs ++ rest) = run (.endName (n ++ cs)) none rest := by
    intro cs
    induction cs with
    | nil => intro n rest _ _; simp
    | cons d cs ih =>
      intro n rest hne h
      obtain ⟨k1, k2⟩ := nameChar_of (h d (.head _))
      obtain ⟨x, xs, rfl⟩ := List.exists_cons_of_ne_nil hne
      rw [List.cons_append, run_step (m' := .endName (x :: xs ++ [d])) (ts := []) _ (.inl k2) (by simp [step, k1]),
        map_nil_append, ih _ _ (by simp) fun d hd => h d (.tail _ hd)]
      simp
  rw [key cs [c] _ (by simp) h2]
  exact run_step _ (.inl (by decide)) (by simp [step, isSpace, isNameChar, isNameStart])

/-! ### Comments -/

/-- No two hyphens in a row and none at the end; `dash`: a hyphen comes before. -/
def tame (dash : Bool) : Bytes → Bool
  | [] => !dash
  | c :: r => if c = c%'-' then !dash && tame true r else tame false r

theorem dashes_cons {c : UInt8} {r : Bytes} (h : c ≠ c%'-' ∨ ∃ d r', r = d :: r' ∧ d ≠ c%'-') :
    (¬ b%"--" <:+: c :: r ∧ ¬ b%"-" <:+ c :: r) ↔ ¬ b%"--" <:+: r ∧ ¬ b%"-" <:+ r := by
  have h1 : b%"--" <:+: c :: r ↔ b%"--" <:+: r := by
    rw [List.infix_cons_iff]
    refine or_iff_right ?_
    rintro ⟨t, ht⟩
    simp only [List.cons_append, List.nil_append, List.cons.injEq] at ht
    rcases h with h | ⟨d, r', rfl, h⟩
    · exact h ht.1.symm
    · simp only [List.cons.injEq] at ht
      exact h ht.2.1.symm
  have h2 : b%"-" <:+ c :: r ↔ b%"-" <:+ r := by
    rw [List.suffix_cons_iff]
    refine or_iff_right ?_
    intro ht
    simp only [List.cons.injEq] at ht
    rcases h with h | ⟨d, r', rfl, h⟩
    · exact h ht.1.symm
    · exact absurd ht.2 (by simp)
  rw [h1, h2]

theorem tame_iff : (d : Bytes) → (tame false d = true ↔ ¬ b%"--" <:+: d ∧ ¬ b%"-" <:+ d)
  | [] => by simp [tame]
  | c :: r => by
    have ih := tame_iff r
    by_cases hc : c = c%'-'
    · subst hc
      cases r with
      | nil => simp [tame]
      | cons d r' =>
        by_cases hd : d = c%'-'
        · subst hd
          have : b%"--" <:+: c%'-' :: c%'-' :: r' := ⟨[], r', by simp⟩
          simp [tame, this]
        · rw [dashes_cons (.inr ⟨d, r', rfl, hd⟩), ← ih]
          simp [tame, hd]
    · rw [dashes_cons (.inl hc), ← ih]
      simp [tame, hc]

/-- The text of a comment, and its end. -/
theorem run_comment {d : Bytes} (rest : Bytes) : ∀ acc,
    (tame false d = true → run (.comment acc) none (d ++ (b%"-->" ++ rest)) =
      (run (.content 0) none rest).map ([.comment (acc ++ d)] ++ ·)) ∧
    (tame true d = true → run (.commentDash acc) none (d ++ (b%"-->" ++ rest)) =
      (run (.content 0) none rest).map ([.comment (acc ++ c%'-' :: d)] ++ ·)) := by
  induction d with
  | nil =>
    intro acc
    refine ⟨fun _ => ?_, nofun⟩
    have e : ([] : Bytes) ++ (b%"-->" ++ rest) = c%'-' :: c%'-' :: c%'>' :: rest := by simp
    rw [e, run_step (m' := .commentDash acc) (ts := []) _ (.inl (by decide)) (by simp [step]), map_nil_append,
      run_step (m' := .commentDashDash acc) (ts := []) _ (.inl (by decide)) (by simp [step]), map_nil_append,
      run_step (m' := .content 0) (ts := [.comment acc]) _ (.inl (by decide)) (by simp [step]), List.append_nil]
  | cons c d ih =>
    intro acc
    have nr : ∀ m, refStep m = none → (c ≠ c%'&' ∨ refStep m = none) := fun m h => .inr h
    by_cases hc : c = c%'-'
    · subst hc
      refine ⟨fun h => ?_, fun h => by simp [tame] at h⟩
      have h' : tame true d = true := by simpa [tame] using h
      rw [List.cons_append, run_step (m' := .commentDash acc) (ts := []) _ (.inl (by decide)) (by simp [step]), map_nil_append,
        (ih acc).2 h']
    · refine ⟨fun h => ?_, fun h => ?_⟩
      · have h' : tame false d = true := by simpa [tame, hc] using h
        rw [List.cons_append, run_step (m' := .comment (acc ++ [c])) (ts := []) _ (.inr rfl) (by simp [step, hc]), map_nil_append,
          (ih _).1 h']
        simp
      · have h' : tame false d = true := by simpa [tame, hc] using h
        rw [List.cons_append, run_step (m' := .comment (acc ++ [c%'-', c])) (ts := []) _ (.inr rfl) (by simp [step, hc]),
          map_nil_append, (ih _).1 h']
        simp

/-- Otherwise there is no reading. -/
theorem run_comment_none {d : Bytes} (hg : c%'>' ∉ d) (rest : Bytes) : ∀ acc,
    (tame false d = false → run (.comment acc) none (d ++ (b%"-->" ++ rest)) = none) ∧
    (tame true d = false → run (.commentDash acc) none (d ++ (b%"-->" ++ rest)) = none) := by
  induction d with
  | nil =>
    intro acc
    refine ⟨nofun, fun _ => ?_⟩
    have e : ([] : Bytes) ++ (b%"-->" ++ rest) = c%'-' :: c%'-' :: c%'>' :: rest := by simp
    rw [e, run_step (m' := .commentDashDash acc) (ts := []) _ (.inl (by decide)) (by simp [step]), map_nil_append]
    exact run_none _ (.inl (by decide)) (by simp [step])
  | cons c d ih =>
    intro acc
    simp only [List.mem_cons, not_or] at hg
    have ih := ih hg.2
    by_cases hc : c = c%'-'
    · subst hc
      refine ⟨fun h => ?_, fun h => ?_⟩
      · have h' : tame true d = false := by simpa [tame] using h
        rw [List.cons_append, run_step (m' := .commentDash acc) (ts := []) _ (.inl (by decide)) (by simp [step]), map_nil_append,
          (ih acc).2 h']
      · rw [List.cons_append, run_step (m' := .commentDashDash acc) (ts := []) _ (.inl (by decide)) (by simp [step]),
          map_nil_append]
        cases d with
        | nil => exact run_none _ (.inl (by decide)) (by simp [step])
        | cons x d =>
          simp only [List.mem_cons, not_or] at hg
          exact run_none _ (.inr rfl) (by simp [step, Ne.symm hg.2.1])
    · refine ⟨fun h => ?_, fun h => ?_⟩
      · have h' : tame false d = false := by simpa [tame, hc] using h
        rw [List.cons_append, run_step (m' := .comment (acc ++ [c])) (ts := []) _ (.inr rfl) (by simp [step, hc]), map_nil_append,
          (ih _).1 h']
      · have h' : tame false d = false := by simpa [tame, hc] using h
        rw [List.cons_append, run_step (m' := .comment (acc ++ [c%'-', c])) (ts := []) _ (.inr rfl) (by simp [step, hc]),
          map_nil_append, (ih _).1 h']

theorem tame_skip (p : Bytes) (hp : ∀ c ∈ p, c ≠ c%'-') (hne : p ≠ []) (b : Bool) (r : Bytes) : tame b (p ++ r) = tame false r := by
  induction p generalizing b with
  | nil => exact absurd rfl hne
  | cons c p ih =>
    simp only [List.forall_mem_cons] at hp
    rw [List.cons_append, tame, if_neg hp.1]
    cases p with
    | nil => rfl
    | cons d p => exact ih hp.2 (by simp) _

theorem escapedByte_dash : ∀ c : UInt8, c = 0 ∨ (c = c%'-' ∧ escapedByte c = [c%'-']) ∨
    (c ≠ c%'-' ∧ (∀ d ∈ escapedByte c, d ≠ c%'-') ∧ escapedByte c ≠ []) := forall_byte (by decide +kernel)

theorem tame_escaped (b : Bool) (s : Bytes) : tame b (escaped s) = tame b (seen s) := by
  induction s generalizing b with
  | nil => rfl
  | cons c s ih =>
    rw [escaped_cons]
    rcases escapedByte_dash c with rfl | ⟨rfl, h⟩ | ⟨h0, h1, h2⟩
    · exact ih b
    · rw [h, seen_cons_of (by decide), List.singleton_append, tame, tame, ih, ih]
    · have c0 : c ≠ 0 := by rintro rfl; exact h2 rfl
      rw [tame_skip _ h1 h2, seen_cons_of c0, tame, if_neg h0, ih]

theorem tame_nl (b b' : Bool) (s : Bytes) (hb : b' = true → b = false) : tame b (nl b' s) = tame b s := by
  induction s generalizing b b' with
  | nil => rfl
  | cons c s ih =>
    rw [nl]
    by_cases h13 : c = 13
    · subst h13
      simp [tame]
      exact ih false true (by simp)
    · by_cases h10 : c = 10
      · subst h10
        cases b'
        · simp [tame]
          exact ih false false (by simp)
        · simp [tame, hb rfl]
          exact ih false false (by simp)
      · simp only [h13, h10, if_false, false_and, tame]
        rw [ih true false (by simp), ih false false (by simp)]

/-- A comment that fits. -/
theorem tame_seen {s : Bytes} : tame false (escaped s) = true ↔ ¬ b%"--" <:+: seen s ∧ ¬ b%"-" <:+ seen s := by
  rw [tame_escaped, tame_iff]

theorem escaped_noGreater (s : Bytes) : c%'>' ∉ escaped s := by
  have key : ∀ c : UInt8, c%'>' ∉ escapedByte c := forall_byte (by decide +kernel)
  induction s with
  | nil => simp [escaped]
  | cons c s ih =>
    rw [escaped_cons, List.mem_append, not_or]
    exact ⟨key c, ih⟩

theorem run_bang (k : Nat) (rest : Bytes) : run (.content k) none (b%"<!--" ++ rest) = run (.comment []) none rest := by
  have e : b%"<!--" ++ rest = c%'<' :: c%'!' :: c%'-' :: c%'-' :: rest := by simp
  rw [e, run_step (m' := .less) (ts := []) _ (.inl (by decide)) (by simp [step]), map_nil_append,
    run_step (m' := .bang) (ts := []) _ (.inl (by decide)) (by simp [step]), map_nil_append,
    run_step (m' := .bangDash) (ts := []) _ (.inl (by decide)) (by simp [step]), map_nil_append,
    run_step (m' := .comment []) (ts := []) _ (.inl (by decide)) (by simp [step]), map_nil_append]

/-! ### Trees -/

mutual
/-- The tokens of a tree. -/
def xtoks : Tree → List Tok
  | .element name attrs children => .start name (readAttrs attrs) :: xtoksAll children ++ [.close name]
  | .void name attrs => [.start name (readAttrs attrs)]
  | .text s => chars s
  | .comment s => [.comment (escaped s)]
  | .doctype _ => []
/-- The same for all. -/
def xtoksAll : List Tree → List Tok
  | [] => []
  | t :: ts => xtoks t ++ xtoksAll ts
end

mutual
/-- The tree has tokens. -/
def Lexes : Tree → Prop
  | .element _ attrs children => (∀ a ∈ attrs, a.2 ≠ none) ∧ LexesAll children
  | .void _ attrs => ∀ a ∈ attrs, a.2 ≠ none
  | .text _ => True
  | .comment s => ¬ b%"--" <:+: seen s ∧ ¬ b%"-" <:+ seen s
  | .doctype _ => False
/-- The same for all. -/
def LexesAll : List Tree → Prop
  | [] => True
  | t :: ts => Lexes t ∧ LexesAll ts
end

mutual
theorem run_write : (t : Tree) → Named t → Lexes t → ∀ k, ∃ k', ∀ rest,
    run (.content k) none (write t ++ rest) = (run (.content k') none rest).map (xtoks t ++ ·)
  | .text s, _, _, k => by
    simp only [write, xtoks]; exact run_text s k
  | .comment s, _, h, k => by
    refine ⟨0, fun rest => ?_⟩
    have e : write (.comment s) ++ rest = b%"<!--" ++ (escaped s ++ (b%"-->" ++ rest)) := by simp [write]
    rw [e, run_bang, (run_comment rest []).1 (tame_seen.2 h)]
    rfl
  | .doctype _, _, h, _ => h.elim
  | .void n attrs, hn, h, k => by
    refine ⟨0, fun rest => ?_⟩
    rw [write, run_tag hn.1 hn.2.1 hn.2.2 h, xtoks]
  | .element n attrs children, hn, h, k => by
    obtain ⟨k', ih⟩ := run_writeAll children hn.2.2.2 h.2 0
    refine ⟨0, fun rest => ?_⟩
    have e : write (.element n attrs children) ++ rest =
        writeTag n attrs ++ (writeAll children ++ (b%"</" ++ n ++ b%">" ++ rest)) := by
      rw [write]; simp only [List.append_assoc]
    rw [e, run_tag hn.1 hn.2.1 hn.2.2.1 h.1, ih, run_endTag hn.1, map_append_append, map_append_append, xtoks]
    simp
theorem run_writeAll : (ts : List Tree) → NamedAll ts → LexesAll ts → ∀ k, ∃ k', ∀ rest,
    run (.content k) none (writeAll ts ++ rest) = (run (.content k') none rest).map (xtoksAll ts ++ ·)
  | [], _, _, k => ⟨k, fun rest => by simp [writeAll, xtoksAll]⟩
  | t :: ts, hn, h, k => by
    obtain ⟨k₁, h1⟩ := run_write t hn.1 h.1 k
    obtain ⟨k₂, h2⟩ := run_writeAll ts hn.2 h.2 k₁
    refine ⟨k₂, fun rest => ?_⟩
    rw [writeAll, List.append_assoc, h1, h2, map_append_append, xtoksAll]
end

mutual
theorem run_write_none : (t : Tree) → Named t → ¬ Lexes t → ∀ k rest, run (.content k) none (write t ++ rest) = none
  | .text s, _, h => absurd trivial h
  | .comment s, _, h => by
    intro k rest
    have e : write (.comment s) ++ rest = b%"<!--" ++ (escaped s ++ (b%"-->" ++ rest)) := by simp [write]
    have h' : tame false (escaped s) = false := by
      rw [Bool.eq_false_iff, Ne, tame_seen]; exact h
    rw [e, run_bang, (run_comment_none (escaped_noGreater s) rest []).1 h']
  | .doctype s, _, _ => by
    intro k rest
    have e : write (.doctype s) ++ rest = c%'<' :: c%'!' :: c%'D' :: (b%"OCTYPE " ++ (escaped s ++ (b%">\n" ++ rest))) := by
      simp [write]
    rw [e, run_step (m' := .less) (ts := []) _ (.inl (by decide)) (by simp [step]), map_nil_append,
      run_step (m' := .bang) (ts := []) _ (.inl (by decide)) (by simp [step]), map_nil_append]
    exact run_none _ (.inl (by decide)) (by simp [step])
  | .void n attrs, hn, h => by
    intro k rest
    rw [write, run_tag_none hn.1 hn.2.1 h]
  | .element n attrs children, hn, h => by
    intro k rest
    have e : write (.element n attrs children) ++ rest =
        writeTag n attrs ++ (writeAll children ++ (b%"</" ++ n ++ b%">" ++ rest)) := by
      rw [write]; simp only [List.append_assoc]
    by_cases ha : ∀ a ∈ attrs, a.2 ≠ none
    · have hc : ¬ LexesAll children := fun hc => h ⟨ha, hc⟩
      rw [e, run_tag hn.1 hn.2.1 hn.2.2.1 ha, run_writeAll_none children hn.2.2.2 hc]; rfl
    · rw [e, run_tag_none hn.1 hn.2.1 ha]
theorem run_writeAll_none : (ts : List Tree) → NamedAll ts → ¬ LexesAll ts → ∀ k rest,
    run (.content k) none (writeAll ts ++ rest) = none
  | [], _, h => absurd trivial h
  | t :: ts, hn, h => by
    intro k rest
    rw [writeAll, List.append_assoc]
    by_cases ht : Lexes t
    · have hc : ¬ LexesAll ts := fun hc => h ⟨ht, hc⟩
      obtain ⟨k₁, h1⟩ := run_write t hn.1 ht k
      rw [h1, run_writeAll_none ts hn.2 hc]; rfl
    · exact run_write_none t hn.1 ht k _
end

/-! ### Nesting -/

mutual
theorem fits_lexes : (t : Tree) → Fits t → Lexes t
  | .text _, _ => trivial
  | .comment _, h => h
  | .doctype _, h => h
  | .void _ _, h => h.elim
  | .element _ _ children, h => ⟨h.1, fitsAll_lexes children h.2⟩
theorem fitsAll_lexes : (ts : List Tree) → FitsAll ts → LexesAll ts
  | [], _ => trivial
  | t :: ts, h => ⟨fits_lexes t h.1, fitsAll_lexes ts h.2⟩
end

theorem nested_chars (m : Bytes) (st : List Bytes) (root : Bool) (s : Bytes) (us : List Tok) :
    nested (m :: st) root (chars s ++ us) = nested (m :: st) root us := by
  unfold chars
  induction seen s with
  | nil => rfl
  | cons c s ih => simpa [nested] using ih

mutual
theorem nested_inside : (t : Tree) → Fits t → ∀ m st root us,
    nested (m :: st) root (xtoks t ++ us) = nested (m :: st) root us
  | .text s, _, m, st, root, us => by rw [xtoks]; exact nested_chars m st root s us
  | .comment s, _, m, st, root, us => by simp [xtoks, nested]
  | .doctype _, h, _, _, _, _ => h.elim
  | .void _ _, h, _, _, _, _ => h.elim
  | .element n attrs children, h, m, st, root, us => by
    have ih := nested_insideAll children h.2 n (m :: st) root (.close n :: us)
    simp only [xtoks, List.cons_append, List.append_assoc, List.nil_append, nested, ih, beq_self_eq_true, Bool.true_and]
theorem nested_insideAll : (ts : List Tree) → FitsAll ts → ∀ m st root us,
    nested (m :: st) root (xtoksAll ts ++ us) = nested (m :: st) root us
  | [], _, _, _, _, _ => rfl
  | t :: ts, h, m, st, root, us => by
    rw [xtoksAll, List.append_assoc, nested_inside t h.1, nested_insideAll ts h.2]
end

theorem nested_element {t : Tree} (hf : Fits t) (he : IsElement t) : nested [] false (xtoks t) = true := by
  cases t with
  | element n attrs children =>
    have := nested_insideAll children hf.2 n [] true [.close n]
    simp only [xtoks, List.cons_append, nested, this, beq_self_eq_true, Bool.true_and]
  | _ => exact he.elim

/-- How many tags there are. -/
def startsIn (ts : List Tok) : Nat := ts.countP fun | .start _ _ => true | _ => false
/-- How many tags there are. -/
def closesIn (ts : List Tok) : Nat := ts.countP fun | .close _ => true | _ => false

theorem nested_count : (ts : List Tok) → (st : List Bytes) → (root : Bool) → nested st root ts = true →
    startsIn ts + st.length = closesIn ts
  | [], [], _, _ => rfl
  | [], _ :: _, _, h => by simp [nested] at h
  | .start n as :: ts, [], false, h => by
    have := nested_count ts [n] true (by simpa [nested] using h)
    simp [startsIn, closesIn] at this ⊢; omega
  | .start n as :: ts, [], true, h => by simp [nested] at h
  | .start n as :: ts, m :: st, root, h => by
    have := nested_count ts (n :: m :: st) root (by simpa [nested] using h)
    simp [startsIn, closesIn] at this ⊢; omega
  | .close n :: ts, [], _, h => by simp [nested] at h
  | .close n :: ts, m :: st, root, h => by
    have := nested_count ts st root (by simp [nested] at h; exact h.2)
    simp [startsIn, closesIn] at this ⊢; omega
  | .char c r :: ts, [], root, h => by
    have := nested_count ts [] root (by simp [nested] at h; exact h.2)
    simp [startsIn, closesIn] at this ⊢; omega
  | .char c r :: ts, m :: st, root, h => by
    have := nested_count ts (m :: st) root (by simpa [nested] using h)
    simp [startsIn, closesIn] at this ⊢; omega
  | .comment c :: ts, st, root, h => by
    have := nested_count ts st root (by simpa [nested] using h)
    simp [startsIn, closesIn] at this ⊢; omega

theorem count_chars (s : Bytes) : startsIn (chars s) = 0 ∧ closesIn (chars s) = 0 := by
  unfold chars
  induction seen s with
  | nil => exact ⟨rfl, rfl⟩
  | cons c s ih => simp [startsIn, closesIn]

mutual
/-- There are at least as many start tags as end tags, and if not more, the tree fits. -/
theorem count_xtoks : (t : Tree) → Lexes t → closesIn (xtoks t) ≤ startsIn (xtoks t) ∧
    (startsIn (xtoks t) ≤ closesIn (xtoks t) → Fits t)
  | .text s, _ => by
    rw [xtoks, (count_chars s).1, (count_chars s).2]; exact ⟨Nat.le_refl _, fun _ => trivial⟩
  | .comment s, h => ⟨Nat.le_refl _, fun _ => h⟩
  | .doctype _, h => h.elim
  | .void _ _, h => by simp [xtoks, startsIn, closesIn]
  | .element n attrs children, h => by
    obtain ⟨h1, h2⟩ := count_xtoksAll children h.2
    have e1 : startsIn (xtoks (.element n attrs children)) = startsIn (xtoksAll children) + 1 := by
      simp [xtoks, startsIn]
    have e2 : closesIn (xtoks (.element n attrs children)) = closesIn (xtoksAll children) + 1 := by
      simp [xtoks, closesIn]
    rw [e1, e2]
    exact ⟨by omega, fun h' => ⟨h.1, h2 (by omega)⟩⟩
theorem count_xtoksAll : (ts : List Tree) → LexesAll ts → closesIn (xtoksAll ts) ≤ startsIn (xtoksAll ts) ∧
    (startsIn (xtoksAll ts) ≤ closesIn (xtoksAll ts) → FitsAll ts)
  | [], _ => ⟨Nat.le_refl _, fun _ => trivial⟩
  | t :: ts, h => by
    obtain ⟨h1, h2⟩ := count_xtoks t h.1
    obtain ⟨h3, h4⟩ := count_xtoksAll ts h.2
    have e1 : startsIn (xtoksAll (t :: ts)) = startsIn (xtoks t) + startsIn (xtoksAll ts) := by simp [xtoksAll, startsIn]
    have e2 : closesIn (xtoksAll (t :: ts)) = closesIn (xtoks t) + closesIn (xtoksAll ts) := by simp [xtoksAll, closesIn]
    rw [e1, e2]
    exact ⟨by omega, fun h' => ⟨h2 (by omega), h4 (by omega)⟩⟩
end

theorem nested_noElement (s : Bytes) : nested [] false (chars s) = false := by
  unfold chars
  induction seen s with
  | nil => rfl
  | cons c s ih =>
    simp only [List.map_cons, nested, ih, Bool.and_false]

/-- The tokens of a tree are properly nested if the tree is an element that fits. -/
theorem nested_iff {t : Tree} (hl : Lexes t) : nested [] false (xtoks t) = true ↔ IsElement t ∧ Fits t := by
  refine ⟨fun h => ?_, fun h => nested_element h.2 h.1⟩
  have hf := (count_xtoks t hl).2 (by have := nested_count _ _ _ h; simp at this; omega)
  refine ⟨?_, hf⟩
  cases t with
  | element => trivial
  | text s => rw [xtoks, nested_noElement] at h; cases h
  | comment s => simp [xtoks, nested] at h
  | void => exact hf
  | doctype => exact hf

/-! ### Line ends -/

theorem nlAttrs_names (attrs : List (Bytes × Option Bytes)) : (nlAttrs attrs).map (fun a => a.1) = attrs.map fun a => a.1 := by
  simp [nlAttrs]

theorem nlAttrs_valid {attrs : List (Bytes × Option Bytes)} (h : ∀ a ∈ attrs, ValidName a.1) :
    ∀ a ∈ nlAttrs attrs, ValidName a.1 := by
  intro a ha
  obtain ⟨a', h', rfl⟩ := List.mem_map.1 ha
  exact h a' h'

theorem nlAttrs_valued {attrs : List (Bytes × Option Bytes)} : (∀ a ∈ nlAttrs attrs, a.2 ≠ none) ↔ ∀ a ∈ attrs, a.2 ≠ none := by
  unfold nlAttrs
  rw [List.forall_mem_map]
  simp

mutual
theorem named_nl : (b : Bool) → (t : Tree) → Named t → Named (nlTree b t)
  | _, .text _, _ => by rw [nlTree]; trivial
  | _, .comment _, _ => by rw [nlTree]; trivial
  | _, .doctype _, _ => by rw [nlTree]; trivial
  | _, .void _ _, h => by rw [nlTree]; exact ⟨h.1, nlAttrs_valid h.2.1, by rw [nlAttrs_names]; exact h.2.2⟩
  | _, .element _ _ children, h => by
    rw [nlTree]
    exact ⟨h.1, nlAttrs_valid h.2.1, by rw [nlAttrs_names]; exact h.2.2.1, namedAll_nl false children h.2.2.2⟩
theorem namedAll_nl : (b : Bool) → (ts : List Tree) → NamedAll ts → NamedAll (nlTrees b ts)
  | _, [], _ => by rw [nlTrees]; trivial
  | b, t :: ts, h => by rw [nlTrees]; exact ⟨named_nl b t h.1, namedAll_nl _ ts h.2⟩
end

mutual
theorem fits_nl : (b : Bool) → (t : Tree) → (Fits (nlTree b t) ↔ Fits t)
  | _, .text _ => by rw [nlTree]; exact Iff.rfl
  | _, .comment s => by
    rw [nlTree, Fits, Fits, seen_of (nl_noNul false (seen_noNul s)), ← tame_iff, ← tame_iff, tame_nl _ _ _ (by simp)]
  | _, .doctype _ => by rw [nlTree]; exact Iff.rfl
  | _, .void _ _ => by rw [nlTree]; exact Iff.rfl
  | _, .element _ _ children => by
    rw [nlTree, Fits, Fits, nlAttrs_valued, fitsAll_nl false children]
theorem fitsAll_nl : (b : Bool) → (ts : List Tree) → (FitsAll (nlTrees b ts) ↔ FitsAll ts)
  | _, [] => by rw [nlTrees]
  | b, t :: ts => by rw [nlTrees, FitsAll, FitsAll, fits_nl b t, fitsAll_nl _ ts]
end

theorem isElement_nl (b : Bool) (t : Tree) : IsElement (nlTree b t) ↔ IsElement t := by
  cases t <;> (rw [nlTree]; exact Iff.rfl)

mutual
theorem markup_nl : (b : Bool) → (t : Tree) → Fits t → (ts : List Markup.Tok) →
    nlToks b (markup escaped t ++ ts) = markup escaped (nlTree b t) ++ nlToks (flagAfter b t) ts
  | b, .text s, _, ts => by
    rw [markup, nlTree, markup, flagAfter, nlToks_chars, seen_of (nl_noNul b (seen_noNul s))]
  | b, .comment s, _, ts => by
    simp only [markup, nlTree, flagAfter, List.cons_append, List.nil_append, nlToks, newlines_nl, (nl_escaped false s).1]
  | b, .doctype s, h, ts => h.elim
  | b, .void name attrs, h, ts => h.elim
  | b, .element name attrs children, h, ts => by
    have ih := markupAll_nl false children h.2 (.close name :: ts)
    have e : (attrs.map fun a => (a.1, seen (a.2.getD []))).map (fun a => (a.1, newlines a.2)) =
        (nlAttrs attrs).map fun a => (a.1, seen (a.2.getD [])) := by
      simp only [nlAttrs, List.map_map]
      apply List.map_congr_left
      intro a _
      obtain ⟨n, v⟩ := a
      cases v with
      | none => rfl
      | some v =>
        simp only [Function.comp, Option.map_some, Option.getD_some, newlines_nl]
        rw [seen_of (nl_noNul false (seen_noNul v))]
    simp only [markup, nlTree, flagAfter, List.cons_append, List.append_assoc, List.nil_append, nlToks, ih, e]
theorem markupAll_nl : (b : Bool) → (ts : List Tree) → FitsAll ts → (us : List Markup.Tok) →
    nlToks b (markupAll escaped ts ++ us) = markupAll escaped (nlTrees b ts) ++ nlToks (ts.foldl flagAfter b) us
  | b, [], _, us => by simp [markupAll, nlTrees]
  | b, t :: ts, h, us => by
    rw [markupAll, List.append_assoc, markup_nl b t h.1, markupAll_nl _ ts h.2 us, nlTrees, markupAll, List.append_assoc]; rfl
end

/-! ### Items -/

/-- `itemSpaces` for tokens. -/
def tokSpaces : Markup.Tok → Markup.Tok
  | .start n as sc => .start n (as.map fun a => (a.1, spaces a.2)) sc
  | t => t

theorem addText_spaces (c : Bytes) (is : List Item) : (addText c is).map itemSpaces = addText c (is.map itemSpaces) := by
  cases c with
  | nil => rfl
  | cons x c =>
    cases is with
    | nil => rfl
    | cons i is => cases i <;> rfl

theorem items_spaces : (ts : List Markup.Tok) → items (ts.map tokSpaces) = (items ts).map itemSpaces
  | [] => rfl
  | .char c :: ts => by
    simp only [List.map_cons, tokSpaces, items, items_spaces ts, addText_spaces]
  | .start n as sc :: ts => by simp only [List.map_cons, tokSpaces, items, items_spaces ts, itemSpaces]
  | .close n :: ts => by simp only [List.map_cons, tokSpaces, items, items_spaces ts, itemSpaces]
  | .comment d :: ts => by simp only [List.map_cons, tokSpaces, items, items_spaces ts, itemSpaces]
  | .doctype d :: ts => by simp only [List.map_cons, tokSpaces, items, items_spaces ts, itemSpaces]

mutual
theorem plain_xtoks : (t : Tree) → (xtoks t).map Tok.plain = (markup escaped t).map tokSpaces
  | .text s => by simp [xtoks, chars, markup, Tok.plain, tokSpaces]
  | .comment s => rfl
  | .doctype _ => rfl
  | .void n attrs => by simp [xtoks, markup, Tok.plain, tokSpaces, readAttrs]
  | .element n attrs children => by
    simp [xtoks, markup, Tok.plain, tokSpaces, readAttrs, plain_xtoksAll children]
theorem plain_xtoksAll : (ts : List Tree) → (xtoksAll ts).map Tok.plain = (markupAll escaped ts).map tokSpaces
  | [] => rfl
  | t :: ts => by rw [xtoksAll, markupAll, List.map_append, List.map_append, plain_xtoks t, plain_xtoksAll ts]
end

/-- Reading a written tree. -/
theorem reads_write {t : Tree} (hn : Named t) (is : List Item) : Reads (write t) is ↔
    Characters (write t) ∧ IsElement t ∧ Fits t ∧ is = ((items (markup escaped t)).map Item.lines).map itemSpaces := by
  have e : newlines (write t) = write (nlTree false t) := by
    have := nl_write false t hn []
    rw [List.append_nil, ← newlines_nl] at this
    simpa [nl] using this
  have hn' := named_nl false t hn
  have hi : Fits t → ((xtoks (nlTree false t)).map Tok.plain) = (nlToks false (markup escaped t)).map tokSpaces := by
    intro hf
    have := markup_nl false t hf []
    simp only [List.append_nil, nlToks] at this
    rw [plain_xtoks, this]
  have hr : ∀ hf : Fits t, items ((xtoks (nlTree false t)).map Tok.plain) =
      ((items (markup escaped t)).map Item.lines).map itemSpaces := by
    intro hf
    rw [hi hf, items_spaces, items_nl, nlItems_false (linesApart_items _)]
  constructor
  · rintro ⟨hc, ts, h1, h2, rfl⟩
    rw [e] at h1
    by_cases hl : Lexes (nlTree false t)
    · obtain ⟨k, h⟩ := run_write _ hn' hl 0
      have h := h []
      rw [List.append_nil, h1] at h
      have : ts = xtoks (nlTree false t) := by simpa [run] using h
      subst this
      obtain ⟨he, hf⟩ := (nested_iff hl).1 h2
      rw [isElement_nl] at he
      rw [fits_nl] at hf
      exact ⟨hc, he, hf, hr hf⟩
    · have := run_write_none _ hn' hl 0 []
      rw [List.append_nil, h1] at this; cases this
  · rintro ⟨hc, he, hf, rfl⟩
    have hf' := (fits_nl false t).2 hf
    have hl := fits_lexes _ hf'
    obtain ⟨k, h⟩ := run_write _ hn' hl 0
    have h := h []
    rw [List.append_nil] at h
    refine ⟨hc, xtoks (nlTree false t), ?_, (nested_iff hl).2 ⟨(isElement_nl false t).2 he, hf'⟩, (hr hf).symm⟩
    rw [e, h]; simp [run]

/-! ### What is left alone -/

/-- The text of a comment escaped. -/
def tokEscape : Markup.Tok → Markup.Tok
  | .comment d => .comment (escaped d)
  | t => t

/-- The text of a comment escaped. -/
def itemEscape : Item → Item
  | .comment d => .comment (escaped d)
  | i => i

theorem addText_escape (c : Bytes) (is : List Item) : (addText c is).map itemEscape = addText c (is.map itemEscape) := by
  cases c with
  | nil => rfl
  | cons x c =>
    cases is with
    | nil => rfl
    | cons i is => cases i <;> rfl

theorem items_escape : (ts : List Markup.Tok) → items (ts.map tokEscape) = (items ts).map itemEscape
  | [] => rfl
  | .char c :: ts => by simp only [List.map_cons, tokEscape, items, items_escape ts, addText_escape]
  | .start n as sc :: ts => by simp only [List.map_cons, tokEscape, items, items_escape ts, itemEscape]
  | .close n :: ts => by simp only [List.map_cons, tokEscape, items, items_escape ts, itemEscape]
  | .comment d :: ts => by simp only [List.map_cons, tokEscape, items, items_escape ts, itemEscape]
  | .doctype d :: ts => by simp only [List.map_cons, tokEscape, items, items_escape ts, itemEscape]

mutual
theorem markup_escape : (t : Tree) → markup escaped t = (markup seen t).map tokEscape
  | .text s => by simp [markup, tokEscape]
  | .comment s => by simp [markup, tokEscape, escaped_seen]
  | .doctype _ => rfl
  | .void n attrs => by simp [markup, tokEscape]
  | .element n attrs children => by simp [markup, tokEscape, markupAll_escape children]
theorem markupAll_escape : (ts : List Tree) → markupAll escaped ts = (markupAll seen ts).map tokEscape
  | [] => rfl
  | t :: ts => by rw [markupAll, markupAll, List.map_append, markup_escape t, markupAll_escape ts]
end

theorem newlines_id {s : Bytes} : newlines s = s ↔ 13 ∉ s := by
  rw [newlines_nl]
  constructor
  · have key : ∀ b (s : Bytes), 13 ∉ nl b s := by
      intro b s
      induction s generalizing b with
      | nil => simp [nl]
      | cons c s ih =>
        rw [nl]
        split
        · simp [ih]
        · split
          · exact ih _
          · rename_i h _
            simp [ih, Ne.symm h]
    intro h; rw [← h]; exact key _ _
  · intro h
    induction s with
    | nil => rfl
    | cons c s ih =>
      simp only [List.mem_cons, not_or] at h
      rw [nl, if_neg (Ne.symm h.1), if_neg (by simp), ih h.2]

theorem spaces_newlines_id {v : Bytes} : spaces (newlines v) = v ↔ 13 ∉ v ∧ 10 ∉ v ∧ 9 ∉ v := by
  constructor
  · intro h
    have key : ∀ c : UInt8, (if isSpace c then 32 else c) ≠ 13 ∧ (if isSpace c then 32 else c) ≠ 10 ∧
        (if isSpace c then (32 : UInt8) else c) ≠ 9 := forall_byte (by decide +kernel)
    have key2 : ∀ c ∈ v, c ≠ 13 ∧ c ≠ 10 ∧ c ≠ 9 := by
      intro c hc
      rw [← h] at hc
      obtain ⟨d, _, rfl⟩ := List.mem_map.1 hc
      exact key d
    exact ⟨fun h => (key2 _ h).1 rfl, fun h => (key2 _ h).2.1 rfl, fun h => (key2 _ h).2.2 rfl⟩
  · rintro ⟨h1, h2, h3⟩
    rw [newlines_id.2 h1, spaces]
    conv => rhs; rw [← List.map_id' v]
    apply List.map_congr_left
    intro c hc
    by_cases h32 : c = 32
    · subst h32; rfl
    · have : isSpace c = false := by
        have a : c ≠ 13 := fun e => h1 (e ▸ hc)
        have b : c ≠ 10 := fun e => h2 (e ▸ hc)
        have d : c ≠ 9 := fun e => h3 (e ▸ hc)
        simp [isSpace, a, b, d, h32]
      simp [this]

theorem count_escaped (s : Bytes) : (escaped s).count c%';' = s.count c%';' + s.countP special := by
  have key : ∀ c : UInt8, (escapedByte c).count c%';' = (if c = c%';' then 1 else 0) + if special c = true then 1 else 0 :=
    forall_byte (by decide +kernel)
  induction s with
  | nil => rfl
  | cons c s ih =>
    rw [escaped_cons, List.count_append, ih, key, List.count_cons, List.countP_cons]
    simp only [beq_iff_eq]
    omega

theorem count_nl (b : Bool) (s : Bytes) : (nl b s).count c%';' = s.count c%';' ∧ (nl b s).countP special = s.countP special := by
  induction s generalizing b with
  | nil => exact ⟨rfl, rfl⟩
  | cons c s ih =>
    rw [nl]
    split
    · rename_i h
      subst h
      simp [List.countP_cons, ih]
      decide
    · split
      · rename_i h
        obtain ⟨rfl, _⟩ := h
        simp [List.countP_cons, ih]
        decide
      · simp [List.count_cons, List.countP_cons, ih]

theorem simple_iff {d : Bytes} : Markup.Simple d ↔ d.countP special = 0 := by
  have key : ∀ c : UInt8, (c ∉ b%"<>&\"'") ↔ ¬ special c = true := forall_byte (by decide +kernel)
  rw [List.countP_eq_zero]
  exact ⟨fun h c hc => (key c).1 (h c hc), fun h c hc => (key c).2 (h c hc)⟩

theorem escaped_simple {d : Bytes} (h0 : 0 ∉ d) (h : Markup.Simple d) : escaped d = d := by
  have key : ∀ c : UInt8, c ≠ 0 → c ∉ b%"<>&\"'" → escapedByte c = [c] := forall_byte (by decide +kernel)
  induction d with
  | nil => rfl
  | cons c d ih =>
    simp only [List.mem_cons, not_or] at h0
    rw [escaped_cons, key c (Ne.symm h0.1) (h c (.head _)), ih h0.2 fun x hx => h x (.tail _ hx)]; rfl

theorem newlines_escaped_id {d : Bytes} (h0 : 0 ∉ d) : newlines (escaped d) = d ↔ 13 ∉ d ∧ Markup.Simple d := by
  constructor
  · intro h
    have e := (nl_escaped false d).1
    rw [← newlines_nl, h, seen_of h0] at e
    have h1 := congrArg (List.count c%';') e
    rw [count_escaped, (count_nl false d).1, (count_nl false d).2] at h1
    have hs : Markup.Simple d := simple_iff.2 (by omega)
    rw [escaped_simple h0 hs, newlines_id] at h
    exact ⟨h, hs⟩
  · rintro ⟨h1, h2⟩
    rw [escaped_simple h0 h2, newlines_id.2 h1]

/-- What is left alone. -/
theorem unchanged_iff {i : Item} (hc : ∀ d, i = .comment d → 0 ∉ d) (hd : ∀ d, i ≠ .doctype d) :
    itemSpaces (Item.lines (itemEscape i)) = i ↔ Unchanged i := by
  cases i with
  | text s => simp only [itemEscape, Item.lines, itemSpaces, Item.text.injEq, Unchanged, newlines_id]
  | close n => simp [itemEscape, Item.lines, itemSpaces, Unchanged]
  | comment d => simp only [itemEscape, Item.lines, itemSpaces, Item.comment.injEq, Unchanged, newlines_escaped_id (hc d rfl)]
  | doctype d => exact absurd rfl (hd d)
  | start n as sc =>
    simp only [itemEscape, Item.lines, itemSpaces, Item.start.injEq, Unchanged, true_and, and_true, List.map_map]
    have : ∀ as : List (Bytes × Bytes), as.map ((fun a => (a.1, spaces a.2)) ∘ fun a => (a.1, newlines a.2)) = as ↔
        ∀ a ∈ as, spaces (newlines a.2) = a.2 := by
      intro as
      induction as with
      | nil => simp
      | cons a as ih =>
        obtain ⟨x, y⟩ := a
        simp only [List.map_cons, List.cons.injEq, ih, Function.comp, Prod.mk.injEq, true_and, List.forall_mem_cons]
    rw [this]
    exact forall₂_congr fun a _ => spaces_newlines_id

theorem map_id_iff {α} (f : α → α) : (l : List α) → (l.map f = l ↔ ∀ a ∈ l, f a = a)
  | [] => by simp
  | a :: l => by simp [map_id_iff f l]

theorem items_comment {d : Bytes} : (ts : List Markup.Tok) → Item.comment d ∈ items ts → .comment d ∈ ts
  | [], h => by simp [items] at h
  | .char c :: ts, h => .tail _ (items_comment ts (mem_addText (by simp) h))
  | .start .. :: ts, h => by
    simp only [items, List.mem_cons, reduceCtorEq, false_or] at h; exact .tail _ (items_comment ts h)
  | .close _ :: ts, h => by
    simp only [items, List.mem_cons, reduceCtorEq, false_or] at h; exact .tail _ (items_comment ts h)
  | .doctype _ :: ts, h => by
    simp only [items, List.mem_cons, reduceCtorEq, false_or] at h; exact .tail _ (items_comment ts h)
  | .comment e :: ts, h => by
    simp only [items, List.mem_cons, Item.comment.injEq] at h
    rcases h with rfl | h
    · exact .head _
    · exact .tail _ (items_comment ts h)

theorem items_doctype {d : Bytes} : (ts : List Markup.Tok) → Item.doctype d ∈ items ts → .doctype d ∈ ts
  | [], h => by simp [items] at h
  | .char c :: ts, h => .tail _ (items_doctype ts (mem_addText (by simp) h))
  | .start .. :: ts, h => by
    simp only [items, List.mem_cons, reduceCtorEq, false_or] at h; exact .tail _ (items_doctype ts h)
  | .close _ :: ts, h => by
    simp only [items, List.mem_cons, reduceCtorEq, false_or] at h; exact .tail _ (items_doctype ts h)
  | .comment _ :: ts, h => by
    simp only [items, List.mem_cons, reduceCtorEq, false_or] at h; exact .tail _ (items_doctype ts h)
  | .doctype e :: ts, h => by
    simp only [items, List.mem_cons, Item.doctype.injEq] at h
    rcases h with rfl | h
    · exact .head _
    · exact .tail _ (items_doctype ts h)

/-- What is said about the tokens of a tree below. -/
def Fine (A B : List Bytes) : Markup.Tok → Prop
  | .comment d => 0 ∉ d
  | .doctype _ => False
  | .start n as _ => n ∈ A ∧ ∀ a ∈ as, a.1 ∈ B
  | .close n => n ∈ A
  | .char _ => True

mutual
theorem markup_fine {A B : List Bytes} : (t : Tree) → Within A B t → ∀ k ∈ markup seen t, Fine A B k
  | .text s, _, k, h => by
    simp only [markup, List.mem_map] at h
    obtain ⟨c, _, rfl⟩ := h; trivial
  | .comment s, _, k, h => by
    simp only [markup, List.mem_singleton] at h
    subst h; exact seen_noNul s
  | .doctype _, _, k, h => by simp [markup] at h
  | .void n attrs, hw, k, h => by
    simp only [markup, List.mem_singleton] at h
    subst h
    refine ⟨hw.1, fun a ha => ?_⟩
    obtain ⟨b, hb, rfl⟩ := List.mem_map.1 ha
    exact hw.2 b hb
  | .element n attrs children, hw, k, h => by
    simp only [markup, List.cons_append, List.mem_cons, List.mem_append, List.not_mem_nil, or_false] at h
    rcases h with rfl | h | rfl
    · refine ⟨hw.1, fun a ha => ?_⟩
      obtain ⟨b, hb, rfl⟩ := List.mem_map.1 ha
      exact hw.2.1 b hb
    · exact markupAll_fine children hw.2.2 k h
    · exact hw.1
theorem markupAll_fine {A B : List Bytes} : (ts : List Tree) → WithinAll A B ts → ∀ k ∈ markupAll seen ts, Fine A B k
  | [], _, k, h => by simp [markupAll] at h
  | t :: ts, hw, k, h => by
    rw [markupAll, List.mem_append] at h
    rcases h with h | h
    · exact markup_fine t hw.1 k h
    · exact markupAll_fine ts hw.2 k h
end

mutual
/-- The names of a tree. -/
def namesIn : Tree → List Bytes
  | .element n attrs children => n :: attrs.map (·.1) ++ namesInAll children
  | .void n attrs => n :: attrs.map (·.1)
  | _ => []
/-- The same for all. -/
def namesInAll : List Tree → List Bytes
  | [] => []
  | t :: ts => namesIn t ++ namesInAll ts
end

mutual
theorem within_namesIn : (t : Tree) → (A : List Bytes) → (∀ n ∈ namesIn t, n ∈ A) → Within A A t
  | .text _, _, _ => trivial
  | .comment _, _, _ => trivial
  | .doctype _, _, _ => trivial
  | .void n attrs, A, h =>
    ⟨h n (by simp [namesIn]), fun a ha => h _ (by simp only [namesIn, List.mem_cons, List.mem_map]; exact .inr ⟨a, ha, rfl⟩)⟩
  | .element n attrs children, A, h =>
    ⟨h n (by simp [namesIn]), fun a ha => h _ (by
        simp only [namesIn, List.cons_append, List.mem_cons, List.mem_append, List.mem_map]; exact .inr (.inl ⟨a, ha, rfl⟩)),
      within_namesInAll children A fun m hm => h m (by
        simp only [namesIn, List.cons_append, List.mem_cons, List.mem_append]; exact .inr (.inr hm))⟩
theorem within_namesInAll : (ts : List Tree) → (A : List Bytes) → (∀ n ∈ namesInAll ts, n ∈ A) → WithinAll A A ts
  | [], _, _ => trivial
  | t :: ts, A, h => ⟨within_namesIn t A fun n hn => h n (by rw [namesInAll, List.mem_append]; exact .inl hn),
      within_namesInAll ts A fun n hn => h n (by rw [namesInAll, List.mem_append]; exact .inr hn)⟩
end

/-- The reading is what was meant if every item is left alone, and only then. -/
theorem reads_meant (t : Tree) : ((items (markup escaped t)).map Item.lines).map itemSpaces = items (markup seen t) ↔
    ∀ i ∈ items (markup seen t), Unchanged i := by
  have hf := markup_fine t (within_namesIn t _ fun _ h => h)
  rw [markup_escape, items_escape, List.map_map, List.map_map, map_id_iff]
  refine forall₂_congr fun i hi => ?_
  refine unchanged_iff ?_ ?_
  · rintro d rfl; exact hf _ (items_comment _ hi)
  · rintro d rfl; exact (hf _ (items_doctype _ hi)).elim

theorem read_start {n : Bytes} {attrs : List (Bytes × Bytes)} {sc : Bool} : (is : List Item) →
    .start n attrs sc ∈ ((is.map itemEscape).map Item.lines).map itemSpaces →
    ∃ as, .start n as sc ∈ is ∧ ∀ a ∈ attrs, a.1 ∈ as.map (·.1) := by
  intro is h
  simp only [List.map_map, List.mem_map, Function.comp] at h
  obtain ⟨i, hi, h⟩ := h
  cases i <;> simp only [itemEscape, Item.lines, itemSpaces, reduceCtorEq, Item.start.injEq] at h
  obtain ⟨rfl, rfl, rfl⟩ := h
  refine ⟨_, hi, fun a ha => ?_⟩
  simp only [List.map_map, List.mem_map, Function.comp] at ha
  obtain ⟨b, hb, rfl⟩ := ha
  exact List.mem_map.2 ⟨b, hb, rfl⟩

theorem read_close {n : Bytes} : (is : List Item) →
    .close n ∈ ((is.map itemEscape).map Item.lines).map itemSpaces → .close n ∈ is := by
  intro is h
  simp only [List.map_map, List.mem_map, Function.comp] at h
  obtain ⟨i, hi, h⟩ := h
  cases i <;> simp only [itemEscape, Item.lines, itemSpaces, reduceCtorEq, Item.close.injEq] at h
  subst h; exact hi

/-- The names that are read are names of the tree. -/
theorem names_read {A B : List Bytes} {t : Tree} (h : Within A B t) :
    (∀ n attrs sc, .start n attrs sc ∈ ((items (markup escaped t)).map Item.lines).map itemSpaces →
      n ∈ A ∧ ∀ a ∈ attrs, a.1 ∈ B) ∧
    ∀ n, .close n ∈ ((items (markup escaped t)).map Item.lines).map itemSpaces → n ∈ A := by
  rw [markup_escape, items_escape]
  have hf := markup_fine t h
  constructor
  · intro n attrs sc hm
    obtain ⟨as, h1, h2⟩ := read_start _ hm
    obtain ⟨g1, g2⟩ := hf _ (items_start h1)
    refine ⟨g1, fun a ha => ?_⟩
    obtain ⟨b, hb, e⟩ := List.mem_map.1 (h2 a ha)
    rw [← e]; exact g2 b hb
  · intro n hm
    exact hf _ (items_close (read_close _ hm))

/-! ### Characters -/

theorem characters_nil : Characters [] := ⟨[], by simp, rfl⟩

theorem characters_append {v w : Bytes} (hv : Characters v) (hw : Characters w) : Characters (v ++ w) := by
  obtain ⟨cs, hc, rfl⟩ := hv
  obtain ⟨ds, hd, rfl⟩ := hw
  refine ⟨cs ++ ds, fun c h => (List.mem_append.1 h).elim (hc c) (hd c), by simp⟩

/-- The bytes of the characters of ASCII that are allowed. -/
def IsAscii (c : UInt8) : Prop := c = 9 ∨ c = 10 ∨ c = 13 ∨ (32 ≤ c ∧ c < 128)

instance (c : UInt8) : Decidable (IsAscii c) := by unfold IsAscii; infer_instance

instance (c : Char) : Decidable (IsChar c) := by unfold IsChar; infer_instance

theorem isChar_ascii : ∀ i : Fin 128, IsAscii (UInt8.ofNat i.val) → IsChar (Char.ofNat i.val) := by decide +kernel

theorem characters_ascii : (w : Bytes) → (∀ c ∈ w, IsAscii c) → Characters w
  | [], _ => characters_nil
  | c :: w, h => by
    simp only [List.forall_mem_cons] at h
    have h1 : c.toNat < 128 := by
      rcases h.1 with rfl | rfl | rfl | h'
      · decide
      · decide
      · decide
      · exact UInt8.lt_iff_toNat_lt.1 h'.2
    refine characters_append (v := [c]) ⟨[Char.ofNat c.toNat], ?_, ?_⟩ (characters_ascii w h.2)
    · have := isChar_ascii ⟨c.toNat, h1⟩ (by simpa using h.1)
      simpa using this
    · simpa using utf8_ascii_one ⟨c.toNat, h1⟩

theorem isChar_escaped {c : Char} (h : IsChar c) : ∀ d ∈ escapedChar c, IsChar d := by
  unfold escapedChar
  repeat' split
  any_goals decide
  · intro d hd
    rw [List.mem_singleton] at hd; subst hd; exact h

theorem characters_escape {s : Bytes} (h : Characters s) : Characters (escaped s) := by
  obtain ⟨cs, hc, rfl⟩ := h
  refine ⟨cs.flatMap escapedChar, ?_, ?_⟩
  · intro d hd
    obtain ⟨c, h1, h2⟩ := List.mem_flatMap.1 hd
    exact isChar_escaped (hc c h1) d h2
  · rw [← escaped_eq, escape_chars]

theorem characters_seen {s : Bytes} (h : Characters (seen s)) : Characters (escaped s) := by
  rw [← escaped_seen]; exact characters_escape h

theorem characters_name {n : Bytes} (h : ValidName n) : Characters n := by
  obtain ⟨c, cs, rfl, h1, h2⟩ := h
  have key : ∀ c ∈ nameChars, IsAscii c := by decide +kernel
  refine characters_ascii _ fun d hd => ?_
  rcases List.mem_cons.1 hd with rfl | hd
  · exact key _ (letter_nameChar h1)
  · exact key _ (h2 _ hd)

theorem characters_attrs {attrs : List (Bytes × Option Bytes)} (hn : ∀ a ∈ attrs, ValidName a.1)
    (h : ∀ a ∈ attrs, ∀ v, a.2 = some v → Characters (seen v)) : Characters (attrs.flatMap writeAttr) := by
  induction attrs with
  | nil => exact characters_nil
  | cons a attrs ih =>
    rw [List.flatMap_cons]
    refine characters_append ?_ (ih (fun b hb => hn b (.tail _ hb)) fun b hb => h b (.tail _ hb))
    have h1 := hn _ (.head _)
    have h2 := h _ (.head _)
    obtain ⟨a, _ | v⟩ := a
    · exact characters_append (characters_ascii _ (by decide)) (characters_name h1)
    · exact characters_append (characters_append (characters_append (characters_append (characters_ascii _ (by decide))
        (characters_name h1)) (characters_ascii _ (by decide))) (characters_seen (h2 v rfl))) (characters_ascii _ (by decide))

theorem characters_tag {n : Bytes} {attrs : List (Bytes × Option Bytes)} (h0 : ValidName n) (hn : ∀ a ∈ attrs, ValidName a.1)
    (h : ∀ a ∈ attrs, ∀ v, a.2 = some v → Characters (seen v)) : Characters (writeTag n attrs) :=
  characters_append (characters_append (characters_append (characters_ascii _ (by decide)) (characters_name h0))
    (characters_attrs hn h)) (characters_ascii _ (by decide))

mutual
theorem characters_write : (t : Tree) → Named t → CharactersIn t → Characters (write t)
  | .text _, _, h => by rw [write]; exact characters_seen h
  | .comment _, _, h => by
    rw [write]
    exact characters_append (characters_append (characters_ascii _ (by decide)) (characters_seen h)) (characters_ascii _ (by decide))
  | .doctype _, _, h => by
    rw [write]
    exact characters_append (characters_append (characters_ascii _ (by decide)) (characters_seen h)) (characters_ascii _ (by decide))
  | .void _ _, hn, h => by rw [write]; exact characters_tag hn.1 hn.2.1 h
  | .element _ _ children, hn, h => by
    rw [write]
    exact characters_append (characters_append (characters_append (characters_append (characters_tag hn.1 hn.2.1 h.1)
      (characters_writeAll children hn.2.2.2 h.2)) (characters_ascii _ (by decide))) (characters_name hn.1))
      (characters_ascii _ (by decide))
theorem characters_writeAll : (ts : List Tree) → NamedAll ts → CharactersInAll ts → Characters (writeAll ts)
  | [], _, _ => characters_nil
  | t :: ts, hn, h => by
    rw [writeAll]; exact characters_append (characters_write t hn.1 h.1) (characters_writeAll ts hn.2 h.2)
end

/-- The characters of XML are a class of texts. -/
theorem characters_class : TextClass Characters where
  markup := by
    intro m hm
    refine characters_ascii m ?_
    revert m
    decide
  int := by
    intro i
    refine characters_ascii _ ?_
    have key : ∀ n, ∀ c ∈ natDec n, IsAscii c := by
      intro n c hc
      have h := (canonNat_natDec n).1.2.1 c hc
      exact .inr (.inr (.inr ⟨UInt8.le_trans (by decide) h.1, UInt8.lt_of_le_of_lt h.2 (by decide)⟩))
    cases i with
    | ofNat n => exact key n
    | negSucc n =>
      intro c hc
      rcases List.mem_cons.1 hc with rfl | hc
      · decide
      · exact key _ c hc
  escape := by
    intro s h
    rw [escaped_eq]; exact characters_escape h

theorem characters_accepted : (l : List WEvent) → (∀ e ∈ l, e.n = e.data.length) → (∀ e ∈ l, Characters e.data) →
    Characters (accepted l)
  | [], _, _ => characters_nil
  | e :: l, h1, h2 => by
    have h3 := characters_accepted l (fun e h => h1 e (List.mem_cons_of_mem _ h)) fun e h => h2 e (List.mem_cons_of_mem _ h)
    have h4 : accepted (e :: l) = e.data ++ accepted l := by
      simp [accepted, h1 e (List.mem_cons_self ..)]
    rw [h4]
    exact characters_append (h2 e (List.mem_cons_self ..)) h3

/-- An element of a clean template is written as one tree. -/
theorem root_tree {A B : List Bytes} {L : Markup.Syntax} (N : Markup.GoodNames A B) {P : Fns} (S : SafeFns P) {c : Ctx} (hc : SafeCtx c) {ρ : Rule P}
    {name : Bytes} {contents : List Any} {h : Heap} (ht : Clean P A B L ρ false (NewElement name contents h).1) {w : Bytes}
    (ho : Out P c (NewElement name contents h).1 w) :
    ∃ t, w = write t ∧ IsElement t ∧ Within A B t ∧ Markup.Proper t ∧ (L = .xml → Fits t) := by
  obtain ⟨e, dl, he, _⟩ := newElement_eq name contents h
  rw [he] at ht ho
  cases ho with
  | element hw ha =>
  cases ht with
  | element text hh hx h1 h2 =>
    obtain ⟨t, g1, g2, g3, g4, g5, _⟩ := element_tree N hh.name (tagShows_clean S hc hh hw) (tagShows_names hh.wf hw).1 hx
      (outAll_trees N S ha hc h1 h2)
    exact ⟨t, g1, g2, g3, g4, g5⟩

end Aitch.Spec.Xml

import Verif.Spec.Json
import Verif.Proofs.Lines
import Verif.Proofs.Source
/-
Proofs for C92: JSON and line ends, JSON and escaping.
-/
namespace Aitch.Spec.Json
open Markup

theorem Blank.nl {s : Bytes} (h : Blank s) (b : Bool) : Blank (nl b s) := by
  induction s generalizing b with
  | nil => exact h
  | cons c s ih =>
    have hc := h c (.head _)
    have ih := fun b => ih (fun d hd => h d (.tail _ hd)) b
    rw [Markup.nl]
    split
    · intro d hd
      rcases List.mem_cons.1 hd with rfl | hd
      · simp
      · exact ih _ d hd
    · split
      · exact ih _
      · intro d hd
        rcases List.mem_cons.1 hd with rfl | hd
        · exact hc
        · exact ih _ d hd

/-- Bytes that are no white space but for spaces: what values are written with. -/
theorem chars_plain {s : Bytes} (h : Chars s) : ∀ c ∈ s, 0x20 ≤ c := by
  induction h with
  | nil => simp
  | char h1 _ _ _ ih =>
    intro d hd
    rcases List.mem_cons.1 hd with rfl | hd
    · exact h1
    · exact ih d hd
  | escape h1 _ ih =>
    intro d hd
    simp only [List.mem_cons] at hd
    rcases hd with rfl | rfl | hd
    · decide
    · revert h1; exact (by decide : ∀ x ∈ b%"\"\\/bfnrt", (0x20 : UInt8) ≤ x) _
    · exact ih d hd
  | unicode h1 _ ih =>
    intro x hx
    simp only [List.mem_cons] at hx
    have := (by decide : ∀ x ∈ b%"0123456789abcdefABCDEF", (0x20 : UInt8) ≤ x)
    rcases hx with rfl | rfl | rfl | rfl | rfl | rfl | hx
    · decide
    · decide
    · exact this _ (h1 _ (by simp))
    · exact this _ (h1 _ (by simp))
    · exact this _ (h1 _ (by simp))
    · exact this _ (h1 _ (by simp))
    · exact ih _ hx

/-- The bytes of numbers. -/
def numberBytes : Bytes := b%"-+.eE0123456789"

theorem number_bytes {s : Bytes} (h : Number s) : s ≠ [] ∧ ∀ c ∈ s, c ∈ numberBytes := by
  obtain ⟨sign, int, frac, exp, rfl, h1, ⟨⟨hne, h2⟩, -⟩, h3, h4⟩ := h
  have hd : ∀ c ∈ b%"0123456789", c ∈ numberBytes := by decide
  refine ⟨by simp [hne], fun c hc => ?_⟩
  simp only [List.mem_append] at hc
  rcases hc with ((hc | hc) | hc) | hc
  · rcases h1 with rfl | rfl
    · simp at hc
    · revert hc; exact (by decide : ∀ c ∈ b%"-", c ∈ numberBytes) c
  · exact hd c (h2 c hc)
  · rcases h3 with rfl | ⟨ds, h3, rfl⟩
    · simp at hc
    · rcases List.mem_append.1 hc with hc | hc
      · revert hc; exact (by decide : ∀ c ∈ b%".", c ∈ numberBytes) c
      · exact hd c (h3.2 c hc)
  · rcases h4 with rfl | ⟨e, sg, ds, h4, h5, h6, rfl⟩
    · simp at hc
    · rcases List.mem_cons.1 hc with rfl | hc
      · revert h4; exact (by decide : ∀ c ∈ b%"eE", c ∈ numberBytes) c
      · rcases List.mem_append.1 hc with hc | hc
        · rcases h5 with rfl | rfl | rfl
          · simp at hc
          · revert hc; exact (by decide : ∀ c ∈ b%"+", c ∈ numberBytes) c
          · revert hc; exact (by decide : ∀ c ∈ b%"-", c ∈ numberBytes) c
        · exact hd c (h6.2 c hc)

theorem noEnds_of_large {s : Bytes} (h : ∀ c ∈ s, (0x20 : UInt8) ≤ c) : ∀ c ∈ s, c ≠ 13 ∧ c ≠ 10 := by
  intro c hc
  have := h c hc
  constructor <;> rintro rfl <;> revert this <;> decide

theorem noEnds_number {s : Bytes} (h : Number s) : ∀ c ∈ s, c ≠ 13 ∧ c ≠ 10 := fun c hc =>
  (by decide : ∀ c ∈ numberBytes, c ≠ 13 ∧ c ≠ 10) c ((number_bytes h).2 c hc)

theorem noEnds_chars {s : Bytes} (h : Chars s) : ∀ c ∈ s, c ≠ 13 ∧ c ≠ 10 := noEnds_of_large (chars_plain h)

/-- A byte that is no line end within a text. -/
theorem nl_byte {c : UInt8} (h : c ≠ 13 ∧ c ≠ 10) (b : Bool) (s t : Bytes) :
    nl b (s ++ [c] ++ t) = nl b s ++ [c] ++ nl false t := by
  rw [List.append_assoc, nl_append, List.append_assoc, List.append_cancel_left_eq]
  simp [nl, h]

theorem nl_bracket {o c : UInt8} (ho : o ≠ 13 ∧ o ≠ 10) (hc : c ≠ 13 ∧ c ≠ 10) (b : Bool) (s : Bytes) :
    nl b ([o] ++ s ++ [c]) = [o] ++ nl false s ++ [c] ∧ nlAfter b ([o] ++ s ++ [c]) = false := by
  refine ⟨?_, nlAfter_last _ _ hc.1⟩
  have := nl_byte hc b ([o] ++ s) []
  rw [List.append_nil] at this
  rw [this]
  have := nl_byte ho b [] s
  rw [List.nil_append] at this
  rw [this]
  simp [nl]

theorem nl_quoted {k : Bytes} (h : Chars k) (b : Bool) (s t : Bytes) :
    nl b (s ++ b%"\"" ++ k ++ b%"\"" ++ t) = nl b s ++ b%"\"" ++ k ++ b%"\"" ++ nl false t := by
  have e : s ++ b%"\"" ++ k ++ b%"\"" ++ t = s ++ [c%'"'] ++ (k ++ [c%'"'] ++ t) := by simp [List.append_assoc]
  rw [e, nl_byte (by decide), nl_byte (by decide), nl_plain _ (noEnds_chars h)]
  simp [List.append_assoc]

mutual
theorem Val.lines : {v : Json} → {s : Bytes} → Val v s → (b : Bool) → Val v (nl b s) ∧ nlAfter b s = false
  | _, _, .null, b => by cases b <;> exact ⟨.null, rfl⟩
  | _, _, .true, b => by cases b <;> exact ⟨.true, rfl⟩
  | _, _, .false, b => by cases b <;> exact ⟨.false, rfl⟩
  | _, _, .number h, b => by
    have hp := noEnds_number h
    rw [nl_plain b hp]
    exact ⟨.number h, nlAfter_plain (number_bytes h).1 hp b⟩
  | _, _, .string h, b => by
    obtain ⟨h1, h2⟩ := nl_bracket (o := c%'"') (c := c%'"') (by decide) (by decide) b _
    rw [nl_plain false (noEnds_chars h)] at h1
    exact ⟨h1.symm ▸ Val.string h, h2⟩
  | _, _, .noElements h, b => by
    obtain ⟨h1, h2⟩ := nl_bracket (o := c%'[') (c := c%']') (by decide) (by decide) b _
    exact ⟨h1.symm ▸ Val.noElements (h.nl _), h2⟩
  | _, _, .array h, b => by
    obtain ⟨h1, h2⟩ := nl_bracket (o := c%'[') (c := c%']') (by decide) (by decide) b _
    exact ⟨h1.symm ▸ Val.array (Elements.lines h false), h2⟩
  | _, _, .noMembers h, b => by
    obtain ⟨h1, h2⟩ := nl_bracket (o := c%'{') (c := c%'}') (by decide) (by decide) b _
    exact ⟨h1.symm ▸ Val.noMembers (h.nl _), h2⟩
  | _, _, .object h, b => by
    obtain ⟨h1, h2⟩ := nl_bracket (o := c%'{') (c := c%'}') (by decide) (by decide) b _
    exact ⟨h1.symm ▸ Val.object (Members.lines h false), h2⟩
theorem Elements.lines : {vs : List Json} → {s : Bytes} → Elements vs s → (b : Bool) → Elements vs (nl b s)
  | _, _, .one (a := a) h1 h2 h3, b => by
    rw [nl_append, nl_append]
    exact .one (h1.nl _) (Val.lines h2 _).1 (h3.nl _)
  | _, _, .more (a := a) (s := s) h1 h2 h3 h4, b => by
    rw [show b%"," = [c%','] from rfl, nl_byte (by decide), nl_append, nl_append]
    exact .more (h1.nl _) (Val.lines h2 _).1 (h3.nl _) (Elements.lines h4 _)
theorem Members.lines : {ms : List (Bytes × Json)} → {s : Bytes} → Members ms s → (b : Bool) → Members ms (nl b s)
  | _, _, .one h1 h2 h3 h4 h5 h6, x => by
    rw [nl_append, nl_append, nl_append, nl_append, nl_append, nl_append, nl_append, nl_append, nl_plain _ (noEnds_chars h2),
      nl_plain _ (s := b%"\"") (by decide), nl_plain _ (s := b%"\"") (by decide), nl_plain _ (s := b%":") (by decide)]
    exact .one (h1.nl _) h2 (h3.nl _) (h4.nl _) (Val.lines h5 _).1 (h6.nl _)
  | _, _, .more h1 h2 h3 h4 h5 h6 h7, x => by
    rw [nl_append, nl_append, nl_append, nl_append, nl_append, nl_append, nl_append, nl_append, nl_append, nl_append,
      nl_plain _ (noEnds_chars h2), nl_plain _ (s := b%"\"") (by decide), nl_plain _ (s := b%"\"") (by decide),
      nl_plain _ (s := b%":") (by decide), nl_plain _ (s := b%",") (by decide)]
    exact .more (h1.nl _) h2 (h3.nl _) (h4.nl _) (Val.lines h5 _).1 (h6.nl _) (Members.lines h7 _)
end

/-- Normalising line ends leaves JSON alone. -/
theorem Says.lines {v : Json} {t : Bytes} (h : Says v t) : Says v (newlines t) := by
  obtain ⟨a, s, b, rfl, h1, h2, h3⟩ := h
  rw [newlines_nl, nl_append, nl_append]
  exact ⟨_, _, _, rfl, h1.nl _, (Val.lines h2 _).1, h3.nl _⟩

/-! ### The bytes of JSON -/

/-- The bytes of JSON outside of strings. -/
def outside : Bytes := [32, 9, 10, 13] ++ numberBytes ++ b%"truefalsn[]{},:"

/-- A property of texts that holds of JSON because it holds of strings in quotes and of everything outside of them. -/
structure Closed (Q : Bytes → Prop) : Prop where
  append : ∀ {s t}, Q s → Q t → Q (s ++ t)
  outer : ∀ {s}, (∀ c ∈ s, c ∈ outside) → Q s
  quoted : ∀ {s}, Chars s → Q (b%"\"" ++ s ++ b%"\"")

theorem Closed.blank {Q : Bytes → Prop} (H : Closed Q) {s : Bytes} (h : Blank s) : Q s :=
  H.outer fun c hc => (by decide : ∀ c ∈ [32, 9, 10, 13], c ∈ outside) c (h c hc)

mutual
theorem Val.all {Q : Bytes → Prop} (H : Closed Q) : {v : Json} → {s : Bytes} → Val v s → Q s
  | _, _, .null => H.outer (by decide)
  | _, _, .true => H.outer (by decide)
  | _, _, .false => H.outer (by decide)
  | _, _, .number h => H.outer fun c hc => (by decide : ∀ c ∈ numberBytes, c ∈ outside) c ((number_bytes h).2 c hc)
  | _, _, .string h => H.quoted h
  | _, _, .noElements h => H.append (H.append (H.outer (by decide)) (H.blank h)) (H.outer (by decide))
  | _, _, .array h => H.append (H.append (H.outer (by decide)) (Elements.all H h)) (H.outer (by decide))
  | _, _, .noMembers h => H.append (H.append (H.outer (by decide)) (H.blank h)) (H.outer (by decide))
  | _, _, .object h => H.append (H.append (H.outer (by decide)) (Members.all H h)) (H.outer (by decide))
theorem Elements.all {Q : Bytes → Prop} (H : Closed Q) : {vs : List Json} → {s : Bytes} → Elements vs s → Q s
  | _, _, .one h1 h2 h3 => H.append (H.append (H.blank h1) (Val.all H h2)) (H.blank h3)
  | _, _, .more h1 h2 h3 h4 => H.append (H.append (H.append (H.append (H.blank h1) (Val.all H h2)) (H.blank h3))
      (H.outer (by decide))) (Elements.all H h4)
theorem Members.all {Q : Bytes → Prop} (H : Closed Q) : {ms : List (Bytes × Json)} → {s : Bytes} → Members ms s → Q s
  | _, _, .one (a := a) (k := k) h1 h2 h3 h4 h5 h6 => by
    rw [show a ++ b%"\"" ++ k ++ b%"\"" = a ++ (b%"\"" ++ k ++ b%"\"") by simp]
    exact H.append (H.append (H.append (H.append (H.append (H.append (H.blank h1) (H.quoted h2)) (H.blank h3))
      (H.outer (by decide))) (H.blank h4)) (Val.all H h5)) (H.blank h6)
  | _, _, .more (a := a) (k := k) h1 h2 h3 h4 h5 h6 h7 => by
    rw [show a ++ b%"\"" ++ k ++ b%"\"" = a ++ (b%"\"" ++ k ++ b%"\"") by simp]
    exact H.append (H.append (H.append (H.append (H.append (H.append (H.append (H.append (H.blank h1) (H.quoted h2))
      (H.blank h3)) (H.outer (by decide))) (H.blank h4)) (Val.all H h5)) (H.blank h6)) (H.outer (by decide)))
      (Members.all H h7)
end

theorem Says.all {Q : Bytes → Prop} (H : Closed Q) {v : Json} {t : Bytes} (h : Says v t) : Q t := by
  obtain ⟨a, s, b, rfl, h1, h2, h3⟩ := h
  exact H.append (H.append (H.blank h1) (Val.all H h2)) (H.blank h3)

/-- JSON has no NUL bytes. -/
theorem Says.noNul {v : Json} {t : Bytes} (h : Says v t) : 0 ∉ t := by
  refine Says.all (Q := fun t => 0 ∉ t) ⟨fun h1 h2 h => ?_, fun h h0 => ?_, fun h h0 => ?_⟩ h
  · rcases List.mem_append.1 h with h | h
    · exact h1 h
    · exact h2 h
  · exact absurd (h 0 h0) (by decide)
  · simp only [List.mem_append, List.mem_cons, List.not_mem_nil, or_false] at h0
    rcases h0 with (h0 | h0) | h0
    · exact absurd h0 (by decide)
    · exact absurd (chars_plain h 0 h0) (by decide)
    · exact absurd h0 (by decide)

/-- JSON without quotes has no strings. -/
theorem Says.outside {v : Json} {t : Bytes} (h : Says v t) (hq : c%'"' ∉ t) : ∀ c ∈ t, c ∈ outside := by
  have := Says.all (Q := fun t => c%'"' ∈ t ∨ ∀ c ∈ t, c ∈ Json.outside) ⟨?_, fun h => .inr h, fun h => .inl (by simp)⟩ h
  · exact this.resolve_left hq
  · rintro s t (h1 | h1) (h2 | h2)
    · exact .inl (List.mem_append_left _ h1)
    · exact .inl (List.mem_append_left _ h1)
    · exact .inl (List.mem_append_right _ h2)
    · refine .inr fun c hc => ?_
      rcases List.mem_append.1 hc with h | h
      · exact h1 c h
      · exact h2 c h

end Aitch.Spec.Json

namespace Aitch.Spec.Json
open Markup

/-- What can follow the brace of a JSON object. -/
theorem Says.afterBrace {v : Json} {c : UInt8} {r : Bytes} (h : Says v (c%'{' :: c :: r)) :
    c ∈ [32, 9, 10, 13] ++ b%"\"}" := by
  obtain ⟨a, s, b, h, h1, h2, h3⟩ := h
  cases a with
  | cons x a =>
    simp only [List.cons_append, List.cons.injEq] at h
    exact absurd (h1 x (.head _)) (by rw [← h.1]; decide)
  | nil =>
    rw [List.nil_append] at h
    have blank : ∀ {u y : UInt8} {ys t : Bytes}, c :: r = ys ++ y :: t → Blank ys → y = u → c ∈ [32, 9, 10, 13] ∨ c = u := by
      intro u y ys t he hy hu
      cases ys with
      | nil => simp only [List.nil_append, List.cons.injEq] at he; exact .inr (he.1.trans hu)
      | cons z ys => simp only [List.cons_append, List.cons.injEq] at he; exact .inl (he.1 ▸ hy z (.head _))
    cases h2 with
    | null => simp at h
    | true => simp at h
    | false => simp at h
    | number h2 =>
      obtain ⟨hne, hb⟩ := number_bytes h2
      cases s with
      | nil => exact absurd rfl hne
      | cons x s =>
        simp only [List.cons_append, List.cons.injEq] at h
        exact absurd (hb x (.head _)) (by rw [← h.1]; decide)
    | string h2 => simp at h
    | noElements h2 => simp at h
    | array h2 => simp at h
    | noMembers h2 =>
      simp only [List.cons_append, List.nil_append, List.append_assoc, List.cons.injEq, true_and] at h
      rcases blank h h2 rfl with h | h
      · exact List.mem_append_left _ h
      · rw [h]; simp
    | object h2 =>
      simp only [List.cons_append, List.nil_append, List.append_assoc, List.cons.injEq, true_and] at h
      cases h2 with
      | one g1 g2 g3 g4 g5 g6 =>
        simp only [List.cons_append, List.nil_append, List.append_assoc] at h
        rcases blank h g1 rfl with h | h
        · exact List.mem_append_left _ h
        · rw [h]; simp
      | more g1 g2 g3 g4 g5 g6 g7 =>
        simp only [List.cons_append, List.nil_append, List.append_assoc] at h
        rcases blank h g1 rfl with h | h
        · exact List.mem_append_left _ h
        · rw [h]; simp

theorem escaped_noQuote (s : Bytes) : c%'"' ∉ escaped s := by
  intro h
  obtain ⟨c, -, hc⟩ := List.mem_flatMap.1 h
  unfold escapedByte at hc
  repeat' split at hc
  all_goals simp at hc
  rename_i h1 _ _ _ _ _
  exact h1 hc.symm

theorem escaped_amp {s : Bytes} (h : c%'&' ∉ escaped s) : Simple s := by
  intro c hc hm
  refine h (List.mem_flatMap.2 ⟨c, hc, ?_⟩)
  revert hm
  exact (by decide : ∀ c ∈ b%"<>&\"'", c%'&' ∈ escapedByte c) c

/-- The escaped form of a text is JSON just if there is nothing to escape (but NUL bytes). -/
theorem says_escaped (v : Json) (s : Bytes) : Says v (escaped s) ↔ Simple s ∧ Says v (seen s) := by
  constructor
  · intro h
    have h1 : Simple s := escaped_amp fun ha =>
      absurd (h.outside (escaped_noQuote s) _ ha) (by decide)
    exact ⟨h1, escaped_simple h1 ▸ h⟩
  · rintro ⟨h1, h2⟩
    exact (escaped_simple h1).symm ▸ h2

end Aitch.Spec.Json

namespace Aitch.Spec.Markup

theorem start_addText {n : Bytes} {as : List (Bytes × Bytes)} {sc : Bool} {s : Bytes} {is : List Item} :
    Item.start n as sc ∈ addText s is ↔ Item.start n as sc ∈ is := by
  unfold addText
  split
  · rfl
  · simp
  · simp

theorem start_items {n : Bytes} {as : List (Bytes × Bytes)} {sc : Bool} : (ts : List Tok) →
    (Item.start n as sc ∈ items ts ↔ Tok.start n as sc ∈ ts)
  | [] => by simp [items]
  | .char c :: ts => by simp [items, start_addText, start_items ts]
  | .start .. :: ts => by simp [items, start_items ts]
  | .close .. :: ts => by simp [items, start_items ts]
  | .comment .. :: ts => by simp [items, start_items ts]
  | .doctype .. :: ts => by simp [items, start_items ts]

mutual
theorem start_meant {n : Bytes} {as : List (Bytes × Bytes)} {sc : Bool} (raw : Bool) : (t : Tree) →
    (Tok.start n as sc ∈ toks raw t ↔ Tok.start n as sc ∈ meant t)
  | .element name attrs children => by simp [toks, meant, start_meantAll _ children]
  | .void .. => by simp [toks, meant]
  | .text s => by simp [toks, meant]
  | .comment s => by simp [toks, meant]
  | .doctype s => by simp [toks, meant]
theorem start_meantAll {n : Bytes} {as : List (Bytes × Bytes)} {sc : Bool} (raw : Bool) : (ts : List Tree) →
    (Tok.start n as sc ∈ toksAll raw ts ↔ Tok.start n as sc ∈ meantAll ts)
  | [] => by simp [toksAll, meantAll]
  | t :: ts => by simp [toksAll, meantAll, start_meant raw t, start_meantAll raw ts]
end

end Aitch.Spec.Markup

import Verif.Spec.Nesting
import Verif.Proofs.Element
/-
The pieces that a sequence of calls on an ImperativeContext writes.
-/
namespace Aitch
open Spec

theorem nested_append {a b : List Piece} (ha : Nested a) (hb : Nested b) : Nested (a ++ b) := by
  induction ha with
  | nil => exact hb
  | other _ ih => exact .other ih
  | void _ ih => exact .void ih
  | element h1 _ _ ih =>
    rw [List.append_assoc]
    exact .element h1 ih

/-- Pieces that close the open elements `st`, with nested pieces in between, and are nested after that. -/
inductive Closing : List Bytes → List Piece → Prop
  | nil {l} : Nested l → Closing [] l
  | cons {n st l l'} : Nested l → Closing st l' → Closing (n :: st) (l ++ .close n :: l')

theorem Closing.pre {st : List Bytes} {l p : List Piece} (hp : Nested p) (h : Closing st l) : Closing st (p ++ l) := by
  cases h with
  | nil h => exact .nil (nested_append hp h)
  | cons h1 h2 => rw [← List.append_assoc]; exact .cons (nested_append hp h1) h2

theorem Closing.open {n b : Bytes} {st : List Bytes} {l : List Piece} (h : Closing (n :: st) l) :
    Closing st (.tag n false b :: l) := by
  cases h with
  | cons h1 h2 =>
    cases h2 with
    | nil h2 => exact .nil (.element h1 h2)
    | @cons m _ _ _ h2 h3 =>
      have := Closing.cons (n := m) (Nested.element (n := n) (b := b) h1 h2) h3
      simpa using this

/-- The pieces of calls that end with nothing open. -/
theorem pieces {P : Fns} (F : BuiltFns P) {c : Ctx} (he : c.frame.err = none) {ops : List ImpOp}
    (hb : ∀ ns n, .writeNodes ns ∈ ops → some n ∈ ns → Built n) {st : List Bytes} {w : Bytes} (h : OutOps P c ops st w)
    (ho : openAfter ops st = []) :
    ∃ ps : List Piece, Closing st ps ∧ w = ps.flatMap Piece.bytes ∧
      Each (CallWrites P c) (ops.filter fun o => !isEnd o) (ps.filter fun p => !p.isClose) := by
  induction ops generalizing st w with
  | nil =>
    cases h
    simp [openAfter] at ho; subst ho
    exact ⟨[], .nil .nil, rfl, .nil⟩
  | cons op ops ih =>
    replace ih := @ih fun ns n h => hb ns n (.tail _ h)
    cases h with
    | writeString h =>
      rename_i d w
      obtain ⟨ps, h1, h2, h3⟩ := ih h ho
      exact ⟨.other (htmlEscapeString d) :: ps, h1.pre (.other .nil), by simp [Piece.bytes, h2], .cons (.writeString d) h3⟩
    | writeRaw h =>
      rename_i d w
      obtain ⟨ps, h1, h2, h3⟩ := ih h ho
      exact ⟨.other d :: ps, h1.pre (.other .nil), by simp [Piece.bytes, h2], .cons (.writeRaw d) h3⟩
    | writeNodes ha h =>
      rename_i ns w w'
      obtain ⟨ps, h1, h2, h3⟩ := ih h ho
      refine ⟨.other w :: ps, h1.pre (.other .nil), by simp [Piece.bytes, h2], .cons (.writeNodes ns w ?_) h3⟩
      refine (rendersAll_iff F he fun n hn => hb ns n (.head _) ?_).2 ha
      have := nonAttrs_mem hn
      simpa using this
    | startVoid h =>
      obtain ⟨ps, h1, h2, h3⟩ := ih h ho
      exact ⟨.tag _ true _ :: ps, h1.pre (.void .nil), by rw [h2]; rfl, .cons (.start _ _ _ _) h3⟩
    | start h =>
      obtain ⟨ps, h1, h2, h3⟩ := ih h ho
      exact ⟨.tag _ false _ :: ps, h1.open, by rw [h2]; rfl, .cons (.start _ _ _ _) h3⟩
    | endNone h => exact ih h ho
    | endSome h =>
      obtain ⟨ps, h1, h2, h3⟩ := ih h ho
      exact ⟨.close _ :: ps, .cons .nil h1, by simp [Piece.bytes, h2, endBytes], h3⟩
    | endAll h =>
      obtain ⟨ps, h1, h2, h3⟩ := ih h ho
      refine ⟨st.map .close ++ ps, ?_, ?_, ?_⟩
      · cases h1 with
        | nil h1 =>
          clear ih h ho h2 h3
          induction st with
          | nil => exact .nil h1
          | cons n st ih => exact .cons .nil ih
      · rw [h2]
        rw [List.flatMap_append, List.flatMap_map]
        rfl
      · have : (st.map Piece.close ++ ps).filter (fun p => !p.isClose) = ps.filter fun p => !p.isClose := by
          have h0 : (st.map Piece.close).filter (fun p => !p.isClose) = [] := by
            rw [List.filter_eq_nil_iff]
            intro p hp
            obtain ⟨n, -, rfl⟩ := List.mem_map.1 hp
            simp [Piece.isClose]
          rw [List.filter_append, h0, List.nil_append]
        rw [this]
        exact h3

/-- Calls in two parts. -/
theorem outOps_append {P : Fns} {c : Ctx} {ops ops' : List ImpOp} {st : List Bytes} {w : Bytes} :
    OutOps P c (ops ++ ops') st w ↔
      ∃ w₁ w₂, OutOps P c ops st w₁ ∧ OutOps P c ops' (openAfter ops st) w₂ ∧ w = w₁ ++ w₂ := by
  induction ops generalizing st w with
  | nil =>
    constructor
    · intro h; exact ⟨[], w, .nil, h, rfl⟩
    · rintro ⟨w₁, w₂, h1, h2, rfl⟩
      cases h1
      exact h2
  | cons op ops ih =>
    constructor
    · intro h
      cases h with
      | writeString h => obtain ⟨a, b, h1, h2, rfl⟩ := ih.1 h; exact ⟨_, b, .writeString h1, h2, by simp⟩
      | writeRaw h => obtain ⟨a, b, h1, h2, rfl⟩ := ih.1 h; exact ⟨_, b, .writeRaw h1, h2, by simp⟩
      | writeNodes ha h => obtain ⟨a, b, h1, h2, rfl⟩ := ih.1 h; exact ⟨_, b, .writeNodes ha h1, h2, by simp⟩
      | startVoid h => obtain ⟨a, b, h1, h2, rfl⟩ := ih.1 h; exact ⟨_, b, .startVoid h1, h2, by simp⟩
      | start h => obtain ⟨a, b, h1, h2, rfl⟩ := ih.1 h; exact ⟨_, b, .start h1, h2, by simp⟩
      | endNone h => obtain ⟨a, b, h1, h2, rfl⟩ := ih.1 h; exact ⟨_, b, .endNone h1, h2, by simp⟩
      | endSome h => obtain ⟨a, b, h1, h2, rfl⟩ := ih.1 h; exact ⟨_, b, .endSome h1, h2, by simp⟩
      | endAll h => obtain ⟨a, b, h1, h2, rfl⟩ := ih.1 h; exact ⟨_, b, .endAll h1, h2, by simp⟩
    · rintro ⟨w₁, w₂, h1, h2, rfl⟩
      cases h1 with
      | writeString h => rw [List.append_assoc]; exact .writeString (ih.2 ⟨_, _, h, h2, rfl⟩)
      | writeRaw h => rw [List.append_assoc]; exact .writeRaw (ih.2 ⟨_, _, h, h2, rfl⟩)
      | writeNodes ha h => rw [List.append_assoc]; exact .writeNodes ha (ih.2 ⟨_, _, h, h2, rfl⟩)
      | startVoid h => rw [List.append_assoc]; exact .startVoid (ih.2 ⟨_, _, h, h2, rfl⟩)
      | start h => rw [List.append_assoc]; exact .start (ih.2 ⟨_, _, h, h2, rfl⟩)
      | endNone h => exact .endNone (ih.2 ⟨_, _, h, h2, rfl⟩)
      | endSome h => rw [List.append_assoc]; exact .endSome (ih.2 ⟨_, _, h, h2, rfl⟩)
      | endAll h => rw [List.append_assoc]; exact .endAll (ih.2 ⟨_, _, h, h2, rfl⟩)

theorem openAfter_append (ops ops' : List ImpOp) (st : List Bytes) :
    openAfter (ops ++ ops') st = openAfter ops' (openAfter ops st) := by
  induction ops generalizing st with
  | nil => rfl
  | cons op ops ih =>
    cases op with
    | start n v as => cases v <;> exact ih _
    | _ => exact ih _

end Aitch

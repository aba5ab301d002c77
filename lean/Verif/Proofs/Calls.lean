import Verif.Spec.Calls
import Verif.Proofs.Nesting
import Verif.Proofs.Start
import Verif.Proofs.Format
/-
The output of calls on an ImperativeContext, call by call.
-/
namespace Aitch
open Spec

/-- The last call of a sequence. -/
theorem outOps_last {P : Fns} (F : BuiltFns P) {c : Ctx} (he : c.frame.err = none) {ops : List ImpOp} {op : ImpOp}
    (hb : ∀ ns n, op = .writeNodes ns → some n ∈ ns → Built n) {w : Bytes} :
    OutOps P c (ops ++ [op]) [] w ↔ ∃ w₁ w₂, OutOps P c ops [] w₁ ∧ CallSays P c ops op w₂ ∧ w = w₁ ++ w₂ := by
  rw [outOps_append]
  refine exists_congr fun w₁ => exists_congr fun w₂ => and_congr_right fun _ => and_congr_left fun _ => ?_
  unfold CallSays
  generalize openAfter ops [] = st
  constructor
  · intro h
    cases h with
    | writeString h => cases h; simp [escaped_eq]
    | writeRaw h => cases h; simp
    | @writeNodes _ ns _ _ _ _ ha h =>
      cases h
      rw [List.append_nil]
      refine (rendersAll_iff F he fun n hn => ?_).2 ha
      exact hb ns n rfl (by simpa using (List.mem_filter.1 hn).1)
    | startVoid h => cases h; rw [startCollect_shows]; simp
    | start h => cases h; rw [startCollect_shows]; simp
    | endNone h => cases h; rfl
    | endSome h => cases h; simp [endBytes]
    | endAll h => cases h; simp; rfl
  · intro h
    cases op with
    | writeString d =>
      simp only at h
      subst h
      have := OutOps.writeString (P := P) (c := c) (d := d) (stack := st) .nil
      rwa [List.append_nil, escaped_eq] at this
    | writeRaw d =>
      simp only at h
      subst h
      have := OutOps.writeRaw (P := P) (c := c) (d := w₂) (stack := st) .nil
      rwa [List.append_nil] at this
    | writeNodes ns =>
      simp only at h
      have := OutOps.writeNodes (P := P) (c := c) (stack := st) ((rendersAll_iff F he fun n hn => 
        hb ns n rfl (by simpa using (List.mem_filter.1 hn).1)).1 h) .nil
      rwa [List.append_nil] at this
    | start n v attrs =>
      simp only at h
      subst h
      rw [← startCollect_shows]
      cases v with
      | true =>
        have := OutOps.startVoid (P := P) (c := c) (n := n) (attrs := attrs) (stack := st) .nil
        simpa using this
      | false =>
        have := OutOps.start (P := P) (c := c) (n := n) (attrs := attrs) (stack := st) .nil
        simpa using this
    | «end» =>
      simp only at h
      subst h
      cases st with
      | nil => exact .endNone .nil
      | cons n st =>
        have := OutOps.endSome (P := P) (c := c) (n := n) (stack := st) .nil
        simpa [endBytes] using this
    | endAll =>
      simp only at h
      subst h
      have := OutOps.endAll (P := P) (c := c) (stack := st) .nil
      rwa [List.append_nil] at this

/-- All calls of a sequence. -/
theorem outOps_calls {P : Fns} (F : BuiltFns P) {c : Ctx} (he : c.frame.err = none) {ops : List ImpOp}
    (hb : ∀ ns n, .writeNodes ns ∈ ops → some n ∈ ns → Built n) {w : Bytes} :
    OutOps P c ops [] w ↔ ∃ ws : List Bytes, ws.length = ops.length ∧
      (∀ i op p, ops[i]? = some op → ws[i]? = some p → CallSays P c (ops.take i) op p) ∧ w = ws.flatten := by
  induction hl : ops.length generalizing ops w with
  | zero =>
    have := List.length_eq_zero_iff.1 hl
    subst this
    constructor
    · intro h; cases h; exact ⟨[], rfl, by simp, rfl⟩
    · rintro ⟨ws, h1, -, rfl⟩
      have := List.length_eq_zero_iff.1 h1
      subst this
      exact .nil
  | succ k ih =>
    have hne : ops ≠ [] := by rintro rfl; cases hl
    obtain ⟨pre, op, rfl⟩ : ∃ pre op, ops = pre ++ [op] := ⟨_, _, (List.dropLast_concat_getLast hne).symm⟩
    have hk : pre.length = k := by simpa using hl
    rw [outOps_last F he fun ns n h hn => hb ns n (by simp [h]) hn]
    replace ih := fun w => ih (ops := pre) (w := w) (fun ns n h => hb ns n (List.mem_append_left _ h)) hk
    constructor
    · rintro ⟨w₁, w₂, h1, h2, rfl⟩
      obtain ⟨ws, g1, g2, rfl⟩ := (ih _).1 h1
      refine ⟨ws ++ [w₂], by simp [g1], ?_, by simp⟩
      intro i o p ho hp
      by_cases hi : i < pre.length
      · rw [List.getElem?_append_left hi] at ho
        rw [List.getElem?_append_left (by omega)] at hp
        rw [List.take_append_of_le_length (by omega)]
        exact g2 i o p ho hp
      · have hi' : i = pre.length := by
          have := (List.getElem?_eq_some_iff.1 ho).1
          simp at this; omega
        subst hi'
        rw [List.getElem?_append_right (by omega)] at ho
        rw [List.getElem?_append_right (by omega)] at hp
        have e1 : pre.length - ws.length = 0 := by omega
        simp [e1] at ho hp
        subst ho; subst hp
        simpa using h2
    · rintro ⟨ws, g1, g2, rfl⟩
      have hne' : ws ≠ [] := by rintro rfl; cases g1
      obtain ⟨us, u, rfl⟩ : ∃ us u, ws = us ++ [u] := ⟨_, _, (List.dropLast_concat_getLast hne').symm⟩
      have hu : us.length = k := by simpa using g1
      refine ⟨us.flatten, u, (ih _).2 ⟨us, hu, ?_, rfl⟩, ?_, by simp⟩
      · intro i o p ho hp
        have hi := (List.getElem?_eq_some_iff.1 ho).1
        have := g2 i o p (by rw [List.getElem?_append_left hi]; exact ho) (by rw [List.getElem?_append_left (by omega)]; exact hp)
        rwa [List.take_append_of_le_length (by omega)] at this
      · have := g2 pre.length op u (by simp) (by rw [hk, ← hu]; simp)
        simpa using this

end Aitch

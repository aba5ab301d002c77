import Verif.Spec.Slice
/-
Lemmas about slices.
-/
namespace Aitch
open Spec

variable {α : Type}

theorem splice_length {l : List α} {i : Nat} {xs : List α} (h : i + xs.length ≤ l.length) :
    (splice l i xs).length = l.length := by
  simp only [splice, List.length_append, List.length_take, List.length_drop]; omega

theorem take_splice {l : List α} {i : Nat} {xs : List α} (h : i ≤ l.length) : (splice l i xs).take i = l.take i := by
  simp only [splice, List.append_assoc]
  rw [List.take_append_of_le_length (by simp; omega), List.take_take, Nat.min_self]

theorem read_alloc {m : Arrays α} {xs : List α} {s : Slice} (h : s.arr ≠ m.next) : (m.alloc xs).read s = m.read s := by
  simp [Arrays.read, Arrays.alloc, h]

theorem read_zero {m : Arrays α} {s : Slice} (h : s.len = 0) : m.read s = [] := by simp [Arrays.read, h]

theorem read_alloc_in {m : Arrays α} {xs : List α} {s : Slice} (h : InMemory m s) : (m.alloc xs).read s = m.read s := by
  rcases h with ⟨h1, h2 | ⟨h2, h3⟩⟩
  · rw [read_zero (by omega), read_zero (by omega)]
  · exact read_alloc (by omega)

theorem read_length {m : Arrays α} {s : Slice} (h : InMemory m s) : (m.read s).length = s.len := by
  rcases h with ⟨h1, h2 | ⟨h2, h3⟩⟩
  · simp [read_zero (m := m) (s := s) (by omega)]; omega
  · simp only [Arrays.read, List.length_take, List.length_drop]; omega

/-- What `append` returns: the old elements followed by the new ones. -/
theorem append_read (grow : Slice → Nat → Nat) (zero : α) {s : Slice} (xs : List α) {m : Arrays α} (h : InMemory m s) :
    (append grow zero s xs m).2.read (append grow zero s xs m).1 = m.read s ++ xs := by
  unfold append
  by_cases hx : xs = []
  · simp [hx]
  rw [if_neg hx]
  have hpos : 0 < xs.length := List.length_pos_iff.2 hx
  by_cases hc : s.len + xs.length ≤ s.cap
  · rw [if_pos hc]
    rcases h with ⟨h1, h2 | ⟨h2, h3⟩⟩
    · omega
    · simp only [Arrays.read, Arrays.store, if_pos, splice]
      rw [List.append_assoc, List.drop_append_of_le_length (by simp; omega), List.drop_take, List.take_append,
        List.length_take, List.length_drop, List.take_append]
      rw [show s.off + s.len - s.off = s.len by omega, List.take_take,
        show min (s.len + xs.length) s.len = s.len by omega,
        show s.len + xs.length - min s.len ((m.arrs s.arr).length - s.off) = xs.length by omega]
      simp
  · rw [if_neg hc]
    have hl := read_length h
    have hd : (m.alloc (m.read s ++ xs ++ List.replicate (grow s xs.length) zero)).read
        { arr := m.next, off := 0, len := s.len + xs.length, cap := s.len + xs.length + grow s xs.length } =
        ((m.read s ++ xs) ++ List.replicate (grow s xs.length) zero).take (s.len + xs.length) := by
      simp [Arrays.read, Arrays.alloc]
    rw [hd, List.take_append_of_le_length (by simp [hl]), List.take_of_length_le (by simp [hl])]

/-- Without spare capacity `append` leaves everything in memory alone. -/
theorem append_full (grow : Slice → Nat → Nat) (zero : α) {s : Slice} (xs : List α) {m : Arrays α}
    (h : s.cap ≤ s.len) {t : Slice} (ht : InMemory m t) : (append grow zero s xs m).2.read t = m.read t := by
  unfold append
  by_cases hx : xs = []
  · simp [hx]
  rw [if_neg hx]
  have hpos : 0 < xs.length := List.length_pos_iff.2 hx
  rw [if_neg (by omega)]
  exact read_alloc_in ht

/-- A slice is in memory still after an `append`. -/
theorem append_inMemory (grow : Slice → Nat → Nat) (zero : α) {s : Slice} (xs : List α) {m : Arrays α}
    (h : InMemory m s) {t : Slice} (ht : InMemory m t) : InMemory (append grow zero s xs m).2 t := by
  unfold append
  by_cases hx : xs = []
  · simpa [hx] using ht
  rw [if_neg hx]
  have hpos : 0 < xs.length := List.length_pos_iff.2 hx
  rcases ht with ⟨h1, h2 | ⟨h2, h3⟩⟩
  · exact ⟨h1, .inl h2⟩
  refine ⟨h1, .inr ?_⟩
  split
  · rename_i hc
    refine ⟨h2, ?_⟩
    simp only [Arrays.store]
    split
    · rename_i he
      rcases h with ⟨h4, h5 | ⟨h5, h6⟩⟩
      · omega
      rw [he] at h3 ⊢
      rw [splice_length (by omega)]
      exact h3
    · exact h3
  · refine ⟨Nat.lt_succ_of_lt h2, ?_⟩
    simp only [Arrays.alloc]
    rw [if_neg (by omega)]
    exact h3

/-- The result of `append` is in memory. -/
theorem append_result (grow : Slice → Nat → Nat) (zero : α) {s : Slice} (xs : List α) {m : Arrays α}
    (h : InMemory m s) : InMemory (append grow zero s xs m).2 (append grow zero s xs m).1 := by
  have h' := append_inMemory grow zero xs h h
  have hl := read_length h
  unfold append at h' ⊢
  by_cases hx : xs = []
  · simpa [hx] using h
  rw [if_neg hx] at h' ⊢
  split
  · rename_i hc
    rw [if_pos hc] at h'
    exact ⟨hc, h'.2⟩
  · refine ⟨by simp, .inr ⟨by simp [Arrays.alloc], ?_⟩⟩
    simp [Arrays.alloc, hl]
    omega

end Aitch

import Verif.Model.Nbsp
import Verif.Proofs.Slice
import Verif.Proofs.Leaf
import Verif.Spec.Sample
/-
C49: non-breaking spaces.
-/
namespace Aitch.Props
open Spec

/-! ### C49 — Nbsps -/

theorem nbspsLoop_eq (k : Nat) : ∀ done : Bytes,
    nbspsLoop k done.length (done ++ List.replicate (6 * k) 0) = done ++ (List.replicate k b%"&nbsp;").flatten := by
  induction k with
  | zero => intro done; simp [nbspsLoop]
  | succ k ih =>
    intro done
    have hc : copyAt (done ++ List.replicate (6 * (k + 1)) 0) done.length nbspBytes =
        (done ++ b%"&nbsp;") ++ List.replicate (6 * k) 0 := by
      unfold copyAt
      rw [List.take_of_length_le (by simp [nbspBytes]; omega)]
      simp only [splice, List.take_left', List.drop_append, nbspBytes]
      rw [List.drop_of_length_le (by simp), List.drop_replicate]
      simp only [List.length_cons, List.length_nil]
      rw [show 6 * (k + 1) - (done.length + (0 + 1 + 1 + 1 + 1 + 1 + 1) - done.length) = 6 * k by omega]
      rfl
    rw [nbspsLoop, hc, show done.length + nbspBytes.length = (done ++ b%"&nbsp;").length by simp [nbspBytes], ih]
    simp [List.replicate_succ]

/-- For positive `n`: `n` copies of `&nbsp;`. -/
theorem C49_positive (n : Int) (h : 0 < n) : Nbsps n = some (List.replicate n.toNat b%"&nbsp;").flatten := by
  unfold Nbsps
  rw [if_neg (by omega)]
  exact congrArg some (nbspsLoop_eq n.toNat [])

example : Nbsps 2 = some b%"&nbsp;&nbsp;" := C49_positive 2 (by decide)

/-- Otherwise nil. -/
theorem C49_other (n : Int) (h : n ≤ 0) : Nbsps n = none := by
  unfold Nbsps; rw [if_pos h]

example : Nbsps (-3) = none := C49_other (-3) (by decide)

/-- The length. -/
theorem C49_length (n : Int) (r : Bytes) (h : Nbsps n = some r) : (r.length : Int) = 6 * n := by
  by_cases hn : 0 < n
  · rw [C49_positive n hn] at h
    simp only [Option.some.injEq] at h
    subst h
    rw [List.length_flatten]
    simp
    omega
  · rw [C49_other n (by omega)] at h; simp at h

example := C49_length 2 b%"&nbsp;&nbsp;" rfl

/-- As content they are written as they are. -/
theorem C49_renders {env : Env} (H : Healthy env) (dl : Nat → List Value) (n : Int) (r : Bytes) (h : Nbsps n = some r)
    (s : St) (he : s.frame.err = none) :
    Writes env (Text dl [.bytes r]) s (List.replicate n.toNat b%"&nbsp;").flatten := by
  have hn : 0 < n := by
    rcases Int.lt_or_le 0 n with hn | hn
    · exact hn
    · rw [C49_other n hn] at h; simp at h
  rw [C49_positive n hn] at h
  simp only [Option.some.injEq] at h
  have hw := writes_Text H he dl (vs := [.bytes r]) (by simp [Plain])
  subst h
  simpa [newValues, newValue, valueToBytes, valuesBytes, valueBytes] using hw

example := C49_renders Sample.healthy (fun _ => []) 2 b%"&nbsp;&nbsp;" rfl Sample.st rfl

example : Nbsps 2 = some b%"&nbsp;&nbsp;" ∧ Nbsps (-3) = none := ⟨rfl, rfl⟩

/-- `Nbsp` returns its bytes in an array of its own: writing into them changes neither the package's own `&nbsp;`
(so later calls still return it) nor any other slice. -/
theorem C49_fresh (grow : Slice → Nat → Nat) (m : Arrays UInt8) (nbsp : Slice)
    (hn : m.read nbsp = b%"&nbsp;") (r : Slice) (m' : Arrays UInt8) (hr : Nbsp grow nbsp m = (r, m')) :
    m'.read r = b%"&nbsp;" ∧
      ∀ (i : Nat) (xs : Bytes) (t : Slice), InMemory m t → (m'.store r.arr i xs).read t = m.read t := by
  have hnil : InMemory m .nil := ⟨Nat.le_refl _, .inl rfl⟩
  have h1 := append_read grow (0 : UInt8) (m.read nbsp) hnil
  have h3 : (Nbsp grow nbsp m).1.arr = m.next := by
    unfold Nbsp append
    rw [hn]; rfl
  refine ⟨?_, fun i xs t ht => ?_⟩
  · unfold Nbsp at hr; rw [hr, hn] at h1; exact h1
  · have h2 := append_full grow (0 : UInt8) (m.read nbsp) (s := .nil) (Nat.le_refl _) ht
    rw [hr] at h3
    unfold Nbsp at hr
    rw [hr] at h2
    rcases ht with ⟨h4, h5 | ⟨h5, h6⟩⟩
    · rw [read_zero (by omega), read_zero (by omega)]
    · refine Eq.trans ?_ h2
      simp only [Arrays.read, Arrays.store]
      rw [if_neg (by simp only at h3; omega)]

example := C49_fresh (fun _ k => k) ⟨fun _ => b%"&nbsp;", 1⟩ ⟨0, 0, 6, 6⟩ rfl _ _ rfl

end Aitch.Props

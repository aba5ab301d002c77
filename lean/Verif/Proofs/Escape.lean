import Verif.Model.Escape
import Verif.Model.Value
import Verif.Spec.Text
import Mathlib.Tactic.Tauto
import Mathlib.Tactic.ByContra
/-
Lemmas about `htmlEscapeString` and decimal formatting.
-/
namespace Aitch

/-- Bytewise escaping. -/
def escByte (c : UInt8) : Bytes := (escEntity c).getD [c]

theorem escLoop_eq (sb rest : Bytes) (i last : Nat) (buf : Bytes)
    (h : sb.drop i = rest) (hl : last ≤ i) :
    escLoop sb rest i last buf = buf ++ (sb.drop last).take (i - last) ++ rest.flatMap escByte := by
  induction rest generalizing i last buf with
  | nil =>
    have hi : sb.length ≤ i := by simpa using List.drop_eq_nil_iff.mp h
    simp only [escLoop, List.flatMap_nil, List.append_nil]
    rw [List.take_of_length_le]; simp; omega
  | cons c rest ih =>
    have hlen : i < sb.length := by
      by_contra hc
      have : sb.drop i = [] := List.drop_eq_nil_iff.mpr (by omega)
      rw [this] at h; cases h
    have hd : sb.drop (i + 1) = rest := by
      have : sb.drop (i+1) = (sb.drop i).drop 1 := by rw [List.drop_drop]
      rw [this, h]; rfl
    have hc : sb[i] = c := by
      have := List.drop_eq_getElem_cons hlen
      rw [h] at this; injection this with h1 _; exact h1.symm
    simp only [escLoop]
    cases he : escEntity c with
    | none =>
      rw [ih _ _ _ hd (by omega)]
      have : i + 1 - last = (i - last) + 1 := by omega
      rw [this, List.take_add_one]
      have hg : (sb.drop last)[i - last]? = some c := by
        rw [List.getElem?_drop]
        have : last + (i - last) = i := by omega
        rw [this, List.getElem?_eq_getElem hlen, hc]
      rw [hg]
      simp [escByte, he]
    | some html =>
      dsimp only
      rw [ih (i + 1) (i + 1) _ hd (Nat.le_refl _)]
      simp [escByte, he]

theorem escLoop_flatMap (s : Bytes) : escLoop s s 0 0 [] = s.flatMap escByte := by
  rw [escLoop_eq s s 0 0 [] rfl (Nat.le_refl 0)]; simp

theorem escEntity_none {c : UInt8} (h : ((b%"'\"&<>").contains c || c == 0) = false) : escEntity c = none := by
  simp at h
  obtain ⟨⟨h1, h2, h3, h4, h5⟩, h6⟩ := h
  simp [escEntity, *]

theorem htmlEscapeString_eq (s : Bytes) : htmlEscapeString s = s.flatMap escByte := by
  unfold htmlEscapeString
  split
  · rename_i h
    simp only [Bool.not_eq_true, List.any_eq_false] at h
    induction s with
    | nil => rfl
    | cons c cs ih =>
      have h1 := h c (by simp)
      have h2 := ih (fun x hx => h x (by simp [hx]))
      rw [List.flatMap_cons, ← h2, escByte, escEntity_none (by simpa using h1)]
      rfl
  · exact escLoop_flatMap s

/-- Every byte is NUL, special, or copied. -/
theorem escByte_cases (c : UInt8) :
    (c = 0 ∧ escByte c = []) ∨ (c = c%'"' ∧ escByte c = b%"&quot;") ∨ (c = c%'\'' ∧ escByte c = b%"&apos;") ∨
    (c = c%'&' ∧ escByte c = b%"&amp;") ∨ (c = c%'<' ∧ escByte c = b%"&lt;") ∨ (c = c%'>' ∧ escByte c = b%"&gt;") ∨
    ((c ≠ 0 ∧ c ≠ c%'"' ∧ c ≠ c%'\'' ∧ c ≠ c%'&' ∧ c ≠ c%'<' ∧ c ≠ c%'>') ∧ escByte c = [c]) := by
  by_cases h0 : c = 0
  · simp [h0, escByte, escEntity]
  by_cases h1 : c = c%'"'
  · simp [h1, escByte, escEntity]
  by_cases h2 : c = c%'\''
  · simp [h2, escByte, escEntity]
  by_cases h3 : c = c%'&'
  · simp [h3, escByte, escEntity]
  by_cases h4 : c = c%'<'
  · simp [h4, escByte, escEntity]
  by_cases h5 : c = c%'>'
  · simp [h5, escByte, escEntity]
  simp [h0, h1, h2, h3, h4, h5, escByte, escEntity]

open Spec

theorem markupSafe_nil : MarkupSafe [] := by
  constructor
  · simp
  · intro pre post h; simp at h

theorem markupSafe_append {a b : Bytes} (ha : MarkupSafe a) (hb : MarkupSafe b) : MarkupSafe (a ++ b) := by
  constructor
  · intro c hc
    rcases List.mem_append.mp hc with h | h
    · exact ha.1 c h
    · exact hb.1 c h
  · intro pre post h
    rcases List.append_eq_append_iff.mp h with ⟨d, h1, h2⟩ | ⟨d, h1, h2⟩
    · exact hb.2 d post h2
    · cases d with
      | nil => exact hb.2 [] post (by simpa using h2.symm)
      | cons x xs =>
        injection h2 with hx hxs
        subst hx
        obtain ⟨r, hr, hp⟩ := ha.2 pre xs h1
        refine ⟨r, hr, hp.trans ?_⟩
        rw [hxs]; exact ⟨b, rfl⟩

theorem markupSafe_ref {r : Bytes} (h : r ∈ refs) : MarkupSafe r := by
  constructor
  · simp only [refs, List.mem_cons, List.not_mem_nil, or_false] at h
    rcases h with rfl | rfl | rfl | rfl | rfl <;> decide
  · intro pre post hp
    cases pre with
    | nil => exact ⟨r, h, by simp at hp; rw [hp]; exact List.prefix_refl _⟩
    | cons x xs =>
      exfalso
      have hm : c%'&' ∈ r.tail := by rw [hp]; simp
      simp only [refs, List.mem_cons, List.not_mem_nil, or_false] at h
      rcases h with rfl | rfl | rfl | rfl | rfl <;> revert hm <;> decide

theorem markupSafe_escByte (c : UInt8) : MarkupSafe (escByte c) := by
  rcases escByte_cases c with ⟨_, h⟩ | ⟨_, h⟩ | ⟨_, h⟩ | ⟨_, h⟩ | ⟨_, h⟩ | ⟨_, h⟩ | ⟨h', h⟩ <;> rw [h]
  · exact markupSafe_nil
  · exact markupSafe_ref (by decide)
  · exact markupSafe_ref (by decide)
  · exact markupSafe_ref (by decide)
  · exact markupSafe_ref (by decide)
  · exact markupSafe_ref (by decide)
  · constructor
    · simp; tauto
    · intro pre post hp
      cases pre with
      | nil => simp at hp; exact absurd hp.1 h'.2.2.2.1
      | cons x xs => simp at hp

theorem markupSafe_escape (s : Bytes) : MarkupSafe (htmlEscapeString s) := by
  rw [htmlEscapeString_eq]
  induction s with
  | nil => exact markupSafe_nil
  | cons c cs ih => exact markupSafe_append (markupSafe_escByte c) ih

theorem decode_plain (c : UInt8) (h : c ≠ c%'&') (w : Bytes) : decode (c :: w) = c :: decode w := by
  rw [decode] <;> intros <;> simp_all

theorem decode_escByte (c : UInt8) (w : Bytes) :
    decode (escByte c ++ w) = (if c = 0 then [] else [c]) ++ decode w := by
  rcases escByte_cases c with ⟨hc, h⟩ | ⟨hc, h⟩ | ⟨hc, h⟩ | ⟨hc, h⟩ | ⟨hc, h⟩ | ⟨hc, h⟩ | ⟨h', h⟩ <;> rw [h]
  · simp [hc]
  · subst hc; rfl
  · subst hc; rfl
  · subst hc; rfl
  · subst hc; rfl
  · subst hc; rfl
  · simp [h'.1, decode_plain c h'.2.2.2.1]

theorem decode_escape (s : Bytes) : decode (htmlEscapeString s) = s.filter (· ≠ 0) := by
  rw [htmlEscapeString_eq]
  induction s with
  | nil => rfl
  | cons c cs ih =>
    rw [List.flatMap_cons, decode_escByte, ih]
    by_cases h : c = 0 <;> simp [h]

/-! ### Decimal numerals -/

theorem digitByte_lt {d : Nat} (h : d < 10) : ((48 + d.toUInt8 : UInt8)).toNat = 48 + d := by
  have : d = 0 ∨ d = 1 ∨ d = 2 ∨ d = 3 ∨ d = 4 ∨ d = 5 ∨ d = 6 ∨ d = 7 ∨ d = 8 ∨ d = 9 := by omega
  rcases this with rfl | rfl | rfl | rfl | rfl | rfl | rfl | rfl | rfl | rfl <;> rfl

theorem digitByte_isDigit {d : Nat} (h : d < 10) : IsDigit (48 + d.toUInt8) := by
  have : d = 0 ∨ d = 1 ∨ d = 2 ∨ d = 3 ∨ d = 4 ∨ d = 5 ∨ d = 6 ∨ d = 7 ∨ d = 8 ∨ d = 9 := by omega
  rcases this with rfl | rfl | rfl | rfl | rfl | rfl | rfl | rfl | rfl | rfl <;> (constructor <;> decide)

theorem canonNat_natDec (n : Nat) : CanonNat (natDec n) n ∧ (n ≠ 0 → (natDec n).head? ≠ some c%'0') := by
  induction n using Nat.strongRecOn with
  | ind n ih =>
    rw [natDec]
    split
    · rename_i h
      have hv := digitByte_lt h
      refine ⟨⟨by simp, ?_, ?_, ?_⟩, ?_⟩
      · simpa using digitByte_isDigit h
      · simp
      · simp [digitsVal, hv]
      · intro h0 hc
        simp only [List.head?_cons, Option.some.injEq] at hc
        rw [hc] at hv
        have h48 : (48 : UInt8).toNat = 48 := rfl
        omega
    · rename_i h
      have hlt : n / 10 < n := by omega
      obtain ⟨⟨hne, hd, _, hval⟩, hz⟩ := ih (n / 10) hlt
      have hm : n % 10 < 10 := by omega
      have hhead : (natDec (n / 10) ++ [48 + (n % 10).toUInt8]).head? = (natDec (n / 10)).head? := by
        cases hq : natDec (n / 10) with
        | nil => exact absurd hq hne
        | cons a as => rfl
      have hz' := hz (by omega)
      refine ⟨⟨by simp, ?_, ?_, ?_⟩, ?_⟩
      · intro c hc
        rcases List.mem_append.mp hc with h1 | h1
        · exact hd c h1
        · simp at h1; rw [h1]; exact digitByte_isDigit hm
      · intro h1; rw [hhead] at h1; exact absurd h1 hz'
      · unfold digitsVal at hval ⊢
        rw [List.foldl_append, hval]
        simp only [List.foldl_cons, List.foldl_nil, digitByte_lt hm]
        omega
      · intro _; rw [hhead]; exact hz'

theorem canonInt_intDec (i : Int) : CanonInt (intDec i) i := by
  cases i with
  | ofNat n => exact Or.inl ⟨n, rfl, (canonNat_natDec n).1⟩
  | negSucc n => exact Or.inr ⟨n + 1, by omega, by omega, _, rfl, (canonNat_natDec (n + 1)).1⟩

end Aitch

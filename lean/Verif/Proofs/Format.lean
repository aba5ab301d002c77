import Verif.Spec.Format
import Verif.Proofs.Escape
import Verif.Proofs.Quiet
/-
Formatting of values and contents.
-/
namespace Aitch
open Spec

theorem escapedByte_eq (c : UInt8) : escapedByte c = escByte c := by
  rcases escByte_cases c with ⟨hc, h⟩ | ⟨hc, h⟩ | ⟨hc, h⟩ | ⟨hc, h⟩ | ⟨hc, h⟩ | ⟨hc, h⟩ | ⟨h', h⟩ <;> rw [h]
  · subst hc; rfl
  · subst hc; rfl
  · subst hc; rfl
  · subst hc; rfl
  · subst hc; rfl
  · subst hc; rfl
  · obtain ⟨h0, h1, h2, h3, h4, h5⟩ := h'
    simp [escapedByte, *]

theorem escaped_eq (s : Bytes) : htmlEscapeString s = escaped s := by
  rw [htmlEscapeString_eq, escaped]
  congr 1
  funext c
  exact (escapedByte_eq c).symm

theorem escaped_append (a b : Bytes) : escaped (a ++ b) = escaped a ++ escaped b := by
  simp [escaped]

theorem escaped_flatten (l : List Bytes) : escaped l.flatten = l.flatMap escaped := by
  induction l with
  | nil => rfl
  | cons a l ih => simp [escaped_append, ih]

theorem formatsAs_valueToBytes : (v : Any) → FormatsAs v (valueToBytes v)
  | .nil => .textless trivial
  | .bool b => by cases b; exact .false; exact .true
  | .bytes bs => .bytes bs
  | .str s => by simp only [valueToBytes, escaped_eq]; exact .str s
  | .int t i => .int (canonInt_intDec i)
  | .float a b => .float a b
  | .stringer a b v => .stringer a b v
  | .thunk r => .thunk (formatsAs_valueToBytes r)
  | .dynFunc _ _ => .textless trivial
  | .dynKey _ => .textless trivial
  | .value _ => .textless trivial
  | .node _ => .textless trivial
  | .map _ => .textless trivial
  | .anySlice _ => .textless trivial
  | .slice _ _ => .textless trivial
  | .strMap _ _ _ => .textless trivial
  | .struct _ _ => .textless trivial
  | .ptr _ => .textless trivial
  | .other _ => .textless trivial

/-! Canonical numerals are unique. -/

theorem digitsVal_snoc (w : Bytes) (c : UInt8) : digitsVal (w ++ [c]) = 10 * digitsVal w + (c.toNat - 48) := by
  simp [digitsVal]

theorem isDigit_toNat {c : UInt8} (h : IsDigit c) : 48 ≤ c.toNat ∧ c.toNat ≤ 57 := by
  obtain ⟨h1, h2⟩ := h
  rw [UInt8.le_iff_toNat_le] at h1 h2
  exact ⟨h1, h2⟩

/-- Numerals of equal length and value are equal. -/
theorem digits_inj_length (w w' : Bytes) (hd : ∀ c ∈ w, IsDigit c) (hd' : ∀ c ∈ w', IsDigit c)
    (hl : w.length = w'.length) (hv : digitsVal w = digitsVal w') : w = w' := by
  rw [← List.reverse_reverse w, ← List.reverse_reverse w'] at *
  generalize w.reverse = r at *
  generalize w'.reverse = r' at *
  induction r generalizing r' with
  | nil =>
    cases r' with
    | nil => rfl
    | cons c r' => simp at hl
  | cons c r ih =>
    cases r' with
    | nil => simp at hl
    | cons c' r' =>
      simp only [List.reverse_cons, List.mem_append, List.mem_reverse, List.mem_singleton, List.length_append,
        List.length_reverse, List.length_singleton] at hl hv hd hd' ih ⊢
      rw [digitsVal_snoc, digitsVal_snoc] at hv
      have h1 := isDigit_toNat (hd c (Or.inr rfl))
      have h2 := isDigit_toNat (hd' c' (Or.inr rfl))
      have hc : c = c' := by
        rw [← UInt8.toNat_inj]; omega
      have hi := ih (fun x hx => hd x (Or.inl hx)) r' (fun x hx => hd' x (Or.inl hx)) (by omega) (by omega)
      rw [hi, hc]

theorem digitsVal_bounds (w : Bytes) (hd : ∀ c ∈ w, IsDigit c) :
    digitsVal w < 10 ^ w.length ∧ (w.head? ≠ none → w.head? ≠ some c%'0' → 10 ^ (w.length - 1) ≤ digitsVal w) := by
  rw [← List.reverse_reverse w] at *
  generalize w.reverse = r at *
  induction r with
  | nil => simp [digitsVal]
  | cons c r ih =>
    simp only [List.reverse_cons, List.mem_append, List.mem_singleton] at hd ⊢
    obtain ⟨ih1, ih2⟩ := ih fun c hc => hd c (Or.inl hc)
    have h1 := isDigit_toNat (hd c (Or.inr rfl))
    rw [digitsVal_snoc]
    simp only [List.length_append, List.length_singleton, Nat.pow_succ, Nat.add_sub_cancel]
    refine ⟨by omega, ?_⟩
    intro _ hz
    cases hr : r.reverse with
    | nil =>
      rw [hr] at hz
      simp at hz
      simp [digitsVal]
      have : c.toNat ≠ 48 := by
        intro h
        apply hz
        rw [← UInt8.toNat_inj, h]; rfl
      omega
    | cons x xs =>
      rw [hr] at hz ih2
      simp at hz
      have := ih2 (by simp) (by simpa using hz)
      simp only [List.length_cons, Nat.add_sub_cancel, Nat.pow_succ] at this ⊢
      omega

theorem canonNat_unique {w w' : Bytes} {n : Nat} (h : CanonNat w n) (h' : CanonNat w' n) : w = w' := by
  obtain ⟨hne, hd, hz, hv⟩ := h
  obtain ⟨hne', hd', hz', hv'⟩ := h'
  have b := digitsVal_bounds w hd
  have b' := digitsVal_bounds w' hd'
  have zero : digitsVal [c%'0'] = 0 := rfl
  have pos : ∀ k, 0 < 10 ^ k := fun k => Nat.pow_pos (by omega)
  by_cases z : w.head? = some c%'0'
  · have := hz z
    subst this
    by_cases z' : w'.head? = some c%'0'
    · exact (hz' z').symm
    · have := b'.2 (by simpa using hne') z'
      have := pos (w'.length - 1)
      omega
  · by_cases z' : w'.head? = some c%'0'
    · have := hz' z'
      subst this
      have := b.2 (by simpa using hne) z
      have := pos (w.length - 1)
      omega
    · have l := b.2 (by simpa using hne) z
      have l' := b'.2 (by simpa using hne') z'
      have p : 0 < w.length := List.length_pos_iff.2 hne
      have p' : 0 < w'.length := List.length_pos_iff.2 hne'
      refine digits_inj_length w w' hd hd' ?_ (by omega)
      have h1 : 10 ^ (w.length - 1) < 10 ^ w'.length := by omega
      have h2 : 10 ^ (w'.length - 1) < 10 ^ w.length := by omega
      rw [Nat.pow_lt_pow_iff_right (by omega)] at h1 h2
      omega

theorem canonInt_unique {w w' : Bytes} {i : Int} (h : CanonInt w i) (h' : CanonInt w' i) : w = w' := by
  rcases h with ⟨n, hi, hc⟩ | ⟨n, hp, hi, u, rfl, hc⟩ <;> rcases h' with ⟨n', hi', hc'⟩ | ⟨n', hp', hi', u', rfl, hc'⟩
  · have : n = n' := by omega
    subst this; exact canonNat_unique hc hc'
  · omega
  · omega
  · have : n = n' := by omega
    subst this; rw [canonNat_unique hc hc']

/-- A value has only one text. -/
theorem formatsAs_unique {v : Any} {w w' : Bytes} (h : FormatsAs v w) (h' : FormatsAs v w') : w = w' := by
  induction h with
  | true => cases h' with | true => rfl | textless h => exact h.elim
  | false => cases h' with | false => rfl | textless h => exact h.elim
  | bytes => cases h' with | bytes => rfl | textless h => exact h.elim
  | str => cases h' with | str => rfl | textless h => exact h.elim
  | int hc => cases h' with | int hc' => exact canonInt_unique hc hc' | textless h => exact h.elim
  | float => cases h' with | float => rfl | textless h => exact h.elim
  | stringer => cases h' with | stringer => rfl | textless h => exact h.elim
  | thunk _ ih => cases h' with | thunk h' => exact ih h' | textless h => exact h.elim
  | textless ht => cases h' <;> first | rfl | exact ht.elim

theorem formatsAs_iff {v : Any} {w : Bytes} : FormatsAs v w ↔ w = valueToBytes v :=
  ⟨fun h => formatsAs_unique h (formatsAs_valueToBytes v), fun h => h ▸ formatsAs_valueToBytes v⟩

/-! Contents -/

section
variable (P : Fns) (c : Ctx) (dl : Nat → List Value)

theorem valuesBytes_append (a b : List Value) : valuesBytes P c (a ++ b) = valuesBytes P c a ++ valuesBytes P c b := by
  induction a with
  | nil => rfl
  | cons v a ih => simp [valuesBytes, ih]

mutual
theorem valuesBytes_nodeValues : (n : Node) → valuesBytes P c (nodeValues dl n) = nodeContent P c dl n
  | .attr (.plain _ _) => rfl
  | .attr (.delim _ _ _) => rfl
  | .attr (.bool _) => rfl
  | .text _ => rfl
  | .comment _ => rfl
  | .fragment _ => rfl
  | .pi _ _ => rfl
  | .collection ns => valuesBytes_nodesValues ns
  | .element _ _ => rfl
  | .voidElement _ => rfl
  | .conditional _ _ _ => rfl
  | .collector _ => rfl
  | .imperative _ => rfl
  | .iterator _ _ => rfl
  | .yieldIterator _ _ => rfl
  | .document _ _ => rfl
theorem valuesBytes_nodesValues : (ns : List Node) → valuesBytes P c (nodesValues dl ns) = nodesContent P c dl ns
  | [] => rfl
  | n :: ns => by
    simp only [nodesValues, nodesContent, valuesBytes_append]
    rw [valuesBytes_nodeValues n, valuesBytes_nodesValues ns]
end

theorem valuesBytes_one (v : Value) : valuesBytes P c [v] = valueBytes P c v := by simp [valuesBytes]

theorem content_newValue (v : Any) : Content P c dl v (valuesBytes P c (newValue dl v)) := by
  have static : ∀ w, valueBytes P c (.mk w none []) = w := fun w => by simp [valueBytes]
  cases v with
  | nil => exact .nil
  | value v => rw [newValue, valuesBytes_one]; exact .value v
  | dynFunc named f =>
    cases f with
    | none => exact .nilFunc named
    | some f =>
      rw [newValue, valuesBytes_one]
      exact .dynFunc named f
  | dynKey k =>
    by_cases hk : k = b%"."
    · subst hk
      exact .cargo (by
        simp only [newValue, if_true, valuesBytes_one, valueBytes, dynBytes]
        exact formatsAs_valueToBytes _)
    · simp only [newValue, if_neg hk, valuesBytes_one, valueBytes, dynBytes]
      cases hl : c.lookup k with
      | none => exact .noKey hk hl
      | some v => exact .key hk hl (formatsAs_valueToBytes v)
  | node n => rw [newValue, valuesBytes_nodeValues]; exact .node n
  | _ => rw [newValue, valuesBytes_one, static] <;> first | exact .data trivial (formatsAs_valueToBytes _) | nofun

theorem content_unique {v : Any} {w w' : Bytes} (h : Content P c dl v w) (h' : Content P c dl v w') : w = w' := by
  cases h with
  | nil => cases h' with | nil => rfl | data _ h => exact formatsAs_unique (v := .nil) (.textless trivial) h
  | value => cases h' with | value => rfl | data h => exact h.elim
  | dynFunc => cases h' with | dynFunc => rfl | data h => exact h.elim
  | nilFunc => cases h' with | nilFunc => rfl | data h => exact h.elim
  | cargo h => cases h' with
    | cargo h' => exact formatsAs_unique h h'
    | key hk => exact absurd rfl hk
    | noKey hk => exact absurd rfl hk
    | data h => exact h.elim
  | key hk hl h => cases h' with
    | cargo h' => exact absurd rfl hk
    | key hk hl' h' => rw [hl] at hl'; cases hl'; exact formatsAs_unique h h'
    | noKey hk hl' => rw [hl] at hl'; cases hl'
    | data h => exact h.elim
  | noKey hk hl => cases h' with
    | cargo h' => exact absurd rfl hk
    | key hk hl' h' => rw [hl] at hl'; cases hl'
    | noKey hk hl' => rfl
    | data h => exact h.elim
  | node => cases h' with | node => rfl | data h => exact h.elim
  | data hd h => cases h' with
    | nil => exact formatsAs_unique (v := .nil) h (.textless trivial)
    | data _ h' => exact formatsAs_unique h h'
    | _ => exact hd.elim

theorem newValues_cons (v : Any) (vs : List Any) : newValues dl (v :: vs) = newValue dl v ++ newValues dl vs := by
  cases v <;> rfl

theorem contents_newValues (vs : List Any) : Contents P c dl vs (valuesBytes P c (newValues dl vs)) := by
  induction vs with
  | nil => exact .nil
  | cons v vs ih =>
    rw [newValues_cons, valuesBytes_append]
    exact .cons (content_newValue P c dl v) ih

theorem contents_unique {vs : List Any} {w w' : Bytes} (h : Contents P c dl vs w) (h' : Contents P c dl vs w') :
    w = w' := by
  induction h generalizing w' with
  | nil => cases h'; rfl
  | cons h _ ih => cases h' with | cons h' hs => rw [content_unique P c dl h h', ih hs]

theorem contents_iff {vs : List Any} {w : Bytes} : Contents P c dl vs w ↔ w = valuesBytes P c (newValues dl vs) :=
  ⟨fun h => contents_unique P c dl h (contents_newValues P c dl vs), fun h => h ▸ contents_newValues P c dl vs⟩

end
end Aitch

import Verif.Spec.StartSlice
import Verif.Proofs.Slice
/-
`Start` on slices does what `Start` on lists does.
-/
namespace Aitch
open Spec

variable {α : Type}

/-- An `append` changes nothing that lies before the end of the slice it appends to. -/
theorem append_before (grow : Slice → Nat → Nat) (zero : α) {s : Slice} (xs : List α) {m : Arrays α}
    (hs : InMemory m s) {t : Slice} (ht : InMemory m t) (hb : EndsBefore t s) :
    (append grow zero s xs m).2.read t = m.read t := by
  unfold append
  by_cases hx : xs = []
  · simp [hx]
  rw [if_neg hx]
  have hpos : 0 < xs.length := List.length_pos_iff.2 hx
  by_cases hc : s.len + xs.length ≤ s.cap
  · rw [if_pos hc]
    by_cases h0 : t.len = 0
    · rw [read_zero h0, read_zero h0]
    have ht1 := ht.1
    simp only [Arrays.read, Arrays.store]
    split
    · rename_i he
      rw [he]
      rcases hs with ⟨-, hs | ⟨-, hs⟩⟩
      · omega
      rcases hb with hb | hb | hb | hb
      · omega
      · omega
      · exact absurd he hb
      rw [splice, List.append_assoc, List.drop_append_of_le_length (by simp; omega), List.drop_take,
        List.take_append_of_le_length (by simp; omega), List.take_take]
      congr 1
      omega
    · rfl
  · rw [if_neg hc]
    exact read_alloc_in ht

theorem append_next (grow : Slice → Nat → Nat) (zero : α) (s : Slice) (xs : List α) (m : Arrays α) :
    m.next ≤ (append grow zero s xs m).2.next := by
  unfold append
  split
  · exact Nat.le_refl _
  · split
    · exact Nat.le_refl _
    · exact Nat.le_succ _

/-- `s` grew out of `s₀`, in place or by moving to an array that did not exist in `m`. -/
def Grew (next : Nat) (s₀ : Option Slice) (s : Slice) : Prop :=
  (∃ s', s₀ = some s' ∧ s.arr = s'.arr ∧ s.off = s'.off ∧ s.cap = s'.cap ∧ s'.len ≤ s.len) ∨ next ≤ s.arr

theorem append_grew (grow : Slice → Nat → Nat) (zero : α) {s : Slice} (xs : List α) {m : Arrays α} {next : Nat}
    {s₀ : Option Slice} (hn : next ≤ m.next) (h : Grew next s₀ s ∨ s.cap = 0 ∧ xs ≠ []) :
    Grew next s₀ (append grow zero s xs m).1 := by
  unfold append
  by_cases hx : xs = []
  · rcases h with h | h
    · simpa [hx] using h
    · exact absurd hx h.2
  rw [if_neg hx]
  have hpos : 0 < xs.length := List.length_pos_iff.2 hx
  by_cases hc : s.len + xs.length ≤ s.cap
  · rw [if_pos hc]
    rcases h with h | h
    · rcases h with ⟨s', h1, h2, h3, h4, h5⟩ | h
      · exact .inl ⟨s', h1, h2, h3, h4, by simp; omega⟩
      · exact .inr h
    · omega
  · rw [if_neg hc]
    exact .inr hn

theorem grew_before {m : Arrays α} {s₀ : Option Slice} {s t : Slice} (h : Grew m.next s₀ s) (ht : InMemory m t)
    (hb : ∀ s', s₀ = some s' → EndsBefore t s') : EndsBefore t s := by
  rcases h with ⟨s', h1, h2, h3, h4, h5⟩ | h
  · rcases hb s' h1 with h | h | h | h
    · exact .inl h
    · exact .inr (.inl (by omega))
    · exact .inr (.inr (.inl (by rw [h2]; exact h)))
    · exact .inr (.inr (.inr (by omega)))
  · rcases ht.2 with h' | h'
    · exact .inl h'
    · exact .inr (.inr (.inl (by omega)))

/-- While values are appended: the slices in `keep` are in memory and have kept their elements. -/
structure Appending (keep : Slice → Prop) (m₀ : Arrays Value) (avs₀ avs : Option Slice) (m : Arrays Value) : Prop where
  next : m₀.next ≤ m.next
  kept : ∀ t, keep t → InMemory m t ∧ m.read t = m₀.read t
  avs : ∀ s, avs = some s → InMemory m s ∧ Grew m₀.next avs₀ s

theorem Appending.start {keep : Slice → Prop} {m₀ : Arrays Value} {avs₀ : Option Slice}
    (hk : ∀ t, keep t → InMemory m₀ t) (hs : ∀ s, avs₀ = some s → InMemory m₀ s) : Appending keep m₀ avs₀ avs₀ m₀ where
  next := Nat.le_refl _
  kept t ht := ⟨hk t ht, rfl⟩
  avs s h := ⟨hs s h, .inl ⟨s, h, rfl, rfl, rfl, Nat.le_refl _⟩⟩

theorem nil_inMemory (m : Arrays α) : InMemory m .nil := ⟨Nat.le_refl _, .inl rfl⟩

/-- One `append` of one value. -/
theorem Appending.append {grow : Slice → Nat → Nat} {keep : Slice → Prop} {m₀ m : Arrays Value}
    {avs₀ avs : Option Slice} (hk : ∀ t, keep t → InMemory m₀ t ∧ ∀ s, avs₀ = some s → EndsBefore t s)
    (h : Appending keep m₀ avs₀ avs m) (v : Value) :
    Appending keep m₀ avs₀ (some (append grow zeroValue (avs.getD .nil) [v] m).1)
      (append grow zeroValue (avs.getD .nil) [v] m).2 ∧
    (append grow zeroValue (avs.getD .nil) [v] m).2.read (append grow zeroValue (avs.getD .nil) [v] m).1 =
      (avs.map m.read).getD [] ++ [v] ∧
    (append grow zeroValue (avs.getD .nil) [v] m).1.len = (avs.getD .nil).len + 1 := by
  have hin : InMemory m (avs.getD .nil) := by
    cases avs with
    | none => exact nil_inMemory m
    | some s => exact (h.avs s rfl).1
  have hg : Grew m₀.next avs₀ (avs.getD .nil) ∨ (avs.getD .nil).cap = 0 ∧ [v] ≠ [] := by
    cases avs with
    | none => exact .inr ⟨rfl, by simp⟩
    | some s => exact .inl (h.avs s rfl).2
  have hb : ∀ t, keep t → EndsBefore t (avs.getD .nil) := by
    intro t ht
    cases avs with
    | none => exact .inr (.inl rfl)
    | some s => exact grew_before (h.avs s rfl).2 (hk t ht).1 (hk t ht).2
  refine ⟨⟨Nat.le_trans h.next (append_next ..), fun t ht => ?_, fun s hs => ?_⟩, ?_, ?_⟩
  · have := h.kept t ht
    exact ⟨append_inMemory grow zeroValue [v] hin this.1,
      (append_before grow zeroValue [v] hin this.1 (hb t ht)).trans this.2⟩
  · cases hs
    exact ⟨append_result grow zeroValue [v] hin, append_grew grow zeroValue [v] h.next hg⟩
  · rw [append_read grow zeroValue [v] hin]
    cases avs with
    | none => rfl
    | some s => rfl
  · unfold Aitch.append
    rw [if_neg (by simp)]
    split <;> rfl

theorem read_get {m : Arrays α} {s : Slice} (h : InMemory m s) {i : Nat} (hi : i < s.len) (zero : α) :
    (m.read s)[i]? = some (((m.arrs s.arr)[s.off + i]?).getD zero) := by
  rcases h with ⟨h1, h2 | ⟨h2, h3⟩⟩
  · omega
  unfold Arrays.read
  rw [List.getElem?_take_of_lt hi, List.getElem?_drop]
  rw [List.getElem?_eq_getElem (by omega)]
  rfl

/-- The loop over the values of a delimited attribute does what `startDelim` says. -/
theorem delimLoop_ok {grow : Slice → Nat → Nat} {first : Bool} {d : Bytes} {values : Slice} {keep : Slice → Prop}
    {m₀ : Arrays Value} {avs₀ : Option Slice} (hk : ∀ t, keep t → InMemory m₀ t ∧ ∀ s, avs₀ = some s → EndsBefore t s)
    (hv : keep values) (todo : Nat) : ∀ (i : Nat) (avs : Option Slice) (m : Arrays Value),
    Appending keep m₀ avs₀ avs m → i + todo = values.len → (first = true → (0 < i ↔ 0 < (avs.getD .nil).len)) →
    Appending keep m₀ avs₀ (delimLoop grow first d values i todo avs m).1 (delimLoop grow first d values i todo avs m).2 ∧
    (delimLoop grow first d values i todo avs m).1.map (delimLoop grow first d values i todo avs m).2.read =
      startDelim d ((m₀.read values).drop i) (avs.map m.read) := by
  induction todo with
  | zero =>
    intro i avs m h hi hf
    have hl := read_length (hk values hv).1
    rw [List.drop_of_length_le (by omega)]
    exact ⟨h, rfl⟩
  | succ todo ih =>
    intro i avs m h hi hf
    have hvm := h.kept values hv
    obtain ⟨v, hv1⟩ : ∃ v, v = ((m.arrs values.arr)[values.off + i]?).getD zeroValue := ⟨_, rfl⟩
    have hget := read_get hvm.1 (show i < values.len by omega) zeroValue
    rw [hvm.2, ← hv1] at hget
    have hdrop : (m₀.read values).drop i = v :: (m₀.read values).drop (i + 1) := by
      obtain ⟨hlt, hget⟩ := List.getElem?_eq_some_iff.1 hget
      rw [List.drop_eq_getElem_cons hlt, hget]
    rw [hdrop]
    simp only [delimLoop, startDelim]
    rw [← hv1]
    have hlen : ((avs.map m.read).getD []).length = (avs.getD .nil).len := by
      cases avs with
      | none => rfl
      | some s => exact read_length (h.avs s rfl).1
    have hcond : (0 < (if first = true then i else (avs.getD .nil).len)) ↔ 0 < ((avs.map m.read).getD []).length := by
      rw [hlen]
      cases first with
      | true => exact hf rfl
      | false => exact Iff.rfl
    by_cases hc : 0 < ((avs.map m.read).getD []).length
    · rw [if_pos (hcond.2 hc), if_pos hc]
      obtain ⟨g1, g2, g3⟩ := h.append (grow := grow) hk (.mk d none [])
      obtain ⟨k1, k2, k3⟩ := g1.append (grow := grow) hk v
      have := ih (i + 1) _ _ k1 (by omega) (fun _ => ⟨fun _ => by simp only [Option.getD_some] at *; omega, fun _ => by omega⟩)
      refine ⟨this.1, this.2.trans ?_⟩
      simp only [Option.map_some, Option.getD_some] at k2 ⊢
      rw [k2, g2]
    · rw [if_neg (fun h => hc (hcond.1 h)), if_neg hc]
      obtain ⟨k1, k2, k3⟩ := h.append (grow := grow) hk v
      have := ih (i + 1) _ _ k1 (by omega) (fun _ => ⟨fun _ => by simp only [Option.getD_some] at *; omega, fun _ => by omega⟩)
      refine ⟨this.1, this.2.trans ?_⟩
      simp only [Option.map_some] at k2 ⊢
      rw [k2]

/-- Two slices of different arrays. -/
def Apart (s t : Slice) : Prop := s.cap = 0 ∨ t.cap = 0 ∨ s.arr ≠ t.arr

theorem Apart.symm {s t : Slice} (h : Apart s t) : Apart t s := by
  rcases h with h | h | h
  · exact .inr (.inl h)
  · exact .inl h
  · exact .inr (.inr (Ne.symm h))

theorem Apart.before {s t : Slice} (h : Apart s t) : EndsBefore s t := by
  rcases h with h | h | h
  · exact .inl h
  · exact .inr (.inl h)
  · exact .inr (.inr (.inl h))

/-- Where the slice of an entry comes from: an array made by `Start`, or the values of a plain attribute of that name. -/
def Origin (attrs : List SliceAttr) (next : Nat) (n : Bytes) (s : Slice) : Prop :=
  next ≤ s.arr ∨ ∃ s', .plain n s' ∈ attrs ∧ s.arr = s'.arr ∧ s.off = s'.off ∧ s.cap = s'.cap ∧ s'.len ≤ s.len

/-- What holds while `Start` collects: `held` are slices in use elsewhere. -/
structure Collecting (attrs : List SliceAttr) (held : Slice → Prop) (m₀ : Arrays Value)
    (es : List (Bytes × Option Slice)) (m : Arrays Value) : Prop where
  next : m₀.next ≤ m.next
  kept : ∀ t, held t → InMemory m t ∧ m.read t = m₀.read t
  entries : ∀ e ∈ es, ∀ s, e.2 = some s → InMemory m s ∧ Origin attrs m₀.next e.1 s
  names : (es.map (·.1)).Nodup
  apart : es.Pairwise fun e e' => ∀ s s', e.2 = some s → e'.2 = some s' → Apart s s'

/-- What happens to the values of an entry of the name of the attribute. -/
def hitS (grow : Slice → Nat → Nat) (a : SliceAttr) (avs : Option Slice) (m : Arrays Value) : Option Slice × Arrays Value :=
  match a with
  | .delim _ d vs => delimLoop grow false d vs 0 vs.len avs m
  | .plain _ vs => (some vs, m)
  | .bool _ => (none, m)

/-- The values of a new entry. -/
def newS (grow : Slice → Nat → Nat) (a : SliceAttr) (m : Arrays Value) : Option Slice × Arrays Value :=
  match a with
  | .delim _ d vs => delimLoop grow true d vs 0 vs.len (some (makeValues (vs.len * 2) m).1) (makeValues (vs.len * 2) m).2
  | .plain _ vs => (some vs, m)
  | .bool _ => (none, m)

def hitV (dl : Nat → List Value) (a : Attr) (avs : Option (List Value)) : Option (List Value) :=
  match a with
  | .delim _ d r => startDelim d (dl r) avs
  | .plain _ vs => some vs
  | .bool _ => none

theorem startAddS_hit (grow : Slice → Nat → Nat) (a : SliceAttr) (pre post : List (Bytes × Option Slice))
    (avs : Option Slice) (m : Arrays Value) (h : a.name ∉ pre.map (·.1)) :
    startAddS grow a (pre ++ (a.name, avs) :: post) m =
      (pre ++ (a.name, (hitS grow a avs m).1) :: post, (hitS grow a avs m).2) := by
  induction pre with
  | nil =>
    simp only [List.nil_append, startAddS]
    cases a <;> simp [SliceAttr.name, hitS]
  | cons e pre ih =>
    simp only [List.map_cons, List.mem_cons, not_or] at h
    obtain ⟨n, x⟩ := e
    simp only [List.cons_append, startAddS]
    rw [if_neg (Ne.symm h.1), ih h.2]

theorem startAddS_new (grow : Slice → Nat → Nat) (a : SliceAttr) (es : List (Bytes × Option Slice))
    (m : Arrays Value) (h : a.name ∉ es.map (·.1)) :
    startAddS grow a es m = (es ++ [(a.name, (newS grow a m).1)], (newS grow a m).2) := by
  induction es with
  | nil => cases a <;> simp [startAddS, SliceAttr.name, newS]
  | cons e es ih =>
    simp only [List.map_cons, List.mem_cons, not_or] at h
    obtain ⟨n, x⟩ := e
    simp only [List.cons_append, startAddS]
    rw [if_neg (Ne.symm h.1), ih h.2]

theorem startAdd_hit (dl : Nat → List Value) (a : Attr) (pre post : List (Bytes × Option (List Value)))
    (avs : Option (List Value)) (h : a.name ∉ pre.map (·.1)) :
    startAdd dl a (pre ++ (a.name, avs) :: post) = pre ++ (a.name, hitV dl a avs) :: post := by
  induction pre with
  | nil =>
    simp only [List.nil_append, startAdd]
    cases a <;> simp [Attr.name, hitV]
  | cons e pre ih =>
    simp only [List.map_cons, List.mem_cons, not_or] at h
    obtain ⟨n, x⟩ := e
    simp only [List.cons_append, startAdd]
    rw [if_neg (Ne.symm h.1), ih h.2]

theorem startAdd_new (dl : Nat → List Value) (a : Attr) (es : List (Bytes × Option (List Value)))
    (h : a.name ∉ es.map (·.1)) : startAdd dl a es = es ++ [(a.name, hitV dl a (some []))] := by
  induction es with
  | nil => cases a <;> simp [startAdd, Attr.name, hitV]
  | cons e es ih =>
    simp only [List.map_cons, List.mem_cons, not_or] at h
    obtain ⟨n, x⟩ := e
    simp only [List.cons_append, startAdd]
    rw [if_neg (Ne.symm h.1), ih h.2]

/-- The result of handling one attribute. -/
structure Handled (keep : Slice → Prop) (m : Arrays Value) (a : SliceAttr) (avs : Option Slice)
    (r : Option Slice × Arrays Value) : Prop where
  next : m.next ≤ r.2.next
  kept : ∀ t, keep t → InMemory r.2 t ∧ r.2.read t = m.read t
  avs : ∀ s, r.1 = some s → InMemory r.2 s ∧ (Grew m.next avs s ∨ a = .plain a.name s)

theorem hitS_ok {grow : Slice → Nat → Nat} {keep : Slice → Prop} {m m₁ : Arrays Value} {dl : Nat → List Value}
    {a : SliceAttr} {b : Attr} {avs : Option Slice} (hab : IsAttr m₁ dl a b)
    (hk : ∀ t, keep t → InMemory m t ∧ ∀ s, avs = some s → EndsBefore t s) (hs : ∀ s, avs = some s → InMemory m s)
    (ha : ∀ s, sliceOf a = some s → keep s ∧ m.read s = m₁.read s) :
    Handled keep m a avs (hitS grow a avs m) ∧
      (hitS grow a avs m).1.map (hitS grow a avs m).2.read = hitV dl b (avs.map m.read) := by
  cases hab with
  | plain n s =>
    have := ha s rfl
    refine ⟨⟨Nat.le_refl _, fun t ht => ⟨(hk t ht).1, rfl⟩, fun t h => ?_⟩, ?_⟩
    · cases h
      exact ⟨(hk s this.1).1, .inr rfl⟩
    · simp [hitS, hitV, this.2]
  | bool n => exact ⟨⟨Nat.le_refl _, fun t ht => ⟨(hk t ht).1, rfl⟩, fun t h => by cases h⟩, rfl⟩
  | delim n d s r hr =>
    have h1 := ha s rfl
    have := delimLoop_ok (grow := grow) (first := false) (d := d) hk h1.1 s.len 0 avs m
      (.start (fun t ht => (hk t ht).1) hs) (by omega) (by simp)
    refine ⟨⟨this.1.next, this.1.kept, fun t h => ⟨(this.1.avs t h).1, .inl (this.1.avs t h).2⟩⟩, ?_⟩
    have e := this.2
    rw [List.drop_zero, h1.2, ← hr] at e
    exact e

theorem newS_ok {grow : Slice → Nat → Nat} {keep : Slice → Prop} {m m₁ : Arrays Value} {dl : Nat → List Value}
    {a : SliceAttr} {b : Attr} (hab : IsAttr m₁ dl a b) (hk : ∀ t, keep t → InMemory m t)
    (ha : ∀ s, sliceOf a = some s → keep s ∧ m.read s = m₁.read s) :
    Handled keep m a none (newS grow a m) ∧
      (newS grow a m).1.map (newS grow a m).2.read = hitV dl b (some []) := by
  cases hab with
  | plain n s =>
    have := ha s rfl
    refine ⟨⟨Nat.le_refl _, fun t ht => ⟨hk t ht, rfl⟩, fun t h => ?_⟩, ?_⟩
    · cases h
      exact ⟨hk s this.1, .inr rfl⟩
    · simp [newS, hitV, this.2]
  | bool n => exact ⟨⟨Nat.le_refl _, fun t ht => ⟨hk t ht, rfl⟩, fun t h => by cases h⟩, rfl⟩
  | delim n d s r hr =>
    have h1 := ha s rfl
    have h0 : Appending keep m none (some (makeValues (s.len * 2) m).1) (makeValues (s.len * 2) m).2 := by
      refine ⟨Nat.le_succ _, fun t ht => ⟨?_, read_alloc_in (hk t ht)⟩, fun t h => ?_⟩
      · have := hk t ht
        refine ⟨this.1, this.2.imp id fun h => ⟨Nat.lt_succ_of_lt h.1, ?_⟩⟩
        simp only [makeValues, Arrays.alloc]
        rw [if_neg (by omega)]
        exact h.2
      · cases h
        refine ⟨⟨Nat.zero_le _, .inr ⟨by simp [makeValues, Arrays.alloc], by simp [makeValues, Arrays.alloc]⟩⟩, .inr ?_⟩
        simp [makeValues]
    have := delimLoop_ok (grow := grow) (first := true) (d := d) (avs₀ := none)
      (fun t ht => ⟨hk t ht, by simp⟩) h1.1 s.len 0 _ _ h0 (by omega) (by simp [makeValues])
    refine ⟨⟨this.1.next, this.1.kept, fun t h => ⟨(this.1.avs t h).1, .inl (this.1.avs t h).2⟩⟩, ?_⟩
    have e := this.2
    rw [List.drop_zero, h1.2, ← hr] at e
    refine e.trans ?_
    simp [hitV, Arrays.read, makeValues]

set_option linter.unusedSectionVars false

section
variable {attrs : List SliceAttr} {held : Slice → Prop} {m₀ : Arrays Value} (how : OwnArrays m₀ attrs)
  (hh : ∀ t, held t → InMemory m₀ t ∧ ∀ n s, .plain n s ∈ attrs → EndsBefore t s)
  (hat : ∀ a ∈ attrs, ∀ s, sliceOf a = some s → held s)
include how hh hat

/-- Slices in use elsewhere see nothing behind the slices of the entries. -/
theorem origin_before {n : Bytes} {s t : Slice} (ho : Origin attrs m₀.next n s) (ht : held t) : EndsBefore t s := by
  rcases ho with ho | ⟨s', h1, h2, h3, h4, h5⟩
  · rcases (hh t ht).1.2 with h | h
    · exact .inl h
    · exact .inr (.inr (.inl (by omega)))
  · rcases (hh t ht).2 n s' h1 with h | h | h | h
    · exact .inl h
    · exact .inr (.inl (by omega))
    · exact .inr (.inr (.inl (by rw [h2]; exact h)))
    · exact .inr (.inr (.inr (by omega)))

/-- The slice of a handled entry: where it comes from, and that it is apart from those of other entries. -/
theorem handled_entry {keep : Slice → Prop} {m : Arrays Value} {a : SliceAttr} {avs : Option Slice}
    {r : Option Slice × Arrays Value} (ha : a ∈ attrs) (hn : m₀.next ≤ m.next) (H : Handled keep m a avs r)
    (hs : ∀ s, avs = some s → Origin attrs m₀.next a.name s) {s : Slice} (h : r.1 = some s) :
    Origin attrs m₀.next a.name s ∧
    ∀ (n : Bytes) (t : Slice), n ≠ a.name → InMemory m t → Origin attrs m₀.next n t → (∀ s, avs = some s → Apart t s) →
      Apart t s := by
  have := (H.avs s h).2
  rcases this with (⟨s', h1, h2, h3, h4, h5⟩ | hg) | hp
  · refine ⟨?_, fun n t _ _ _ hap => ?_⟩
    · rcases hs s' h1 with ho | ⟨s'', g1, g2, g3, g4, g5⟩
      · exact .inl (by omega)
      · exact .inr ⟨s'', g1, by omega, by omega, by omega, by omega⟩
    · rcases hap s' h1 with h | h | h
      · exact .inl h
      · exact .inr (.inl (by omega))
      · exact .inr (.inr (by omega))
  · refine ⟨.inl (by omega), fun n t _ hm _ _ => ?_⟩
    rcases hm.2 with h | h
    · exact .inl h
    · exact .inr (.inr (by omega))
  · rw [hp] at ha
    have hm := how.inMemory _ ha s rfl
    refine ⟨.inr ⟨s, ha, rfl, rfl, rfl, Nat.le_refl _⟩, fun n t hne _ ho _ => ?_⟩
    rcases ho with ho | ⟨s', g1, g2, g3, g4, g5⟩
    · rcases hm.2 with h | h
      · exact .inr (.inl h)
      · exact .inr (.inr (by omega))
    · rcases how.names _ _ _ _ g1 ha hne with h | h | h
      · exact .inl (by omega)
      · exact .inr (.inl h)
      · exact .inr (.inr (by omega))

/-- One attribute. -/
theorem startAddS_ok (grow : Slice → Nat → Nat) {dl : Nat → List Value} {a : SliceAttr} {b : Attr} (ha : a ∈ attrs)
    (hab : IsAttr m₀ dl a b) {es : List (Bytes × Option Slice)} {m : Arrays Value}
    (C : Collecting attrs held m₀ es m) :
    Collecting attrs held m₀ (startAddS grow a es m).1 (startAddS grow a es m).2 ∧
      readEntries (startAddS grow a es m).2 (startAddS grow a es m).1 = startAdd dl b (readEntries m es) := by
  have hname : a.name = b.name := by cases hab <;> rfl
  have hfst : (readEntries m es).map (·.1) = es.map (·.1) := by simp [readEntries]
  by_cases hmem : a.name ∈ es.map (·.1)
  · obtain ⟨e, he, hen⟩ := List.mem_map.1 hmem
    obtain ⟨pre, post, rfl⟩ := List.append_of_mem he
    obtain ⟨n, avs⟩ := e
    simp only at hen
    subst hen
    have hnames := C.names
    rw [List.map_append, List.map_cons, List.nodup_append] at hnames
    have hpre : a.name ∉ pre.map (·.1) := fun h => hnames.2.2 _ h _ (by simp) rfl
    have hpost : a.name ∉ post.map (·.1) := (List.nodup_cons.1 hnames.2.1).1
    have hap := C.apart
    rw [List.pairwise_append, List.pairwise_cons] at hap
    -- the slices to keep: those in use elsewhere and those of the other entries
    let keep : Slice → Prop := fun t => held t ∨ ∃ e ∈ pre ++ post, e.2 = some t
    have hother : ∀ e ∈ pre ++ post, e ∈ pre ++ (a.name, avs) :: post := by
      intro e he
      rcases List.mem_append.1 he with h | h <;> simp [h]
    have hotherName : ∀ e ∈ pre ++ post, e.1 ≠ a.name := by
      intro e he h
      rcases List.mem_append.1 he with h' | h'
      · exact hpre (List.mem_map.2 ⟨e, h', h⟩)
      · exact hpost (List.mem_map.2 ⟨e, h', h⟩)
    have hapart : ∀ e ∈ pre ++ post, ∀ t s, e.2 = some t → avs = some s → Apart t s := by
      intro e he t s h1 h2
      rcases List.mem_append.1 he with h' | h'
      · exact hap.2.2 e h' (a.name, avs) (by simp) t s h1 h2
      · exact (hap.2.1.1 e h' s t h2 h1).symm
    have hk : ∀ t, keep t → InMemory m t ∧ ∀ s, avs = some s → EndsBefore t s := by
      rintro t (ht | ⟨e, he, ht⟩)
      · refine ⟨(C.kept t ht).1, fun s hs => ?_⟩
        exact origin_before how hh hat (C.entries (a.name, avs) (by simp) s hs).2 ht
      · exact ⟨(C.entries e (hother e he) t ht).1, fun s hs => (hapart e he t s ht hs).before⟩
    obtain ⟨H, hr⟩ := hitS_ok (grow := grow) hab hk (fun s hs => (C.entries (a.name, avs) (by simp) s hs).1)
      (fun s hs => ⟨.inl (hat a ha s hs), (C.kept s (hat a ha s hs)).2⟩)
    rw [startAddS_hit grow a pre post avs m hpre]
    simp only
    have hent : ∀ s, avs = some s → Origin attrs m₀.next a.name s := fun s hs =>
      (C.entries (a.name, avs) (by simp) s hs).2
    refine ⟨⟨Nat.le_trans C.next H.next, ?_, ?_, ?_, ?_⟩, ?_⟩
    · intro t ht
      exact ⟨(H.kept t (.inl ht)).1, (H.kept t (.inl ht)).2.trans (C.kept t ht).2⟩
    · intro e he s hs
      rcases List.mem_append.1 he with h | h
      · exact ⟨(H.kept s (.inr ⟨e, by simp [h], hs⟩)).1, (C.entries e (by simp [h]) s hs).2⟩
      · rcases List.mem_cons.1 h with rfl | h
        · exact ⟨(H.avs s hs).1, (handled_entry how hh hat ha C.next H hent hs).1⟩
        · exact ⟨(H.kept s (.inr ⟨e, by simp [h], hs⟩)).1, (C.entries e (by simp [h]) s hs).2⟩
    · simpa using C.names
    · have key : ∀ e ∈ pre ++ post, ∀ t s, e.2 = some t → (hitS grow a avs m).1 = some s → Apart t s := by
        intro e he t s ht hs
        have := C.entries e (hother e he) t ht
        exact (handled_entry how hh hat ha C.next H hent hs).2 e.1 t (hotherName e he) this.1 this.2
          fun s' h' => hapart e he t s' ht h'
      rw [List.pairwise_append, List.pairwise_cons]
      refine ⟨hap.1, ⟨fun e he s t h1 h2 => (key e (by simp [he]) t s h2 h1).symm, hap.2.1.2⟩, ?_⟩
      intro e he e' he' s t h1 h2
      rcases List.mem_cons.1 he' with rfl | he'
      · exact key e (by simp [he]) s t h1 h2
      · exact hap.2.2 e he e' (by simp [he']) s t h1 h2
    · have hrest : ∀ l : List (Bytes × Option Slice), (∀ e ∈ l, e ∈ pre ++ post) →
          readEntries (hitS grow a avs m).2 l = readEntries m l := by
        intro l hl
        unfold readEntries
        refine List.map_congr_left fun e he => ?_
        obtain ⟨n, x⟩ := e
        cases x with
        | none => rfl
        | some t => simp only [Option.map_some]; rw [(H.kept t (.inr ⟨_, hl _ he, rfl⟩)).2]
      have e1 : readEntries m (pre ++ (a.name, avs) :: post) =
          readEntries m pre ++ (b.name, avs.map m.read) :: readEntries m post := by simp [readEntries, hname]
      have e2 : readEntries (hitS grow a avs m).2 (pre ++ (a.name, (hitS grow a avs m).1) :: post) =
          readEntries (hitS grow a avs m).2 pre ++
            (b.name, (hitS grow a avs m).1.map (hitS grow a avs m).2.read) :: readEntries (hitS grow a avs m).2 post := by
        simp [readEntries, hname]
      rw [e2, e1, hr, startAdd_hit _ _ _ _ _ (by rw [← hname]; simpa [readEntries] using hpre),
        hrest pre (by intro e he; simp [he]), hrest post (by intro e he; simp [he])]
  · let keep : Slice → Prop := fun t => held t ∨ ∃ e ∈ es, e.2 = some t
    have hk : ∀ t, keep t → InMemory m t := by
      rintro t (ht | ⟨e, he, ht⟩)
      · exact (C.kept t ht).1
      · exact (C.entries e he t ht).1
    obtain ⟨H, hr⟩ := newS_ok (grow := grow) hab hk
      (fun s hs => ⟨.inl (hat a ha s hs), (C.kept s (hat a ha s hs)).2⟩)
    rw [startAddS_new grow a es m hmem]
    simp only
    refine ⟨⟨Nat.le_trans C.next H.next, ?_, ?_, ?_, ?_⟩, ?_⟩
    · intro t ht
      exact ⟨(H.kept t (.inl ht)).1, (H.kept t (.inl ht)).2.trans (C.kept t ht).2⟩
    · intro e he s hs
      rcases List.mem_append.1 he with h | h
      · exact ⟨(H.kept s (.inr ⟨e, h, hs⟩)).1, (C.entries e h s hs).2⟩
      · simp only [List.mem_singleton] at h
        subst h
        exact ⟨(H.avs s hs).1, (handled_entry how hh hat ha C.next H (by simp) hs).1⟩
    · rw [List.map_append, List.nodup_append]
      refine ⟨C.names, by simp, ?_⟩
      intro x hx y hy e
      simp at hy
      exact hmem (by rw [← hy, ← e]; exact hx)
    · rw [List.pairwise_append]
      refine ⟨C.apart, by simp, ?_⟩
      intro e he e' he' t s ht hs
      simp only [List.mem_singleton] at he'
      subst he'
      have := C.entries e he t ht
      refine (handled_entry how hh hat ha C.next H (by simp) hs).2 e.1 t ?_ this.1 this.2 (by simp)
      intro h
      exact hmem (List.mem_map.2 ⟨e, he, h⟩)
    · have hrest : readEntries (newS grow a m).2 es = readEntries m es := by
        unfold readEntries
        refine List.map_congr_left fun e he => ?_
        obtain ⟨n, x⟩ := e
        cases x with
        | none => rfl
        | some t => simp only [Option.map_some]; rw [(H.kept t (.inr ⟨_, he, rfl⟩)).2]
      have e2 : readEntries (newS grow a m).2 (es ++ [(a.name, (newS grow a m).1)]) =
          readEntries (newS grow a m).2 es ++ [(b.name, (newS grow a m).1.map (newS grow a m).2.read)] := by
        simp [readEntries, hname]
      rw [e2, hr, hrest, startAdd_new _ _ _ (by rw [← hname, hfst]; exact hmem)]

/-- All attributes. -/
theorem startCollectS_ok (grow : Slice → Nat → Nat) {dl : Nat → List Value} {as : List SliceAttr} {bs : List Attr}
    (has : ∀ a ∈ as, a ∈ attrs) (hab : Each (IsAttr m₀ dl) as bs) : ∀ {es : List (Bytes × Option Slice)} {m : Arrays Value},
    Collecting attrs held m₀ es m →
    Collecting attrs held m₀ (startCollectS grow as es m).1 (startCollectS grow as es m).2 ∧
      readEntries (startCollectS grow as es m).2 (startCollectS grow as es m).1 =
        startCollect dl (bs.map fun b => some (.attr b)) (readEntries m es) := by
  induction hab with
  | nil => intro es m C; exact ⟨C, rfl⟩
  | cons h hs ih =>
    intro es m C
    obtain ⟨C', e⟩ := startAddS_ok how hh hat grow (has _ (by simp)) h C
    have := ih (fun a ha => has a (by simp [ha])) C'
    simp only [startCollectS, List.map_cons, startCollect]
    rw [e] at this
    exact this

end

/-! Plain attributes without delimited ones of their name are not looked into. -/

/-- Whether there is a delimited attribute of this name. -/
def hasDelim (attrs : List SliceAttr) (n : Bytes) : Bool :=
  attrs.any fun
    | .delim m _ _ => m = n
    | _ => false

theorem hasDelim_iff {attrs : List SliceAttr} {n : Bytes} :
    hasDelim attrs n = true ↔ ∃ d s, .delim n d s ∈ attrs := by
  unfold hasDelim
  rw [List.any_eq_true]
  constructor
  · rintro ⟨a, ha, h⟩
    cases a with
    | delim m d s => simp only [decide_eq_true_eq] at h; subst h; exact ⟨d, s, ha⟩
    | plain m s => cases h
    | bool m => cases h
  · rintro ⟨d, s, h⟩
    exact ⟨_, h, by simp⟩

/-- The attribute without its values if no delimited one can follow. -/
def sealAttr (D : Bytes → Bool) : SliceAttr → SliceAttr
  | .plain n s => .plain n (if D n then s else .nil)
  | a => a

def sealEntry (D : Bytes → Bool) (e : Bytes × Option Slice) : Bytes × Option Slice :=
  (e.1, if D e.1 then e.2 else e.2.map fun _ => .nil)

theorem sealAttr_name (D : Bytes → Bool) (a : SliceAttr) : (sealAttr D a).name = a.name := by
  cases a <;> rfl

theorem startAddS_seal (grow : Slice → Nat → Nat) (D : Bytes → Bool) (a : SliceAttr)
    (hD : ∀ n d s, a = .delim n d s → D n = true) (es : List (Bytes × Option Slice)) (m : Arrays Value) :
    startAddS grow (sealAttr D a) (es.map (sealEntry D)) m =
      ((startAddS grow a es m).1.map (sealEntry D), (startAddS grow a es m).2) := by
  induction es generalizing m with
  | nil =>
    cases a with
    | delim n d s => simp [startAddS, sealAttr, sealEntry, hD n d s rfl]
    | plain n s => cases h : D n <;> simp [startAddS, sealAttr, sealEntry, h]
    | bool n => cases h : D n <;> simp [startAddS, sealAttr, sealEntry, h]
  | cons e es ih =>
    obtain ⟨n, avs⟩ := e
    simp only [List.map_cons, startAddS, sealAttr_name]
    by_cases hn : n = a.name
    · rw [if_pos (show (sealEntry D (n, avs)).1 = a.name from hn)]
      simp only [if_pos hn]
      cases a with
      | delim n' d s =>
        have hd : D n = true := by rw [hn]; exact hD n' d s rfl
        simp [sealAttr, sealEntry, hd]
      | plain n' s =>
        have : n = n' := hn
        subst this
        cases h : D n <;> simp [sealAttr, sealEntry, h]
      | bool n' => cases h : D n <;> simp [sealAttr, sealEntry, h]
    · rw [if_neg (show (sealEntry D (n, avs)).1 ≠ a.name from hn)]
      simp only [if_neg hn]
      rw [ih m]
      rfl

theorem startCollectS_seal (grow : Slice → Nat → Nat) (D : Bytes → Bool) (attrs : List SliceAttr)
    (hD : ∀ n d s, .delim n d s ∈ attrs → D n = true) : ∀ (es : List (Bytes × Option Slice)) (m : Arrays Value),
    startCollectS grow (attrs.map (sealAttr D)) (es.map (sealEntry D)) m =
      ((startCollectS grow attrs es m).1.map (sealEntry D), (startCollectS grow attrs es m).2) := by
  induction attrs with
  | nil => intro es m; rfl
  | cons a attrs ih =>
    intro es m
    simp only [List.map_cons, startCollectS]
    rw [startAddS_seal grow D a (fun n d s h => hD n d s (by simp [h]))]
    exact ih (fun n d s h => hD n d s (by simp [h])) _ _

/-- The values of a name without delimited attributes are those of one of its plain attributes. -/
theorem startAddS_plain (grow : Slice → Nat → Nat) (a : SliceAttr) (es : List (Bytes × Option Slice)) (m : Arrays Value)
    (n : Bytes) (hd : ∀ d s, a ≠ .delim n d s) (t : Slice) (ht : (n, some t) ∈ (startAddS grow a es m).1) :
    (n, some t) ∈ es ∨ a = .plain n t := by
  induction es generalizing m with
  | nil =>
    cases a with
    | delim n' d s =>
      simp only [startAddS, List.mem_singleton, Prod.mk.injEq] at ht
      exact absurd (by rw [ht.1]) (hd d s)
    | plain n' s => simp [startAddS] at ht; exact .inr (by rw [ht.1, ht.2])
    | bool n' => simp [startAddS] at ht
  | cons e es ih =>
    obtain ⟨k, avs⟩ := e
    simp only [startAddS] at ht
    by_cases hn : k = a.name
    · rw [if_pos hn] at ht
      cases a with
      | delim n' d s =>
        simp only [List.mem_cons, Prod.mk.injEq] at ht
        rcases ht with ht | ht
        · exact absurd (by rw [ht.1, hn]; rfl) (hd d s)
        · exact .inl (List.mem_cons_of_mem _ ht)
      | plain n' s =>
        simp only [List.mem_cons, Prod.mk.injEq, Option.some.injEq] at ht
        rcases ht with ht | ht
        · exact .inr (by rw [ht.1, ht.2, hn]; rfl)
        · exact .inl (List.mem_cons_of_mem _ ht)
      | bool n' =>
        simp only [List.mem_cons, Prod.mk.injEq, reduceCtorEq, and_false, false_or] at ht
        exact .inl (List.mem_cons_of_mem _ ht)
    · rw [if_neg hn] at ht
      simp only [List.mem_cons, Prod.mk.injEq] at ht
      rcases ht with ht | ht
      · exact .inl (by rw [ht.1, ht.2]; exact List.mem_cons_self)
      · rcases ih m ht with h | h
        · exact .inl (List.mem_cons_of_mem _ h)
        · exact .inr h

theorem startCollectS_plain (grow : Slice → Nat → Nat) (attrs : List SliceAttr) (n : Bytes)
    (hd : ∀ d s, .delim n d s ∉ attrs) (t : Slice) : ∀ (es : List (Bytes × Option Slice)) (m : Arrays Value),
    (n, some t) ∈ (startCollectS grow attrs es m).1 → (n, some t) ∈ es ∨ .plain n t ∈ attrs := by
  induction attrs with
  | nil => intro es m h; exact .inl h
  | cons a attrs ih =>
    intro es m h
    rcases ih (fun d s h => hd d s (by simp [h])) _ _ h with h | h
    · rcases startAddS_plain grow a es m n (fun d s e => hd d s (by simp [e])) t h with h | h
      · exact .inl h
      · exact .inr (by simp [h])
    · exact .inr (List.mem_cons_of_mem _ h)
end Aitch

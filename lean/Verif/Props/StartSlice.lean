import Verif.Proofs.StartSlice
import Verif.Proofs.Start
import Verif.Model.Value
/-
C73: `Start` and the arrays behind the attributes it is given.
-/
namespace Aitch.Props
open Spec

/-! ### C73 — Start leaves the attributes it is given alone; calls do not disturb each other (false in general) -/

/-- The results of `newValue` for the arguments of a constructor (value.go:67-69). -/
def partsOfArgs (dl : Nat → List Value) (contents : List Any) : List (Option (List Value)) :=
  contents.map fun
    | .nil => none
    | v => some (newValue dl v)

theorem partsOfArgs_flatten (dl : Nat → List Value) (contents : List Any) :
    ((partsOfArgs dl contents).filterMap id).flatten = newValues dl contents := by
  induction contents with
  | nil => rfl
  | cons v vs ih =>
    unfold partsOfArgs at ih ⊢
    cases v <;> simp [newValues, ← ih]

theorem newValuesLoop_ok (grow : Slice → Nat → Nat) (m₀ : Arrays Value) (parts : List (Option (List Value))) :
    ∀ (s : Slice) (m : Arrays Value), m₀.next ≤ m.next → InMemory m s → m₀.next ≤ s.arr →
    (∀ t, InMemory m₀ t → InMemory m t ∧ m.read t = m₀.read t) →
    let r := newValuesS.loop grow parts s m
    r.2.read r.1 = m.read s ++ (parts.filterMap id).flatten ∧ InMemory r.2 r.1 ∧ m₀.next ≤ r.1.arr ∧
    (∀ t, InMemory m₀ t → InMemory r.2 t ∧ r.2.read t = m₀.read t) ∧
    ((∀ p ∈ parts, ∃ v, p = some [v]) → s.cap = s.len + parts.length → r.1.cap = r.1.len) := by
  induction parts with
  | nil => intro s m hn hs ha hk; exact ⟨by simp [newValuesS.loop], hs, ha, hk, fun _ h => by simpa [newValuesS.loop] using h⟩
  | cons p ps ih =>
    intro s m hn hs ha hk
    cases p with
    | none =>
      have := ih s m hn hs ha hk
      refine ⟨by simpa [newValuesS.loop] using this.1, this.2.1, this.2.2.1, this.2.2.2.1, fun h => ?_⟩
      obtain ⟨v, hv⟩ := h none (by simp)
      cases hv
    | some vs =>
      have hb : ∀ t, InMemory m₀ t → EndsBefore t s := by
        intro t ht
        rcases ht.2 with h | h
        · exact .inl h
        · exact .inr (.inr (.inl (by omega)))
      have hg := append_grew grow zeroValue (m := m) vs (next := m₀.next) (s₀ := none) hn (.inl (.inr ha))
      have hg' : m₀.next ≤ (append grow zeroValue s vs m).1.arr := by
        rcases hg with ⟨_, h, _⟩ | h
        · cases h
        · exact h
      have := ih (append grow zeroValue s vs m).1 (append grow zeroValue s vs m).2
        (Nat.le_trans hn (append_next ..)) (append_result grow zeroValue vs hs) hg'
        (fun t ht => ⟨append_inMemory grow zeroValue vs hs (hk t ht).1,
          (append_before grow zeroValue vs hs (hk t ht).1 (hb t ht)).trans (hk t ht).2⟩)
      refine ⟨?_, this.2.1, this.2.2.1, this.2.2.2.1, fun h hc => ?_⟩
      · simp only [newValuesS.loop]
        rw [this.1, append_read grow zeroValue vs hs]
        simp
      · obtain ⟨v, hv⟩ := h (some vs) (by simp)
        cases hv
        refine this.2.2.2.2 (fun p hp => h p (by simp [hp])) ?_
        have e : append grow zeroValue s [v] m =
            ({ s with len := s.len + 1 }, m.store s.arr (s.off + s.len) [v]) := by
          unfold append
          rw [if_neg (by simp), if_pos (by simp at hc ⊢; omega)]
          rfl
        rw [e]
        simp at hc ⊢
        omega

/-- A constructor puts the values into an array of their own and leaves all memory in use alone.  There is no spare
capacity if every argument is not nil and gives one value. -/
theorem C73_constructor (grow : Slice → Nat → Nat) (dl : Nat → List Value) (contents : List Any) (m : Arrays Value) :
    let r := newValuesS grow (partsOfArgs dl contents) m
    r.2.read r.1 = newValues dl contents ∧ InMemory r.2 r.1 ∧ m.next ≤ r.1.arr ∧
    (∀ t, InMemory m t → InMemory r.2 t ∧ r.2.read t = m.read t) ∧
    ((∀ v ∈ contents, ∃ x, v ≠ .nil ∧ newValue dl v = [x]) → r.1.cap = r.1.len) := by
  have h0 : ∀ n, InMemory (makeValues n m).2 (makeValues n m).1 := by
    intro n
    exact ⟨Nat.zero_le _, .inr ⟨by simp [makeValues, Arrays.alloc], by simp [makeValues, Arrays.alloc]⟩⟩
  have h1 := newValuesLoop_ok grow m (partsOfArgs dl contents) (makeValues (partsOfArgs dl contents).length m).1
    (makeValues (partsOfArgs dl contents).length m).2 (Nat.le_succ _) (h0 _) (Nat.le_refl _) (by
      intro t ht
      refine ⟨⟨ht.1, ht.2.imp id fun h => ⟨Nat.lt_succ_of_lt h.1, ?_⟩⟩, read_alloc_in ht⟩
      simp only [makeValues, Arrays.alloc]
      rw [if_neg (by omega)]
      exact h.2)
  obtain ⟨h1, h2, h3, h4, h5⟩ := h1
  refine ⟨?_, h2, h3, h4, fun h => h5 ?_ (by simp [makeValues])⟩
  · refine h1.trans ?_
    have e : (makeValues (partsOfArgs dl contents).length m).2.read (makeValues (partsOfArgs dl contents).length m).1 = [] := by
      simp [Arrays.read, makeValues]
    rw [e, List.nil_append]
    exact partsOfArgs_flatten dl contents
  · intro p hp
    obtain ⟨v, hv, rfl⟩ := List.mem_map.1 hp
    obtain ⟨x, hx, hxv⟩ := h v hv
    cases v <;> simp_all

/-- `Start` collects, in arrays, what the model with lists of values says (so everything said about `Start` in C26,
C61 and C72 holds for the arrays), whatever capacities the slices have and however `append` grows. -/
theorem C73_collect (grow : Slice → Nat → Nat) (dl : Nat → List Value) (attrs : List SliceAttr) (bs : List Attr)
    (m : Arrays Value) (how : OwnArrays m attrs) (hab : Each (IsAttr m dl) attrs bs) :
    readEntries (startCollectS grow attrs [] m).2 (startCollectS grow attrs [] m).1 =
      startCollect dl (bs.map fun b => some (.attr b)) [] :=
  (startCollectS_ok (es := []) (attrs := attrs) (held := fun t => ∃ a ∈ attrs, sliceOf a = some t) how
    (by
      rintro t ⟨a, ha, ht⟩
      exact ⟨how.inMemory a ha t ht, fun n s hs => how.before n s a t hs ha ht⟩)
    (fun a ha s hs => ⟨a, ha, hs⟩) grow (fun a ha => ha) hab
    ⟨Nat.le_refl _, fun t ⟨a, ha, ht⟩ => ⟨how.inMemory a ha t ht, rfl⟩, by simp, by simp, by simp⟩).2

/-- Attributes in arrays as attributes with lists of values: the values of the one with number `i` are at address `i`. -/
theorem exists_attrs (attrs : List SliceAttr) (m : Arrays Value) : ∃ dl bs, Each (IsAttr m dl) attrs bs := by
  let dl : Nat → List Value := fun i => ((attrs[i]?.bind sliceOf).map m.read).getD []
  refine ⟨dl, ?_⟩
  have key : ∀ (l : List SliceAttr) (k : Nat), (∀ i, l[i]? = attrs[k + i]?) → ∃ bs, Each (IsAttr m dl) l bs := by
    intro l
    induction l with
    | nil => intro k _; exact ⟨[], .nil⟩
    | cons a l ih =>
      intro k hk
      obtain ⟨bs, hbs⟩ := ih (k + 1) fun i => by
        have := hk (i + 1)
        rw [List.getElem?_cons_succ] at this
        rw [this]; congr 1; omega
      have ha : attrs[k]? = some a := by simpa using (hk 0).symm
      cases a with
      | plain n s => exact ⟨_, .cons (.plain n s) hbs⟩
      | bool n => exact ⟨_, .cons (.bool n) hbs⟩
      | delim n d s => exact ⟨_, .cons (.delim n d s k (by simp [dl, ha, sliceOf])) hbs⟩
  exact key attrs 0 (by simp)

theorem startCollectS_kept (grow : Slice → Nat → Nat) (attrs : List SliceAttr) (m : Arrays Value) (how : OwnArrays m attrs)
    (t : Slice) (ht : InMemory m t) (hb : ∀ n s, .plain n s ∈ attrs → EndsBefore t s) :
    (startCollectS grow attrs [] m).2.read t = m.read t := by
  obtain ⟨dl, bs, hab⟩ := exists_attrs attrs m
  have := (startCollectS_ok (es := []) (attrs := attrs) (held := fun u => u = t ∨ ∃ a ∈ attrs, sliceOf a = some u) how
    (by
      rintro u (rfl | ⟨a, ha, hu⟩)
      · exact ⟨ht, hb⟩
      · exact ⟨how.inMemory a ha u hu, fun n s hs => how.before n s a u hs ha hu⟩)
    (fun a ha s hs => .inr ⟨a, ha, hs⟩) grow (fun a ha => ha) hab
    ⟨Nat.le_refl _, by
      rintro u (rfl | ⟨a, ha, hu⟩)
      · exact ⟨ht, rfl⟩
      · exact ⟨how.inMemory a ha u hu, rfl⟩, by simp, by simp, by simp⟩).1
  exact (this.kept t (.inl rfl)).2

theorem sealed_own {m : Arrays Value} {attrs : List SliceAttr} (how : OwnArrays m attrs) (D : Bytes → Bool) :
    OwnArrays m (attrs.map (sealAttr D)) := by
  have plain : ∀ n s, .plain n s ∈ attrs.map (sealAttr D) → s = .nil ∨ .plain n s ∈ attrs := by
    intro n s h
    obtain ⟨a, ha, e⟩ := List.mem_map.mp h
    cases a with
    | plain n' s' =>
      simp only [sealAttr, SliceAttr.plain.injEq] at e
      cases hD : D n' with
      | true => rw [hD, if_pos rfl] at e; rw [← e.1, ← e.2]; exact .inr ha
      | false => rw [hD] at e; exact .inl e.2.symm
    | bool _ => cases e
    | delim _ _ _ => cases e
  have slice : ∀ a ∈ attrs.map (sealAttr D), ∀ s, sliceOf a = some s → s = .nil ∨ ∃ b ∈ attrs, sliceOf b = some s := by
    intro a ha s hs
    cases a with
    | plain n t =>
      rcases plain n t ha with h | h
      · cases hs; exact .inl h
      · exact .inr ⟨_, h, hs⟩
    | bool _ => cases hs
    | delim n d t =>
      obtain ⟨b, hb, e⟩ := List.mem_map.mp ha
      cases b with
      | delim _ _ _ => cases e; exact .inr ⟨_, hb, hs⟩
      | plain _ _ => cases e
      | bool _ => cases e
  refine ⟨fun a ha s hs => ?_, fun n s a t hn ha ht => ?_, fun n s n' s' hn hn' hne => ?_⟩
  · rcases slice a ha s hs with rfl | ⟨b, hb, h⟩
    · exact nil_inMemory m
    · exact how.inMemory b hb s h
  · rcases plain n s hn with rfl | hn
    · exact .inr (.inl rfl)
    · rcases slice a ha t ht with rfl | ⟨b, hb, h⟩
      · exact .inl rfl
      · exact how.before n s b t hn hb h
  · rcases plain n s hn with rfl | hn
    · exact .inl rfl
    · rcases plain n' s' hn' with rfl | hn'
      · exact .inr (.inl rfl)
      · exact how.names n s n' s' hn hn' hne

/-- It changes no slice in use: neither those of the attributes nor any other that does not look behind the end of
the values of a plain attribute that is given together with a delimited one of its name. -/
theorem C73_kept (grow : Slice → Nat → Nat) (attrs : List SliceAttr) (m : Arrays Value) (how : OwnArrays m attrs)
    (t : Slice) (ht : InMemory m t)
    (hb : ∀ n s d s', .plain n s ∈ attrs → .delim n d s' ∈ attrs → EndsBefore t s) :
    (startCollectS grow attrs [] m).2.read t = m.read t := by
  have e := startCollectS_seal grow (hasDelim attrs) attrs (fun n d s h => hasDelim_iff.2 ⟨d, s, h⟩) [] m
  have k := startCollectS_kept grow (attrs.map (sealAttr (hasDelim attrs))) m (sealed_own how _) t ht ?_
  · rw [List.map_nil] at e
    rw [e] at k
    exact k
  · intro n s hn
    obtain ⟨a, ha, h⟩ := List.mem_map.mp hn
    cases a with
    | plain n' s' =>
      simp only [sealAttr, SliceAttr.plain.injEq] at h
      cases hD : hasDelim attrs n' with
      | true =>
        rw [hD, if_pos rfl] at h
        obtain ⟨d, s2, h2⟩ := hasDelim_iff.1 hD
        rw [← h.2]
        exact hb n' s' d s2 ha h2
      | false => rw [hD] at h; rw [← h.2]; exact .inr (.inl rfl)
    | bool _ => cases h
    | delim _ _ _ => cases h

/-- The full claim: a call of `Start` made (by another goroutine, or by a function that supplies a value) after this one
has collected its attributes and before it has written them does not change what this one writes. -/
def C73_claim : Prop := ∀ (grow : Slice → Nat → Nat) (attrs attrs' : List SliceAttr) (m : Arrays Value),
  OwnArrays m (attrs ++ attrs') →
  let r := startCollectS grow attrs [] m
  readEntries (startCollectS grow attrs' [] r.2).2 r.1 = readEntries r.2 r.1

/-- It is false: `title := NewAttribute("title", nil)` has an array of capacity 1 that is empty;
`Start("p", false, title, DelimitedAttribute("title", " ", "mine"))` puts its value there, and so does another call of
`Start` with `title` and a value of its own, which the first one then writes. -/
theorem C73_false : ¬ C73_claim := by
  intro h
  have h1 := h (fun _ _ => 0) [.plain b%"title" ⟨0, 0, 0, 1⟩, .delim b%"title" b%" " ⟨1, 0, 1, 1⟩]
    [.plain b%"title" ⟨0, 0, 0, 1⟩, .delim b%"title" b%" " ⟨2, 0, 1, 1⟩]
    ⟨fun a => if a = 0 then [zeroValue] else if a = 1 then [.mk b%"mine" none []] else [.mk b%"yours" none []], 3⟩
    ⟨by
      intro a ha s hs
      simp only [List.cons_append, List.nil_append, List.mem_cons, List.not_mem_nil, or_false] at ha
      rcases ha with rfl | rfl | rfl | rfl <;> (cases hs; exact ⟨by decide, .inr (by decide)⟩),
     by
      intro n s a t hn ha ht
      simp only [List.cons_append, List.nil_append, List.mem_cons, List.not_mem_nil, or_false, SliceAttr.plain.injEq,
        reduceCtorEq, false_or] at hn ha
      have hs : s = ⟨0, 0, 0, 1⟩ := by rcases hn with h | h <;> exact h.2
      subst hs
      rcases ha with rfl | rfl | rfl | rfl <;> (cases ht; simp [EndsBefore]),
     by
      intro n s n' s' hn hn' hne
      simp only [List.cons_append, List.nil_append, List.mem_cons, List.not_mem_nil, or_false, SliceAttr.plain.injEq,
        reduceCtorEq, false_or] at hn hn'
      have h1 : n = b%"title" := by rcases hn with h | h <;> exact h.1
      have h2 : n' = b%"title" := by rcases hn' with h | h <;> exact h.1
      exact absurd (h1.trans h2.symm) hne⟩
  have h2 : [(b%"title", some [Value.mk b%"yours" none []])] = [(b%"title", some [Value.mk b%"mine" none []])] := h1
  simp at h2

/-- What holds: calls do not disturb each other unless both append to the values of the same plain attribute (they are given
a delimited attribute of its name besides) and these have spare capacity.  Missing: just those.  (Attributes have spare
capacity if they are made with nil arguments or arguments that stand for several values, see `C73_constructor`.) -/
theorem C73_overlap_partial (grow : Slice → Nat → Nat) (attrs attrs' : List SliceAttr) (m : Arrays Value)
    (how : OwnArrays m (attrs ++ attrs'))
    (hsep : ∀ n s d t s' d' t', .plain n s ∈ attrs → .delim n d t ∈ attrs → .plain n s' ∈ attrs' → .delim n d' t' ∈ attrs' →
      s.cap = s.len ∨ s.arr ≠ s'.arr) :
    readEntries (startCollectS grow attrs' [] (startCollectS grow attrs [] m).2).2 (startCollectS grow attrs [] m).1 =
      readEntries (startCollectS grow attrs [] m).2 (startCollectS grow attrs [] m).1 := by
  obtain ⟨dl, bs, hab⟩ := exists_attrs attrs m
  have how₁ : OwnArrays m attrs := by
    refine ⟨fun a ha s hs => how.inMemory a (by simp [ha]) s hs, fun n s a t hn ha => ?_, fun n s n' s' hn hn' => ?_⟩
    · exact how.before n s a t (by simp [hn]) (by simp [ha])
    · exact how.names n s n' s' (by simp [hn]) (by simp [hn'])
  have C := (startCollectS_ok (es := []) (attrs := attrs) (held := fun u => ∃ a ∈ attrs ++ attrs', sliceOf a = some u) how₁
    (by
      rintro u ⟨a, ha, hu⟩
      exact ⟨how.inMemory a ha u hu, fun n s hs => how.before n s a u (by simp [hs]) ha hu⟩)
    (fun a ha s hs => ⟨a, by simp [ha], hs⟩) grow (fun a ha => ha) hab
    ⟨Nat.le_refl _, by
      rintro u ⟨a, ha, hu⟩
      exact ⟨how.inMemory a ha u hu, rfl⟩, by simp, by simp, by simp⟩).1
  have how' : OwnArrays (startCollectS grow attrs [] m).2 attrs' := by
    refine ⟨fun a ha s hs => (C.kept s ⟨a, by simp [ha], hs⟩).1, fun n s a t hn ha => ?_, fun n s n' s' hn hn' => ?_⟩
    · exact how.before n s a t (by simp [hn]) (by simp [ha])
    · exact how.names n s n' s' (by simp [hn]) (by simp [hn'])
  unfold readEntries
  refine List.map_congr_left fun e he => ?_
  obtain ⟨n, x⟩ := e
  cases x with
  | none => rfl
  | some t =>
    have ht := C.entries _ he t rfl
    simp only [Option.map_some]
    rw [C73_kept grow attrs' _ how' t ht.1]
    intro n' s d s2 hs hd
    have hs' : SliceAttr.plain n' s ∈ attrs ++ attrs' := by simp [hs]
    cases hD : hasDelim attrs n with
    | false =>
      have hno : ∀ d s, SliceAttr.delim n d s ∉ attrs := fun d s h => by
        rw [hasDelim_iff.2 ⟨d, s, h⟩] at hD
        cases hD
      rcases startCollectS_plain grow attrs n hno t [] m he with h | h
      · cases h
      · exact how.before _ _ _ _ hs' (List.mem_append_left _ h) rfl
    | true =>
      obtain ⟨d0, t0, h0⟩ := hasDelim_iff.1 hD
      rcases ht.2 with ho | ⟨s', h1, h2, h3, h4, h5⟩
      · rcases (how.inMemory _ hs' s rfl).2 with h | h
        · exact .inr (.inl h)
        · exact .inr (.inr (.inl (by omega)))
      · have hl := ht.1.1
        have h1' : SliceAttr.plain n s' ∈ attrs ++ attrs' := by simp [h1]
        by_cases hn : n = n'
        · subst hn
          rcases hsep n s' d0 t0 s d s2 h1 h0 hs hd with hf | h
          · rcases how.before _ _ _ _ hs' h1' rfl with h | h | h | h
            · exact .inl (by omega)
            · exact .inr (.inl h)
            · exact .inr (.inr (.inl (by rw [h2]; exact h)))
            · exact .inr (.inr (.inr (by omega)))
          · exact .inr (.inr (.inl (by rw [h2]; exact h)))
        · rcases how.names _ _ _ _ h1' hs' hn with h | h | h
          · exact .inl (by omega)
          · exact .inr (.inl h)
          · exact .inr (.inr (.inl (by rw [h2]; exact h)))

/-- A plain attribute with spare capacity given to both calls; only the first one appends to its values. -/
example : readEntries
      (startCollectS (fun _ _ => 0) [.plain b%"title" ⟨0, 0, 0, 1⟩, .delim b%"lang" b%" " ⟨2, 0, 1, 1⟩] []
        (startCollectS (fun _ _ => 0) [.plain b%"title" ⟨0, 0, 0, 1⟩, .delim b%"title" b%" " ⟨1, 0, 1, 1⟩] []
          ⟨fun a => if a = 0 then [zeroValue] else if a = 1 then [.mk b%"mine" none []] else [.mk b%"en" none []], 3⟩).2).2
      (startCollectS (fun _ _ => 0) [.plain b%"title" ⟨0, 0, 0, 1⟩, .delim b%"title" b%" " ⟨1, 0, 1, 1⟩] []
          ⟨fun a => if a = 0 then [zeroValue] else if a = 1 then [.mk b%"mine" none []] else [.mk b%"en" none []], 3⟩).1 =
    [(b%"title", some [Value.mk b%"mine" none []])] := rfl

/-- Two plain attributes and a delimited one, as three constructors leave them in memory. -/
example : ∃ (attrs : List SliceAttr) (m : Arrays Value) (bs : List Attr) (dl : Nat → List Value), attrs.length = 3 ∧
    OwnArrays m attrs ∧ Each (IsAttr m dl) attrs bs ∧
    readEntries (startCollectS (fun _ _ => 0) attrs [] m).2 (startCollectS (fun _ _ => 0) attrs [] m).1 =
      [(b%"id", some [.mk b%"x" none [], .mk b%"-" none [], .mk b%"z" none []]), (b%"lang", some [.mk b%"y" none []])] := by
  refine ⟨[.plain b%"id" ⟨0, 0, 1, 2⟩, .plain b%"lang" ⟨1, 0, 1, 1⟩, .delim b%"id" b%"-" ⟨2, 0, 1, 1⟩],
    ⟨fun a => if a = 0 then [.mk b%"x" none [], zeroValue] else if a = 1 then [.mk b%"y" none []] else
      [.mk b%"z" none []], 3⟩, _, fun _ => [.mk b%"z" none []], rfl, ⟨?_, ?_, ?_⟩,
    .cons (.plain _ _) (.cons (.plain _ _) (.cons (.delim _ _ _ 0 rfl) .nil)), rfl⟩
  · intro a ha s hs
    simp only [List.mem_cons, List.not_mem_nil, or_false] at ha
    rcases ha with rfl | rfl | rfl <;> (cases hs; exact ⟨by decide, .inr (by decide)⟩)
  · intro n s a t hn ha ht
    simp only [List.mem_cons, List.not_mem_nil, or_false, SliceAttr.plain.injEq, reduceCtorEq] at hn ha
    rcases hn with ⟨rfl, rfl⟩ | ⟨rfl, rfl⟩ <;> rcases ha with rfl | rfl | rfl <;> (cases ht; simp [EndsBefore])
  · intro n s n' s' hn hn' hne
    simp only [List.mem_cons, List.not_mem_nil, or_false, SliceAttr.plain.injEq, reduceCtorEq] at hn hn'
    rcases hn with ⟨rfl, rfl⟩ | ⟨rfl, rfl⟩ <;> rcases hn' with ⟨rfl, rfl⟩ | ⟨rfl, rfl⟩ <;> simp_all

end Aitch.Props

import Verif.Spec.Htmx
/-
Lemmas about header maps.
-/
namespace Aitch
open Spec

theorem lookup_cons' (j k : Bytes) (v : Any) (m : GoMap) :
    List.lookup j ((k, v) :: m) = if j = k then some v else m.lookup j := by
  rw [List.lookup_cons]
  by_cases h : j = k
  · simp [h]
  · rw [if_neg h, beq_eq_false_iff_ne.2 h]

theorem lookup_append' (j : Bytes) (m l : GoMap) : List.lookup j (m ++ l) = (m.lookup j).or (l.lookup j) := by
  induction m with
  | nil => rfl
  | cons e m ih =>
    obtain ⟨k, v⟩ := e
    rw [List.cons_append, lookup_cons', lookup_cons', ih]
    split <;> rfl

theorem lookup_isSome (j : Bytes) (m : GoMap) : (m.lookup j).isSome ↔ j ∈ keysOf m := by
  induction m with
  | nil => simp [keysOf]
  | cons e m ih =>
    obtain ⟨k, v⟩ := e
    rw [lookup_cons']
    by_cases h : j = k
    · simp [h, keysOf]
    · rw [if_neg h, ih]; simp [keysOf, h]

theorem lookup_none (j : Bytes) (m : GoMap) : m.lookup j = none ↔ j ∉ keysOf m := by
  rw [← lookup_isSome]; cases m.lookup j <;> simp

theorem lookup_set (m : GoMap) (k : Bytes) (v : Any) (j : Bytes) :
    List.lookup j (m.put k v) = if j = k then some v else m.lookup j := by
  unfold GoMap.put
  by_cases hk : k ∈ m.map (·.1)
  · rw [if_pos hk]
    induction m with
    | nil => simp at hk
    | cons e m ih =>
      obtain ⟨k', v'⟩ := e
      rw [List.map_cons]
      by_cases he : k' = k
      · subst he
        simp only [if_true]
        rw [lookup_cons', lookup_cons']
        by_cases hj : j = k'
        · simp [hj]
        · simp only [if_neg hj]
          have : ∀ l : GoMap, List.lookup j (l.map fun e => if e.1 = k' then (k', v) else e) = l.lookup j := by
            intro l
            induction l with
            | nil => rfl
            | cons e l ih =>
              obtain ⟨a, b⟩ := e
              rw [List.map_cons]
              by_cases ha : a = k'
              · subst ha
                simp only [if_true]
                rw [lookup_cons', lookup_cons', if_neg hj, if_neg hj, ih]
              · simp only [if_neg ha]
                rw [lookup_cons', lookup_cons', ih]
          exact this m
      · simp only [if_neg he]
        rw [lookup_cons', lookup_cons', ih (by
          rw [List.map_cons, List.mem_cons] at hk
          exact hk.resolve_left fun h => he h.symm)]
        by_cases hj : j = k'
        · rw [if_pos hj, if_pos hj, if_neg (by rw [hj]; exact he)]
        · rw [if_neg hj, if_neg hj]
  · rw [if_neg hk, lookup_append', lookup_cons']
    by_cases hj : j = k
    · subst hj
      rw [(lookup_none j m).2 hk]; simp
    · simp [hj]

theorem set_isMap (m : GoMap) (k : Bytes) (v : Any) (h : IsMap m) : IsMap (m.put k v) := by
  unfold GoMap.put
  unfold IsMap keysOf at *
  split
  · have : (m.map fun e => if e.1 = k then (k, v) else e).map (·.1) = m.map (·.1) := by
      rw [List.map_map]
      apply List.map_congr_left
      intro e _
      simp only [Function.comp]
      split
      · rename_i he; exact he.symm
      · rfl
    rw [this]; exact h
  · rename_i hk
    rw [List.map_append, List.nodup_append]
    refine ⟨h, by simp, ?_⟩
    intro a ha b hb
    simp only [List.map_cons, List.map_nil, List.mem_singleton] at hb
    rw [hb]
    rintro rfl
    exact hk ha

/-- Looking up does not depend on the order of the entries. -/
theorem lookup_perm {m l : GoMap} (hp : m.Perm l) (h : IsMap l) (j : Bytes) : m.lookup j = l.lookup j := by
  induction hp with
  | nil => rfl
  | cons e _ ih =>
    obtain ⟨k, v⟩ := e
    rw [lookup_cons', lookup_cons', ih (List.nodup_cons.1 h).2]
  | swap e f l =>
    obtain ⟨k, v⟩ := e
    obtain ⟨k', v'⟩ := f
    rw [lookup_cons', lookup_cons', lookup_cons', lookup_cons']
    have hne : k ≠ k' := by
      intro he
      simp [IsMap, keysOf, he] at h
    by_cases h1 : j = k
    · rw [if_pos h1, if_neg (by rw [h1]; exact hne), if_pos h1]
    · rw [if_neg h1, if_neg h1]
  | trans h1 h2 ih1 ih2 =>
    rw [ih1 (List.Nodup.perm h (h2.symm.map _)), ih2 h]

theorem foldl_set (l m : GoMap) (hm : IsMap m) (hl : IsMap l) :
    IsMap (l.foldl (fun (m : GoMap) e => m.put e.1 e.2) m) ∧
    ∀ j, List.lookup j (l.foldl (fun (m : GoMap) e => m.put e.1 e.2) m) = (l.lookup j).or (m.lookup j) := by
  induction l generalizing m with
  | nil => exact ⟨hm, fun j => rfl⟩
  | cons e l ih =>
    obtain ⟨k, v⟩ := e
    obtain ⟨h1, h2⟩ := ih (m.put k v) (set_isMap m k v hm) (List.nodup_cons.1 hl).2
    refine ⟨h1, fun j => ?_⟩
    rw [List.foldl_cons, h2, lookup_set, lookup_cons']
    by_cases hj : j = k
    · subst hj
      rw [(lookup_none j l).2 (List.nodup_cons.1 hl).1]
      simp
    · simp [hj]

theorem mergeInto_spec {ord : GoMap → GoMap} (ho : ∀ m, (ord m).Perm m) (hm merged : GoMap) (h1 : IsMap hm)
    (h2 : IsMap merged) : IsMap (mergeInto ord hm merged) ∧
    ∀ j, (mergeInto ord hm merged).lookup j = (hm.lookup j).or (merged.lookup j) := by
  obtain ⟨h3, h4⟩ := foldl_set (ord hm) merged h2 (List.Nodup.perm h1 ((ho hm).symm.map _))
  exact ⟨h3, fun j => by rw [mergeInto, h4, lookup_perm (ho hm) h1]⟩

theorem lastValue_cons (hm : GoMap) (maps : List GoMap) (j : Bytes) :
    lastValue (hm :: maps) j = (lastValue maps j).or (hm.lookup j) := by
  unfold lastValue
  rw [List.reverse_cons, List.findSome?_append, List.findSome?_cons, List.findSome?_nil]
  cases hm.lookup j <;> simp

theorem mergeMaps_spec {ord : Nat → GoMap → GoMap} (ho : Visits ord) (i : Nat) (maps : List GoMap) (merged : GoMap)
    (h1 : ∀ m ∈ maps, IsMap m) (h2 : IsMap merged) : IsMap (mergeMaps ord i maps merged) ∧
    ∀ j, (mergeMaps ord i maps merged).lookup j = (lastValue maps j).or (merged.lookup j) := by
  induction maps generalizing i merged with
  | nil => exact ⟨h2, fun j => rfl⟩
  | cons hm maps ih =>
    obtain ⟨h3, h4⟩ := mergeInto_spec (ho i) hm merged (h1 hm (by simp)) h2
    obtain ⟨h5, h6⟩ := ih (i + 1) (mergeInto (ord i) hm merged) (fun m hm' => h1 m (by simp [hm'])) h3
    refine ⟨h5, fun j => ?_⟩
    rw [mergeMaps, h6, h4, lastValue_cons, Option.or_assoc]

theorem asHeadersMap_map (m : GoMap) : asHeadersMap (.strMap headersMapType true m) = some m := by simp [asHeadersMap]

theorem headersLoop_maps (ord : Nat → GoMap → GoMap) (i : Nat) (maps : List GoMap) (fm : Bool) (merged : GoMap) :
    headersLoop ord i (maps.map (.strMap headersMapType true)) fm false merged =
      (fm || !maps.isEmpty, false, mergeMaps ord i maps merged) := by
  induction maps generalizing i fm merged with
  | nil => simp [headersLoop, mergeMaps]
  | cons m maps ih =>
    rw [List.map_cons, headersLoop]
    simp only [asHeadersMap_map]
    rw [if_neg (by simp), ih]
    simp [mergeMaps]

theorem headersLoop_flags (ord : Nat → GoMap → GoMap) (i : Nat) (vs : List Any) (fm fo : Bool) (merged : GoMap)
    (hx : ¬ (fm = true ∧ fo = true)) :
    let r := headersLoop ord i vs fm fo merged
    ((r.1 = true ∧ r.2.1 = true) ↔ (fm = true ∨ ∃ v ∈ vs, (asHeadersMap v).isSome) ∧
      (fo = true ∨ ∃ v ∈ vs, asHeadersMap v = none)) ∧
    ((∀ v ∈ vs, asHeadersMap v = none) → r.1 = fm) := by
  induction vs generalizing i fm fo merged with
  | nil => simp [headersLoop]
  | cons v vs ih =>
    rw [headersLoop]
    cases hv : asHeadersMap v with
    | some hm =>
      simp only
      by_cases hf : fo = true
      · subst hf
        simp [hv]
      · rw [if_neg hf]
        have := ih (i + 1) true fo (mergeInto (ord i) hm merged) (by simp [hf])
        simp only at this ⊢
        refine ⟨?_, fun h => ?_⟩
        · rw [this.1]
          simp [hv]
        · simp [hv] at h
    | none =>
      simp only
      by_cases hf : fm = true
      · subst hf
        simp [hv]
      · rw [if_neg hf]
        have := ih (i + 1) fm true merged (by simp [hf])
        simp only at this ⊢
        refine ⟨?_, fun h => ?_⟩
        · rw [this.1]
          simp [hv]
        · exact this.2 fun v hv' => h v (by simp [hv'])

/-! ### Sorting -/

theorem bytesLe_iff (a b : Bytes) : bytesLe a b = true ↔ a = b ∨ Before a b := by
  induction a generalizing b with
  | nil =>
    cases b with
    | nil => simp [bytesLe]
    | cons y b => simp [bytesLe, Before]
  | cons x a ih =>
    cases b with
    | nil => simp [bytesLe, Before]
    | cons y b =>
      simp only [bytesLe, Bool.or_eq_true, decide_eq_true_eq, Bool.and_eq_true, beq_iff_eq, ih]
      constructor
      · rintro (h | ⟨rfl, rfl | h⟩)
        · exact .inr (.inr ⟨[], x, y, a, b, rfl, rfl, h⟩)
        · exact .inl rfl
        · rcases h with ⟨z, s, rfl⟩ | ⟨p, x', y', s, t, rfl, rfl, h⟩
          · exact .inr (.inl ⟨z, s, rfl⟩)
          · exact .inr (.inr ⟨x :: p, x', y', s, t, rfl, rfl, h⟩)
      · rintro (h | ⟨z, s, h⟩ | ⟨p, x', y', s, t, h1, h2, h⟩)
        · simp only [List.cons.injEq] at h
          exact .inr ⟨h.1, .inl h.2⟩
        · simp only [List.cons_append, List.cons.injEq] at h
          exact .inr ⟨h.1.symm, .inr (.inl ⟨z, s, h.2⟩)⟩
        · cases p with
          | nil =>
            simp only [List.nil_append, List.cons.injEq] at h1 h2
            rw [h1.1, h2.1]
            exact .inl h
          | cons z p =>
            simp only [List.cons_append, List.cons.injEq] at h1 h2
            exact .inr ⟨h1.1.trans h2.1.symm, .inr (.inr ⟨p, x', y', s, t, h1.2, h2.2, h⟩)⟩

theorem bytesLe_total (a b : Bytes) : bytesLe a b = true ∨ bytesLe b a = true := by
  induction a generalizing b with
  | nil => simp [bytesLe]
  | cons x a ih =>
    cases b with
    | nil => simp [bytesLe]
    | cons y b =>
      simp only [bytesLe, Bool.or_eq_true, decide_eq_true_eq, Bool.and_eq_true, beq_iff_eq]
      rcases Nat.lt_trichotomy x.toNat y.toNat with h | h | h
      · exact .inl (.inl (UInt8.lt_iff_toNat_lt.2 h))
      · have := UInt8.toNat_inj.1 h
        subst this
        rcases ih b with h | h
        · exact .inl (.inr ⟨rfl, h⟩)
        · exact .inr (.inr ⟨rfl, h⟩)
      · exact .inr (.inl (UInt8.lt_iff_toNat_lt.2 h))

theorem bytesLe_trans {a b c : Bytes} (h1 : bytesLe a b = true) (h2 : bytesLe b c = true) : bytesLe a c = true := by
  induction a generalizing b c with
  | nil => simp [bytesLe]
  | cons x a ih =>
    cases b with
    | nil => simp [bytesLe] at h1
    | cons y b =>
      cases c with
      | nil => simp [bytesLe] at h2
      | cons z c =>
        simp only [bytesLe, Bool.or_eq_true, decide_eq_true_eq, Bool.and_eq_true, beq_iff_eq] at *
        rcases h1 with h1 | ⟨rfl, h1⟩
        · rcases h2 with h2 | ⟨rfl, h2⟩
          · exact .inl (UInt8.lt_trans h1 h2)
          · exact .inl h1
        · rcases h2 with h2 | ⟨rfl, h2⟩
          · exact .inl h2
          · exact .inr ⟨rfl, ih h1 h2⟩

theorem insertString_perm (k : Bytes) (l : List Bytes) : (insertString k l).Perm (k :: l) := by
  induction l with
  | nil => exact .refl _
  | cons x l ih =>
    rw [insertString]
    split
    · exact .refl _
    · exact (ih.cons x).trans (.swap k x l)

theorem sortStrings_perm (l : List Bytes) : (sortStrings l).Perm l := by
  induction l with
  | nil => exact .refl _
  | cons x l ih => exact (insertString_perm x _).trans (ih.cons x)

theorem insertString_sorted (k : Bytes) (l : List Bytes) (h : l.Pairwise fun a b => bytesLe a b = true) :
    (insertString k l).Pairwise fun a b => bytesLe a b = true := by
  induction l with
  | nil => simp [insertString]
  | cons x l ih =>
    rw [insertString]
    obtain ⟨h1, h2⟩ := List.pairwise_cons.1 h
    split
    · rename_i hk
      refine List.pairwise_cons.2 ⟨?_, h⟩
      intro b hb
      rcases List.mem_cons.1 hb with rfl | hb
      · exact hk
      · exact bytesLe_trans hk (h1 b hb)
    · rename_i hk
      refine List.pairwise_cons.2 ⟨?_, ih h2⟩
      intro b hb
      rcases List.mem_cons.1 ((insertString_perm k l).mem_iff.1 hb) with rfl | hb
      · exact (bytesLe_total b x).resolve_left hk
      · exact h1 b hb

theorem sortStrings_sorted (l : List Bytes) : (sortStrings l).Pairwise fun a b => bytesLe a b = true := by
  induction l with
  | nil => exact .nil
  | cons x l ih => exact insertString_sorted x _ ih

theorem sortStrings_before {l : List Bytes} (h : l.Nodup) : (sortStrings l).Pairwise Before := by
  have h1 : (sortStrings l).Nodup := (sortStrings_perm l).nodup_iff.2 h
  refine (List.Pairwise.and (sortStrings_sorted l) h1).imp ?_
  rintro a b ⟨h1, h2⟩
  exact ((bytesLe_iff a b).1 h1).resolve_left h2

theorem Before.irrefl (a : Bytes) : ¬ Before a a := by
  rintro (⟨x, s, h⟩ | ⟨p, x, y, s, t, h1, h2, h⟩)
  · have := congrArg List.length h; simp at this
  · rw [h1] at h2
    have := List.append_cancel_left h2
    simp only [List.cons.injEq] at this
    rw [this.1] at h
    exact UInt8.lt_irrefl _ h

theorem Before.asymm {a b : Bytes} (h : Before a b) : ¬ Before b a := by
  intro h'
  have e : a = b := by
    have h1 := (bytesLe_iff a b).2 (.inr h)
    have h2 := (bytesLe_iff b a).2 (.inr h')
    clear h h'
    induction a generalizing b with
    | nil => cases b with
      | nil => rfl
      | cons y b => simp [bytesLe] at h2
    | cons x a ih => cases b with
      | nil => simp [bytesLe] at h1
      | cons y b =>
        simp only [bytesLe, Bool.or_eq_true, decide_eq_true_eq, Bool.and_eq_true, beq_iff_eq] at h1 h2
        rcases h1 with h1 | ⟨rfl, h1⟩
        · rcases h2 with h2 | ⟨rfl, h2⟩
          · exact absurd h2 (UInt8.not_lt.2 (UInt8.le_of_lt h1))
          · exact absurd h1 (UInt8.lt_irrefl _)
        · rcases h2 with h2 | ⟨-, h2⟩
          · exact absurd h2 (UInt8.lt_irrefl _)
          · rw [ih h1 h2]
  subst e
  exact Before.irrefl a h

/-- Sorted lists with the same elements are equal. -/
theorem before_unique {l m : List Bytes} (hl : l.Pairwise Before) (hm : m.Pairwise Before) (h : ∀ k, k ∈ l ↔ k ∈ m) :
    l = m := by
  induction l generalizing m with
  | nil =>
    cases m with
    | nil => rfl
    | cons y m => exact absurd ((h y).2 (by simp)) (by simp)
  | cons x l ih =>
    cases m with
    | nil => exact absurd ((h x).1 (by simp)) (by simp)
    | cons y m =>
      obtain ⟨h1, h2⟩ := List.pairwise_cons.1 hl
      obtain ⟨h3, h4⟩ := List.pairwise_cons.1 hm
      have hxy : x = y := by
        rcases List.mem_cons.1 ((h x).1 (by simp)) with e | hx
        · exact e
        rcases List.mem_cons.1 ((h y).2 (by simp)) with e | hy
        · exact e.symm
        exact absurd (h1 y hy) (Before.asymm (h3 x hx))
      subst hxy
      congr 1
      refine ih h2 h4 fun k => ⟨fun hk => ?_, fun hk => ?_⟩
      · rcases List.mem_cons.1 ((h k).1 (by simp [hk])) with rfl | h5
        · exact absurd (h1 k hk) (Before.irrefl k)
        · exact h5
      · rcases List.mem_cons.1 ((h k).2 (by simp [hk])) with rfl | h5
        · exact absurd (h3 k hk) (Before.irrefl k)
        · exact h5

end Aitch

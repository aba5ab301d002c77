import Verif.Spec.Build
/-
`attributesAndContents` groups a contents list as specified.
-/
namespace Aitch
open Spec

/-! ### Capacities -/

/-- Capacity of a slice grown from nil to length `n` one element at a time. -/
def capOf : Nat → Nat
  | 0 => 0
  | n + 1 => if n < capOf n then capOf n else if capOf n = 0 then 1 else 2 * capOf n

theorem capOf_ge (n : Nat) : n ≤ capOf n := by
  induction n with
  | zero => simp
  | succ n ih => 
    rw [capOf]
    split
    · omega
    · split <;> omega

theorem capOf_pow (n : Nat) (h : 0 < n) : ∃ j, capOf n = 2 ^ j := by
  induction n with
  | zero => omega
  | succ n ih =>
    rw [capOf]
    split
    · rcases Nat.eq_zero_or_pos n with rfl | hn
      · simp [capOf] at *
      · exact ih hn
    · split
      · exact ⟨0, rfl⟩
      · rcases Nat.eq_zero_or_pos n with rfl | hn
        · simp [capOf] at *
        · obtain ⟨j, hj⟩ := ih hn
          exact ⟨j + 1, by rw [hj, Nat.pow_succ]; omega⟩

theorem capOf_le (n : Nat) (h : 0 < n) : capOf n < 2 * n := by
  induction n with
  | zero => omega
  | succ n ih =>
    rw [capOf]
    rcases Nat.eq_zero_or_pos n with rfl | hn
    · simp [capOf]
    · have := ih hn
      split
      · omega
      · split <;> omega

theorem tight_capOf {n : Nat} (h : Tight n) : capOf n = n := by
  rcases h with rfl | ⟨j, rfl⟩
  · rfl
  · have hpos : 0 < 2 ^ j := Nat.two_pow_pos j
    obtain ⟨i, hi⟩ := capOf_pow _ hpos
    have h1 := capOf_ge (2 ^ j)
    have h2 := capOf_le _ hpos
    rw [hi] at h1 h2 ⊢
    have h3 : j ≤ i := (Nat.pow_le_pow_iff_right (by omega)).1 h1
    have h4 : i < j + 1 := (Nat.pow_lt_pow_iff_right (a := 2) (by omega)).1 (by rw [Nat.pow_succ]; omega)
    have : i = j := by omega
    rw [this]

/-! ### The parts not depending on condition slices -/

/-- Condition slices as they occur: their capacity is the one of growth from nil. -/
def Grown (s : CondSlice) : Prop := s.cap = capOf s.len

/-- What is shown of a (part of a) run of `attributesAndContents`: `k` conditionals at top level, declared
attributes `d`. -/
structure SplitOK (s : CondSlice) (cs : List Cond) (k : Nat) (d : List (Attr × List Cond))
    (hp : CondHeap) (r : List (Attr × CondSlice)) (hp' : CondHeap) : Prop where
  next : hp.next ≤ hp'.next
  others : ∀ a < hp.next, a ≠ s.arr → hp'.arrs a = hp.arrs a
  read : hp'.read s = cs
  same : (Tight s.len ∨ k = 0) → hp'.arrs s.arr = hp.arrs s.arr
  attrs : r.map (fun p => (p.1, hp'.read p.2)) = d.filter fun p => !p.2.isEmpty
  slices : ∀ p ∈ r, (hp.next ≤ p.2.arr ∧ p.2.arr < hp'.next) ∨ p.2 = s ∨
    (p.2.arr = s.arr ∧ ¬ (Tight s.len ∨ k = 0))

theorem splitOK_leaf {s : CondSlice} {cs : List Cond} {k : Nat} {hp : CondHeap} (h : hp.read s = cs) :
    SplitOK s cs k [] hp [] hp where
  next := Nat.le_refl _
  others _ _ _ := rfl
  read := h
  same _ := rfl
  attrs := rfl
  slices p hp := by simp at hp

theorem SplitOK.seq {s : CondSlice} {cs : List Cond} {k1 k2 : Nat} {d1 d2 : List (Attr × List Cond)}
    {hp hp1 hp2 : CondHeap} {r1 r2 : List (Attr × CondSlice)} (ha : s.arr < hp.next)
    (hk : Tight s.len ∨ k1 + k2 ≤ 1) (h1 : SplitOK s cs k1 d1 hp r1 hp1) (h2 : SplitOK s cs k2 d2 hp1 r2 hp2) :
    SplitOK s cs (k1 + k2) (d1 ++ d2) hp (r1 ++ r2) hp2 where
  next := Nat.le_trans h1.next h2.next
  others a h1' h2' := by rw [h2.others a (Nat.lt_of_lt_of_le h1' h1.next) h2', h1.others a h1' h2']
  read := h2.read
  same h := by
    rw [h2.same (h.imp_right (by omega)), h1.same (h.imp_right (by omega))]
  attrs := by
    rw [List.map_append, List.filter_append, h2.attrs, ← h1.attrs]
    congr 1
    apply List.map_congr_left
    intro p hp'
    congr 1
    rcases h1.slices p hp' with ⟨h3, h4⟩ | h3 | ⟨h3, h4⟩
    · unfold CondHeap.read
      rw [h2.others _ h4 (by omega)]
    · rw [h3, h2.read, h1.read]
    · unfold CondHeap.read
      rw [h3, h2.same]
      rcases hk with hk | hk
      · exact Or.inl hk
      · refine Or.inr ?_
        have : k1 ≠ 0 := fun h => h4 (Or.inr h)
        omega
  slices p hp' := by
    rcases List.mem_append.1 hp' with h | h
    · rcases h1.slices p h with ⟨h3, h4⟩ | h3 | ⟨h3, h4⟩
      · exact Or.inl ⟨h3, Nat.lt_of_lt_of_le h4 h2.next⟩
      · exact Or.inr (Or.inl h3)
      · refine Or.inr (Or.inr ⟨h3, fun h' => h4 (h'.imp_right (by omega))⟩)
    · rcases h2.slices p h with ⟨h3, h4⟩ | h3 | ⟨h3, h4⟩
      · exact Or.inl ⟨Nat.le_trans h1.next h3, h4⟩
      · exact Or.inr (Or.inl h3)
      · refine Or.inr (Or.inr ⟨h3, fun h' => h4 (h'.imp_right (by omega))⟩)

theorem SplitOK.cond {s : CondSlice} {cs : List Cond} {fn : Cond} {k : Nat} {d : List (Attr × List Cond)}
    {hp hp2 : CondHeap} {r : List (Attr × CondSlice)} {as : List Attr} (hg : Grown s) (ha : s.arr < hp.next)
    (hr : hp.read s = cs) (hl : cs.length = s.len)
    (h : SplitOK (condAppend s fn hp).1 (cs ++ [fn]) k d (condAppend s fn hp).2 r hp2) :
    SplitOK s cs 1 (as.map (fun a => (a, cs ++ [fn])) ++ d) hp
      (as.map (fun a => (a, (condAppend s fn hp).1)) ++ r) hp2 := by
  have hattrs : (as.map (fun a => (a, (condAppend s fn hp).1)) ++ r).map (fun p => (p.1, hp2.read p.2)) =
      (as.map (fun a => (a, cs ++ [fn])) ++ d).filter fun p => !p.2.isEmpty := by
    rw [List.map_append, List.filter_append, h.attrs]
    congr 1
    rw [List.filter_eq_self.2]
    · simp [h.read]
    · intro p hp'
      simp only [List.mem_map] at hp'
      obtain ⟨a, _, rfl⟩ := hp'
      simp
  by_cases hc : s.len < s.cap
  · have hnt : ¬ Tight s.len := fun ht => by rw [hg, tight_capOf ht] at hc; omega
    have e1 : (condAppend s fn hp).1 = { s with len := s.len + 1 } := by simp [condAppend, hc]
    have e2 : (condAppend s fn hp).2.next = hp.next := by simp [condAppend, hc]
    have e3 : ∀ a, a ≠ s.arr → (condAppend s fn hp).2.arrs a = hp.arrs a := by
      intro a ha; simp [condAppend, hc, ha]
    have hread : hp2.read s = cs := by
      have h1 := h.read
      have h2 : hp2.read s = (hp2.read (condAppend s fn hp).1).take s.len := by
        rw [e1]; simp [CondHeap.read, List.take_take]
      rw [h2, h1, ← hl]; simp
    exact {
      next := by rw [← e2]; exact h.next
      others := fun a h1 h2 => by rw [h.others a (by rw [e2]; exact h1) (by rw [e1]; exact h2), e3 a h2]
      read := hread
      same := fun h' => by
        rcases h' with h' | h'
        · exact absurd h' hnt
        · exact absurd h' (by omega)
      attrs := hattrs
      slices := fun p hp' => by
        rcases List.mem_append.1 hp' with h' | h'
        · simp only [List.mem_map] at h'
          obtain ⟨a, _, rfl⟩ := h'
          refine Or.inr (Or.inr ⟨?_, ?_⟩)
          · simp [e1]
          · rintro (h' | h')
            · exact hnt h'
            · omega
        · rcases h.slices p h' with ⟨h3, h4⟩ | h3 | ⟨h3, h4⟩
          · rw [e2] at h3; exact Or.inl ⟨h3, h4⟩
          · refine Or.inr (Or.inr ⟨by rw [h3, e1], ?_⟩)
            rintro (h' | h')
            · exact hnt h'
            · omega
          · refine Or.inr (Or.inr ⟨by rw [h3, e1], ?_⟩)
            rintro (h' | h')
            · exact hnt h'
            · omega }
  · have e1 : (condAppend s fn hp).1.arr = hp.next := by simp [condAppend, hc]
    have e2 : (condAppend s fn hp).2.next = hp.next + 1 := by simp [condAppend, hc]
    have e3 : ∀ a, a ≠ hp.next → (condAppend s fn hp).2.arrs a = hp.arrs a := by
      intro a ha; simp [condAppend, hc, ha]
    have hsame : ∀ a < hp.next, hp2.arrs a = hp.arrs a := by
      intro a h1
      rw [h.others a (by omega) (by omega), e3 a (by omega)]
    have hnext : hp.next + 1 ≤ hp2.next := by rw [← e2]; exact h.next
    exact {
      next := by omega
      others := fun a h1 _ => hsame a h1
      read := by unfold CondHeap.read; rw [hsame _ ha]; exact hr
      same := fun _ => hsame _ ha
      attrs := hattrs
      slices := fun p hp' => by
        rcases List.mem_append.1 hp' with h' | h'
        · simp only [List.mem_map] at h'
          obtain ⟨a, _, rfl⟩ := h'
          refine Or.inl ⟨?_, ?_⟩ <;> simp [e1] <;> omega
        · rcases h.slices p h' with ⟨h3, h4⟩ | h3 | ⟨h3, h4⟩
          · exact Or.inl ⟨by omega, h4⟩
          · refine Or.inl ⟨?_, ?_⟩ <;> rw [h3, e1] <;> omega
          · refine Or.inl ⟨?_, ?_⟩ <;> rw [h3, e1] <;> omega }

theorem condAppend_grown {s : CondSlice} (fn : Cond) (hp : CondHeap) (hg : Grown s) :
    Grown (condAppend s fn hp).1 := by
  unfold Grown at *
  unfold condAppend
  rw [hg]
  split
  · rename_i h
    simp only [capOf]
    rw [if_pos h]
  · rename_i h
    simp only [capOf]
    rw [if_neg h]

theorem condAppend_read {s : CondSlice} (fn : Cond) {hp : CondHeap} {cs : List Cond} (hr : hp.read s = cs)
    (hl : cs.length = s.len) : (condAppend s fn hp).2.read (condAppend s fn hp).1 = cs ++ [fn] := by
  unfold condAppend
  split
  · simp only [CondHeap.read, if_true]
    have : (List.take s.len (hp.arrs s.arr)) = cs := hr
    rw [this, List.take_append, ← hl]
    simp [List.take_of_length_le]
  · simp only [CondHeap.read, if_true]
    rw [show List.take s.len (hp.arrs s.arr) = cs from hr]
    rw [List.take_of_length_le]; simp [hl]

theorem condAppend_arr {s : CondSlice} (fn : Cond) {hp : CondHeap} (ha : s.arr < hp.next) :
    (condAppend s fn hp).1.arr < (condAppend s fn hp).2.next := by
  unfold condAppend
  split
  · exact ha
  · simp

theorem condAppend_len (s : CondSlice) (c : Cond) (hp : CondHeap) : (condAppend s c hp).1.len = s.len + 1 := by
  unfold condAppend; split <;> rfl

mutual
theorem splitItem_shape (s : CondSlice) (cs : List Cond) (hl : s.len = cs.length) : (n : Node) → (hp : CondHeap) →
    (splitItem s n hp).1.attrs = ((declared cs n).filter fun p => p.2.isEmpty).map (·.1) ∧
    (splitItem s n hp).1.condAttrs.map (·.1) = ((declared cs n).filter fun p => !p.2.isEmpty).map (·.1) ∧
    (splitItem s n hp).1.contents = nonAttrs [n]
  | .attr a, hp => by
    cases cs with
    | nil => simp at hl; simp [splitItem, declared, hl, nonAttrs, Node.isAttr, Node.type]
    | cons c cs => simp at hl; simp [splitItem, declared, hl, nonAttrs, Node.isAttr, Node.type]
  | .collection ns, hp => by
    have := splitItems_shape s cs hl ns hp
    simp [splitItem, declared, this, nonAttrs, Node.isAttr, Node.type]
  | .conditional ns as fn, hp => by
    have h1 := condAppend_len s fn hp
    have := splitItems_shape (condAppend s fn hp).1 (cs ++ [fn]) (by simp [h1, hl]) ns (condAppend s fn hp).2
    have hne : ((declaredAll (cs ++ [fn]) ns).filter fun p => p.2.isEmpty) = [] := by
      rw [List.filter_eq_nil_iff]
      intro p hp
      have := declaredAll_prefix (cs ++ [fn]) ns p hp
      rcases h : p.2 with _ | ⟨c, l⟩
      · rw [h] at this; simp at this
      · simp
    simp only [splitItem, declared, List.filter_append, List.map_append, List.map_map]
    refine ⟨?_, ?_, ?_⟩
    · rw [hne]
      simp
    · simp only [this.2.1]
      congr 1
      rw [List.filter_eq_self.2]
      · simp
      · intro p hp
        simp only [List.mem_map] at hp
        obtain ⟨a, _, rfl⟩ := hp
        simp
    · simp [nonAttrs, Node.isAttr, Node.type]
  | .element _ _, _ => by simp [splitItem, declared, nonAttrs, Node.isAttr, Node.type]
  | .voidElement _, _ => by simp [splitItem, declared, nonAttrs, Node.isAttr, Node.type]
  | .text _, _ => by simp [splitItem, declared, nonAttrs, Node.isAttr, Node.type]
  | .comment _, _ => by simp [splitItem, declared, nonAttrs, Node.isAttr, Node.type]
  | .fragment _, _ => by simp [splitItem, declared, nonAttrs, Node.isAttr, Node.type]
  | .pi _ _, _ => by simp [splitItem, declared, nonAttrs, Node.isAttr, Node.type]
  | .collector _, _ => by simp [splitItem, declared, nonAttrs, Node.isAttr, Node.type]
  | .imperative _, _ => by simp [splitItem, declared, nonAttrs, Node.isAttr, Node.type]
  | .iterator _ _, _ => by simp [splitItem, declared, nonAttrs, Node.isAttr, Node.type]
  | .yieldIterator _ _, _ => by simp [splitItem, declared, nonAttrs, Node.isAttr, Node.type]
  | .document _ _, _ => by simp [splitItem, declared, nonAttrs, Node.isAttr, Node.type]
theorem splitItems_shape (s : CondSlice) (cs : List Cond) (hl : s.len = cs.length) : (ns : List Node) → (hp : CondHeap) →
    (splitItems s ns hp).1.attrs = ((declaredAll cs ns).filter fun p => p.2.isEmpty).map (·.1) ∧
    (splitItems s ns hp).1.condAttrs.map (·.1) = ((declaredAll cs ns).filter fun p => !p.2.isEmpty).map (·.1) ∧
    (splitItems s ns hp).1.contents = nonAttrs ns
  | [], hp => by simp [splitItems, declaredAll, nonAttrs]
  | n :: ns, hp => by
    have h1 := splitItem_shape s cs hl n hp
    have h2 := splitItems_shape s cs hl ns (splitItem s n hp).2
    simp only [splitItems, Split.append, declaredAll, List.filter_append, List.map_append, h1, h2, true_and]
    unfold nonAttrs
    rw [← List.filter_append]; rfl
theorem declared_prefix (cs : List Cond) : (n : Node) → ∀ p ∈ declared cs n, cs <+: p.2
  | .attr a => by simp [declared]
  | .collection ns => by simpa [declared] using declaredAll_prefix cs ns
  | .conditional ns as fn => by
    intro p hp
    simp only [declared, List.mem_append, List.mem_map] at hp
    rcases hp with ⟨a, _, rfl⟩ | hp
    · exact List.prefix_append _ _
    · exact (List.prefix_append _ _).trans (declaredAll_prefix (cs ++ [fn]) ns p hp)
  | .element _ _ => by simp [declared]
  | .voidElement _ => by simp [declared]
  | .text _ => by simp [declared]
  | .comment _ => by simp [declared]
  | .fragment _ => by simp [declared]
  | .pi _ _ => by simp [declared]
  | .collector _ => by simp [declared]
  | .imperative _ => by simp [declared]
  | .iterator _ _ => by simp [declared]
  | .yieldIterator _ _ => by simp [declared]
  | .document _ _ => by simp [declared]
theorem declaredAll_prefix (cs : List Cond) : (ns : List Node) → ∀ p ∈ declaredAll cs ns, cs <+: p.2
  | [] => by simp [declaredAll]
  | n :: ns => by
    intro p hp
    simp only [declaredAll, List.mem_append] at hp
    rcases hp with hp | hp
    · exact declared_prefix cs n p hp
    · exact declaredAll_prefix cs ns p hp
end

mutual
theorem splitItem_ok (s : CondSlice) (cs : List Cond) (hg : Grown s) (hl : cs.length = s.len) :
    (n : Node) → (hp : CondHeap) → s.arr < hp.next → hp.read s = cs → Separate s.len n →
    (Tight s.len ∨ condCount n ≤ 1) →
    SplitOK s cs (condCount n) (declared cs n) hp (splitItem s n hp).1.condAttrs (splitItem s n hp).2
  | .attr a, hp, ha, hr, _, _ => by
    cases cs with
    | nil =>
      simp at hl
      have := splitOK_leaf (k := 0) hr
      simp only [splitItem, declared, condCount, ← hl]
      exact ⟨this.next, this.others, this.read, this.same, by simp, by simp⟩
    | cons c cs =>
      simp at hl
      have := splitOK_leaf (k := 0) hr
      simp only [splitItem, declared, condCount, ← hl]
      exact ⟨this.next, this.others, this.read, this.same, by simp [hr], by simp⟩
  | .collection ns, hp, ha, hr, hs, hk => splitItems_ok s cs hg hl ns hp ha hr hs hk
  | .conditional ns as fn, hp, ha, hr, hs, hk => by
    have hlen := condAppend_len s fn hp
    have hs' : (Tight (s.len + 1) ∨ condCountAll ns ≤ 1) ∧ SeparateAll (s.len + 1) ns := hs
    have h := splitItems_ok (condAppend s fn hp).1 (cs ++ [fn]) (condAppend_grown fn hp hg)
      (by rw [hlen]; simp [hl]) ns (condAppend s fn hp).2 (condAppend_arr fn ha) (condAppend_read fn hr hl)
      (by rw [hlen]; exact hs'.2) (by rw [hlen]; exact hs'.1)
    exact SplitOK.cond hg ha hr hl h
  | .element _ _, _, _, hr, _, _ => splitOK_leaf hr
  | .voidElement _, _, _, hr, _, _ => splitOK_leaf hr
  | .text _, _, _, hr, _, _ => splitOK_leaf hr
  | .comment _, _, _, hr, _, _ => splitOK_leaf hr
  | .fragment _, _, _, hr, _, _ => splitOK_leaf hr
  | .pi _ _, _, _, hr, _, _ => splitOK_leaf hr
  | .collector _, _, _, hr, _, _ => splitOK_leaf hr
  | .imperative _, _, _, hr, _, _ => splitOK_leaf hr
  | .iterator _ _, _, _, hr, _, _ => splitOK_leaf hr
  | .yieldIterator _ _, _, _, hr, _, _ => splitOK_leaf hr
  | .document _ _, _, _, hr, _, _ => splitOK_leaf hr
theorem splitItems_ok (s : CondSlice) (cs : List Cond) (hg : Grown s) (hl : cs.length = s.len) :
    (ns : List Node) → (hp : CondHeap) → s.arr < hp.next → hp.read s = cs → SeparateAll s.len ns →
    (Tight s.len ∨ condCountAll ns ≤ 1) →
    SplitOK s cs (condCountAll ns) (declaredAll cs ns) hp (splitItems s ns hp).1.condAttrs (splitItems s ns hp).2
  | [], _, _, hr, _, _ => splitOK_leaf hr
  | n :: ns, hp, ha, hr, hs, hk => by
    have hk' : Tight s.len ∨ condCount n + condCountAll ns ≤ 1 := hk
    have h1 := splitItem_ok s cs hg hl n hp ha hr hs.1 (hk'.imp_right (by omega))
    have h2 := splitItems_ok s cs hg hl ns (splitItem s n hp).2 (Nat.lt_of_lt_of_le ha h1.next) h1.read hs.2
      (hk'.imp_right (by omega))
    exact SplitOK.seq ha hk' h1 h2
end

/-- Static attributes and contents are always grouped right. -/
theorem attributesAndContents_shape (ns : List Node) :
    (attributesAndContents ns).1 = staticAttrs ns ∧
    (attributesAndContents ns).2.1.map (·.att) = (condAttrs ns).map (·.att) ∧
    (attributesAndContents ns).2.2 = nonAttrs ns := by
  have := splitItems_shape ⟨0, 0, 0⟩ [] rfl ns ⟨fun _ => [], 1⟩
  refine ⟨this.1, ?_, this.2.2⟩
  have h := this.2.1
  simp only [attributesAndContents, condAttrs, List.map_map]
  exact h

/-- Conditions are grouped right when no two conditionals share a slot. -/
theorem attributesAndContents_conds {ns : List Node} (h : SeparateAll 0 ns) :
    (attributesAndContents ns).2.1 = condAttrs ns := by
  have := (splitItems_ok ⟨0, 0, 0⟩ [] rfl rfl ns ⟨fun _ => [], 1⟩ (by simp) rfl h (Or.inl (Or.inl rfl))).attrs
  simp only [attributesAndContents, condAttrs]
  rw [← this]
  simp

theorem tight_small {k : Nat} (h : k ≤ 2) : Tight k := by
  match k, h with
  | 0, _ => exact Or.inl rfl
  | 1, _ => exact Or.inr ⟨0, rfl⟩
  | 2, _ => exact Or.inr ⟨1, rfl⟩

mutual
theorem condCount_of_depth : (n : Node) → condDepth n = 0 → condCount n = 0
  | .collection ns, h => condCountAll_of_depth ns h
  | .conditional _ _ _, h => by simp [condDepth] at h
  | .attr _, _ => rfl
  | .element _ _, _ => rfl
  | .voidElement _, _ => rfl
  | .text _, _ => rfl
  | .comment _, _ => rfl
  | .fragment _, _ => rfl
  | .pi _ _, _ => rfl
  | .collector _, _ => rfl
  | .imperative _, _ => rfl
  | .iterator _ _, _ => rfl
  | .yieldIterator _ _, _ => rfl
  | .document _ _, _ => rfl
theorem condCountAll_of_depth : (ns : List Node) → condDepthAll ns = 0 → condCountAll ns = 0
  | [], _ => rfl
  | n :: ns, h => by
    simp only [condDepthAll] at h
    simp only [condCountAll]
    rw [condCount_of_depth n (by omega), condCountAll_of_depth ns (by omega)]
end

mutual
theorem separate_of_depth : (n : Node) → (k : Nat) → k + condDepth n ≤ 3 → Separate k n
  | .collection ns, k, h => separateAll_of_depth ns k h
  | .conditional ns _ _, k, h => by
    simp only [condDepth] at h
    refine ⟨?_, separateAll_of_depth ns (k + 1) (by omega)⟩
    by_cases hk : k + 1 ≤ 2
    · exact Or.inl (tight_small hk)
    · right
      rw [condCountAll_of_depth ns (by omega)]; omega
  | .attr _, _, _ => trivial
  | .element _ _, _, _ => trivial
  | .voidElement _, _, _ => trivial
  | .text _, _, _ => trivial
  | .comment _, _, _ => trivial
  | .fragment _, _, _ => trivial
  | .pi _ _, _, _ => trivial
  | .collector _, _, _ => trivial
  | .imperative _, _, _ => trivial
  | .iterator _ _, _, _ => trivial
  | .yieldIterator _ _, _, _ => trivial
  | .document _ _, _, _ => trivial
theorem separateAll_of_depth : (ns : List Node) → (k : Nat) → k + condDepthAll ns ≤ 3 → SeparateAll k ns
  | [], _, _ => trivial
  | n :: ns, k, h => by
    simp only [condDepthAll] at h
    exact ⟨separate_of_depth n k (by omega), separateAll_of_depth ns k (by omega)⟩
end

end Aitch

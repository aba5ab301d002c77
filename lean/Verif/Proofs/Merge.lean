import Verif.Spec.Build
import Verif.Proofs.RefineTag
/-
`addAttributes` merges repeated declarations as specified.
-/
namespace Aitch
open Spec

@[elab_as_elim]
theorem snoc_induction {α} {motive : List α → Prop} (l : List α) (nil : motive [])
    (append_singleton : ∀ l a, motive l → motive (l ++ [a])) : motive l := by
  rw [← List.reverse_reverse l]
  generalize l.reverse = r
  induction r with
  | nil => exact nil
  | cons a r ih => rw [List.reverse_cons]; exact append_singleton _ _ ih

theorem nodup_getElem?_inj {α} {l : List α} (h : l.Nodup) {i j : Nat} {a : α} (hi : l[i]? = some a)
    (hj : l[j]? = some a) : i = j := by
  rw [List.getElem?_eq_some_iff] at hi hj
  obtain ⟨hi, rfl⟩ := hi
  obtain ⟨hj, h2⟩ := hj
  exact ((List.getElem_inj (h₀ := hj) (h₁ := hi) h).1 h2).symm

theorem distinct_snoc (l : List Bytes) (x : Bytes) :
    distinct (l ++ [x]) = if x ∈ l then distinct l else distinct l ++ [x] := by
  induction l with
  | nil => simp [distinct]
  | cons y ys ih =>
    simp only [List.cons_append, distinct, ih]
    by_cases hxy : x = y
    · subst hxy
      by_cases hx : x ∈ ys <;> simp [hx, List.filter_append]
    · by_cases hx : x ∈ ys <;> simp [hx, List.filter_append, hxy]

theorem addAttributes_append (as bs : List Attr) (e : ElemHead) (dl : Nat → List Value) :
    addAttributes (as ++ bs) e dl = addAttributes bs (addAttributes as e dl).1 (addAttributes as e dl).2 := by
  induction as generalizing e dl with
  | nil => rfl
  | cons a as ih =>
    simp only [List.cons_append, addAttributes]
    split
    · split <;> exact ih _ _
    · exact ih _ _

theorem delimSuffix_snoc (ds : List Attr) (a : Attr) :
    delimSuffix (ds ++ [a]) = if isDelim a then delimSuffix ds ++ [a] else [] := by
  unfold delimSuffix
  rw [List.reverse_append]
  simp only [List.reverse_cons, List.reverse_nil, List.nil_append, List.cons_append, List.takeWhile_cons]
  split <;> simp

theorem chosen_snoc (ds : List Attr) (a : Attr) :
    chosen (ds ++ [a]) = if isDelim a then (delimSuffix ds).head?.or (some a) else some a := by
  unfold chosen
  rw [delimSuffix_snoc]
  by_cases h : isDelim a = true
  · simp only [h, if_true, List.head?_append]
    cases (delimSuffix ds).head? <;> simp
  · simp [h]

theorem delimSuffix_isDelim {ds : List Attr} {a : Attr} (h : a ∈ delimSuffix ds) : isDelim a = true := by
  unfold delimSuffix at h
  rw [List.mem_reverse] at h
  have := List.all_takeWhile (p := isDelim) (l := ds.reverse)
  exact List.all_eq_true.1 this a h

theorem delimSuffix_mem {ds : List Attr} {a : Attr} (h : a ∈ delimSuffix ds) : a ∈ ds := by
  unfold delimSuffix at h
  rw [List.mem_reverse] at h
  have := (List.takeWhile_prefix isDelim (l := ds.reverse)).subset h
  simpa using this

theorem chosen_mem {ds : List Attr} {a : Attr} (h : chosen ds = some a) : a ∈ ds := by
  unfold chosen at h
  cases hs : delimSuffix ds with
  | nil => rw [hs] at h; simp at h; exact List.mem_of_getLast? h
  | cons d rest =>
    rw [hs] at h
    simp at h; subst h
    exact delimSuffix_mem (by rw [hs]; simp)

/-- A delimited choice is the first of the ending run; otherwise there is no such run. -/
theorem chosen_delim {ds : List Attr} {a : Attr} (h : chosen ds = some a) :
    if isDelim a then (delimSuffix ds).head? = some a else delimSuffix ds = [] := by
  unfold chosen at h
  cases hs : delimSuffix ds with
  | cons d rest =>
    rw [hs] at h
    simp at h; subst h
    rw [if_pos (delimSuffix_isDelim (by rw [hs]; simp))]; simp
  | nil =>
    rw [hs] at h; simp at h
    rw [if_neg]
    intro hd
    obtain ⟨ys, hy⟩ : ∃ ys, ds = ys ++ [a] := by
      rw [List.getLast?_eq_some_iff] at h; exact h
    rw [hy, delimSuffix_snoc, if_pos hd] at hs
    simp at hs

theorem named_snoc (n : Bytes) (as : List Attr) (a : Attr) :
    named n (as ++ [a]) = if a.name = n then named n as ++ [a] else named n as := by
  unfold named
  rw [List.filter_append]
  by_cases h : a.name = n <;> simp [h]

theorem named_name {n : Bytes} {as : List Attr} {a : Attr} (h : a ∈ named n as) : a.name = n := by
  unfold named at h; simpa using (List.mem_filter.1 h).2

theorem named_mem {n : Bytes} {as : List Attr} {a : Attr} (h : a ∈ named n as) : a ∈ as := by
  unfold named at h; exact (List.mem_filter.1 h).1

theorem named_eq_nil {n : Bytes} {as : List Attr} (h : n ∉ as.map Attr.name) : named n as = [] := by
  unfold named
  rw [List.filter_eq_nil_iff]
  intro a ha
  simp only [decide_eq_true_eq]
  rintro rfl
  exact h (List.mem_map_of_mem ha)

/-- What is shown of the element after adding `as`. -/
structure Merged (as : List Attr) (e : ElemHead) : Prop where
  wf : WFHead e
  names : e.attributes.map Attr.name = distinct (as.map Attr.name)
  att : ∀ a ∈ e.attributes, chosen (named a.name as) = some a

theorem getElem?_of_lookup {e : ElemHead} (wf : WFHead e) {n : Bytes} {i : Nat} (h : e.attIndices.lookup n = some i) :
    ∃ a, e.attributes[i]? = some a ∧ a.name = n := by
  by_cases hn : n ∈ e.attributes.map Attr.name
  · obtain ⟨j, hj⟩ := List.getElem?_of_mem hn
    have h2 := lookup_zipIdx _ 0 wf.2 j n hj
    rw [← wf.1, h] at h2
    simp at h2; subst h2
    rw [List.getElem?_map] at hj
    simpa using hj
  · rw [wf_lookup_none wf hn] at h; simp at h

theorem merged_set {as : List Attr} {e : ElemHead} {a b : Attr} {i : Nat} (m : Merged as e)
    (hi : e.attributes[i]? = some b) (hb : b.name = a.name) (hc : chosen (named a.name (as ++ [a])) = some a) :
    Merged (as ++ [a]) { e with attributes := e.attributes.set i a } := by
  have hmap : (e.attributes.set i a).map Attr.name = e.attributes.map Attr.name := by
    rw [List.map_set, ← hb]
    apply List.ext_getElem?
    intro j
    rw [List.getElem?_set]
    split
    · subst_vars
      obtain ⟨hlt, he⟩ := List.getElem?_eq_some_iff.1 hi
      simp [hlt, he]
    · rfl
  have hmem : a.name ∈ as.map Attr.name := by
    rw [← mem_distinct, ← m.names, ← hb]
    exact List.mem_map_of_mem (List.mem_of_getElem? hi)
  refine ⟨⟨?_, ?_⟩, ?_, ?_⟩
  · simp only [hmap]; exact m.wf.1
  · simp only [hmap]; exact m.wf.2
  · simp only [hmap]
    rw [m.names, List.map_append, List.map_singleton, distinct_snoc, if_pos hmem]
  · intro x hx
    obtain ⟨j, hj⟩ := List.getElem?_of_mem hx
    simp only at hj
    rw [List.getElem?_set] at hj
    split at hj
    · split at hj
      · simp at hj; subst hj; exact hc
      · simp at hj
    · rename_i hij
      have hxm := List.mem_of_getElem? hj
      have hne : a.name ≠ x.name := by
        intro hxa
        have h1 : (e.attributes.map Attr.name)[i]? = some a.name := by simp [hi, hb]
        have h2 : (e.attributes.map Attr.name)[j]? = some a.name := by simp [hj, hxa]
        exact hij (nodup_getElem?_inj m.wf.2 h1 h2)
      rw [named_snoc, if_neg hne]
      exact m.att x hxm

theorem merged_keep {as : List Attr} {e : ElemHead} {a b : Attr} (m : Merged as e)
    (hm : b ∈ e.attributes) (hb : b.name = a.name) (hc : chosen (named a.name (as ++ [a])) = some b) :
    Merged (as ++ [a]) e := by
  obtain ⟨i, hi⟩ := List.getElem?_of_mem hm
  have hmem : a.name ∈ as.map Attr.name := by
    rw [← mem_distinct, ← m.names, ← hb]
    exact List.mem_map_of_mem hm
  refine ⟨m.wf, ?_, ?_⟩
  · rw [m.names, List.map_append, List.map_singleton, distinct_snoc, if_pos hmem]
  · intro x hx
    obtain ⟨j, hj⟩ := List.getElem?_of_mem hx
    rw [named_snoc]
    by_cases hne : a.name = x.name
    · have h1 : (e.attributes.map Attr.name)[i]? = some a.name := by simp [hi, hb]
      have h2 : (e.attributes.map Attr.name)[j]? = some a.name := by simp [hj, hne]
      have := nodup_getElem?_inj m.wf.2 h1 h2
      subst this
      rw [hi] at hj; simp at hj; subst hj
      rw [if_pos hne]
      rw [named_snoc, if_pos rfl, hne] at hc
      exact hc
    · rw [if_neg hne]; exact m.att x hx

theorem merged_new {as : List Attr} {e : ElemHead} {a : Attr} (m : Merged as e)
    (hn : e.attIndices.lookup a.name = none) :
    Merged (as ++ [a]) { e with attIndices := e.attIndices ++ [(a.name, e.attributes.length)],
                                attributes := e.attributes ++ [a] } := by
  have hnot : a.name ∉ e.attributes.map Attr.name := by
    intro h
    obtain ⟨b, hb, hba⟩ := List.mem_map.1 h
    obtain ⟨i, hi, _⟩ := wf_lookup m.wf hb
    rw [hba, hn] at hi; simp at hi
  have hnot' : a.name ∉ as.map Attr.name := by rw [← mem_distinct, ← m.names]; exact hnot
  refine ⟨⟨?_, ?_⟩, ?_, ?_⟩
  · simp only [List.map_append, List.map_singleton, List.zipIdx_append, m.wf.1]
    simp
  · simp only [List.map_append, List.map_singleton]
    rw [List.nodup_append]
    refine ⟨m.wf.2, by simp, ?_⟩
    intro x hx y hy
    simp at hy; subst hy
    rintro rfl
    exact hnot hx
  · simp only [List.map_append, List.map_singleton]
    rw [distinct_snoc, if_neg hnot', m.names]
  · intro x hx
    simp only [List.mem_append, List.mem_singleton] at hx
    rcases hx with hx | rfl
    · have hne : a.name ≠ x.name := fun h => hnot (h ▸ List.mem_map_of_mem hx)
      rw [named_snoc, if_neg hne]; exact m.att x hx
    · rw [named_snoc, if_pos rfl, chosen_snoc, named_eq_nil hnot']
      simp [delimSuffix]

theorem name_refOf {a : Attr} (h : isDelim a = true) : ∃ n d r, a = .delim n d r := by
  cases a with
  | delim n d r => exact ⟨n, d, r, rfl⟩
  | plain n v => simp [isDelim, refOf] at h
  | bool n => simp [isDelim, refOf] at h

/-- One step of `addAttributes`: either the values go to an attribute already there, or the attribute itself is put
in place. -/
theorem addAttributes_one {as : List Attr} {e : ElemHead} (m : Merged as e) (a : Attr) (dl : Nat → List Value) :
    Merged (as ++ [a]) (addAttributes [a] e dl).1 ∧
    (addAttributes [a] e dl).1.name = e.name ∧
    (addAttributes [a] e dl).1.conditionals = e.conditionals ∧
    ((∃ n d r n' d' r', a = .delim n' d' r' ∧ .delim n d r ∈ e.attributes ∧ n = n' ∧
        (delimSuffix (named n as)).head? = some (.delim n d r) ∧
        (addAttributes [a] e dl).2 = upd dl r (dl r ++ dl r')) ∨
     ((isDelim a = true → delimSuffix (named a.name as) = []) ∧ (addAttributes [a] e dl).2 = dl)) := by
  simp only [addAttributes]
  cases hl : e.attIndices.lookup a.name with
  | none =>
    have hnot' : a.name ∉ as.map Attr.name := by
      rw [← mem_distinct, ← m.names]
      intro h
      obtain ⟨b, hb, hba⟩ := List.mem_map.1 h
      obtain ⟨i, hi, _⟩ := wf_lookup m.wf hb
      rw [hba, hl] at hi; simp at hi
    refine ⟨merged_new m hl, rfl, rfl, Or.inr ⟨fun _ => ?_, rfl⟩⟩
    rw [named_eq_nil hnot']; rfl
  | some i =>
    obtain ⟨b, hb, hbn⟩ := getElem?_of_lookup m.wf hl
    have hbm := List.mem_of_getElem? hb
    have hcb := m.att b hbm
    rw [hbn] at hcb
    have hcd := chosen_delim hcb
    have hset : (isDelim a = true → isDelim b = false) → chosen (named a.name (as ++ [a])) = some a ∧
        (isDelim a = true → delimSuffix (named a.name as) = []) := by
      intro h
      rw [named_snoc, if_pos rfl, chosen_snoc]
      by_cases hd : isDelim a = true
      · have hb' := h hd
        simp only [hb', Bool.false_eq_true, if_false] at hcd
        simp [hd, hcd]
      · simp [hd]
    simp only [hb]
    cases b with
    | delim n d r =>
      cases a with
      | delim n' d' r' =>
        simp only [isDelim, refOf, Option.isSome_some, if_true] at hcd
        have hn : n = n' := hbn
        refine ⟨merged_keep m hbm hbn ?_, rfl, rfl, Or.inl ⟨n, d, r, n', d', r', rfl, hbm, hn, ?_, rfl⟩⟩
        · rw [named_snoc, if_pos rfl, chosen_snoc]
          simp [isDelim, refOf, hcd]
        · subst hn; exact hcd
      | plain n' vs =>
        obtain ⟨h1, h2⟩ := hset (by simp [isDelim, refOf])
        exact ⟨merged_set m hb hbn h1, rfl, rfl, Or.inr ⟨h2, rfl⟩⟩
      | bool n' =>
        obtain ⟨h1, h2⟩ := hset (by simp [isDelim, refOf])
        exact ⟨merged_set m hb hbn h1, rfl, rfl, Or.inr ⟨h2, rfl⟩⟩
    | plain n vs =>
      obtain ⟨h1, h2⟩ := hset (by simp [isDelim, refOf])
      exact ⟨merged_set m hb hbn h1, rfl, rfl, Or.inr ⟨h2, rfl⟩⟩
    | bool n =>
      obtain ⟨h1, h2⟩ := hset (by simp [isDelim, refOf])
      exact ⟨merged_set m hb hbn h1, rfl, rfl, Or.inr ⟨h2, rfl⟩⟩

theorem merged_empty (name : Bytes) (cas : List CondAttr) : Merged [] ⟨name, [], [], cas⟩ where
  wf := ⟨rfl, by simp⟩
  names := rfl
  att := by simp

/-- The element after adding all attributes. -/
theorem addAttributes_merged (as : List Attr) (name : Bytes) (cas : List CondAttr) (dl : Nat → List Value) :
    Merged as (addAttributes as ⟨name, [], [], cas⟩ dl).1 ∧
    (addAttributes as ⟨name, [], [], cas⟩ dl).1.name = name ∧
    (addAttributes as ⟨name, [], [], cas⟩ dl).1.conditionals = cas := by
  induction as using snoc_induction with
  | nil => exact ⟨merged_empty _ _, rfl, rfl⟩
  | append_singleton as a ih =>
    rw [addAttributes_append]
    obtain ⟨h1, h2, h3, _⟩ := addAttributes_one ih.1 a (addAttributes as ⟨name, [], [], cas⟩ dl).2
    exact ⟨h1, h2.trans ih.2.1, h3.trans ih.2.2⟩

/-- The values a list of delimited attributes has together. -/
def runValues (dl : Nat → List Value) (run : List Attr) : List Value := run.flatMap (Attr.values dl)

theorem refOf_inj {as : List Attr} (h : Unshared as) {a b : Attr} (ha : a ∈ as) (hb : b ∈ as) {r : Nat}
    (hra : refOf a = some r) (hrb : refOf b = some r) : a = b := by
  unfold Unshared at h
  induction as with
  | nil => simp at ha
  | cons x xs ih =>
    simp only [List.filterMap_cons] at h
    have hx : ∀ y ∈ xs, refOf x = some r → refOf y = some r → False := by
      intro y hy h1 h2
      rw [h1] at h
      simp only [List.nodup_cons] at h
      exact h.1 (List.mem_filterMap.2 ⟨y, hy, h2⟩)
    have h' : (xs.filterMap refOf).Nodup := by
      cases hrx : refOf x with
      | none => rw [hrx] at h; exact h
      | some r' => rw [hrx] at h; exact (List.nodup_cons.1 h).2
    rcases List.mem_cons.1 ha with ha' | ha' <;> rcases List.mem_cons.1 hb with hb' | hb'
    · rw [ha', hb']
    · exact (hx b hb' (ha' ▸ hra) hrb).elim
    · exact (hx a ha' (hb' ▸ hrb) hra).elim
    · exact ih h' ha' hb'

/-- Values after adding: the chosen delimited attribute of every name has the values of the whole run; attributes
not merged into are as before. -/
theorem addAttributes_values (as : List Attr) (hu : Unshared as) (name : Bytes) (cas : List CondAttr)
    (dl : Nat → List Value) :
    (∀ n d r, (delimSuffix (named n as)).head? = some (.delim n d r) →
      (addAttributes as ⟨name, [], [], cas⟩ dl).2 r = runValues dl (delimSuffix (named n as))) ∧
    (∀ r, r ∉ as.filterMap refOf → (addAttributes as ⟨name, [], [], cas⟩ dl).2 r = dl r) := by
  induction as using snoc_induction with
  | nil => simp [addAttributes, named, delimSuffix]
  | append_singleton as a ih =>
    have hu' : Unshared as := by
      unfold Unshared at *; rw [List.filterMap_append] at hu; exact (List.nodup_append.1 hu).1
    obtain ⟨ih1, ih2⟩ := ih hu'
    rw [addAttributes_append]
    obtain ⟨hm, -, -⟩ := addAttributes_merged as name cas dl
    obtain ⟨-, -, -, hstep⟩ := addAttributes_one hm a (addAttributes as ⟨name, [], [], cas⟩ dl).2
    rcases hstep with ⟨n, d, r, n', d', r', rfl, hmem, rfl, hhead, he⟩ | ⟨hd, he⟩
    · rw [he]
      have hfresh : r' ∉ as.filterMap refOf := by
        unfold Unshared at hu
        rw [List.filterMap_append, List.nodup_append] at hu
        intro h
        exact hu.2.2 r' h r' (by simp [refOf]) rfl
      constructor
      · intro n2 d2 r2 h2
        rw [named_snoc] at h2 ⊢
        by_cases hn : (Attr.delim n d' r').name = n2
        · have hn' : n = n2 := hn
          subst hn'
          rw [if_pos hn] at h2 ⊢
          rw [delimSuffix_snoc] at h2 ⊢
          simp only [isDelim, refOf, Option.isSome_some, if_true] at h2 ⊢
          rw [List.head?_append, hhead] at h2
          simp at h2
          obtain ⟨rfl, rfl⟩ := h2
          have := ih1 _ _ _ hhead
          simp only [upd, if_true, this, ih2 r' hfresh, runValues, List.flatMap_append]
          simp [Attr.values]
        · rw [if_neg hn] at h2 ⊢
          have hr : r2 ≠ r := by
            rintro rfl
            have h3 := named_mem (delimSuffix_mem (List.mem_of_head? hhead))
            have h4 := named_mem (delimSuffix_mem (List.mem_of_head? h2))
            have := refOf_inj hu' h3 h4 (r := r2) rfl rfl
            simp at this
            exact hn this.1
          simp only [upd, if_neg hr]
          exact ih1 _ _ _ h2
      · intro r2 h2
        have hr : r2 ≠ r := by
          rintro rfl
          have h3 := named_mem (delimSuffix_mem (List.mem_of_head? hhead))
          exact h2 (List.mem_filterMap.2 ⟨_, List.mem_append_left _ h3, rfl⟩)
        simp only [upd, if_neg hr]
        apply ih2
        intro h3
        apply h2
        rw [List.filterMap_append]
        exact List.mem_append_left _ h3
    · rw [he]
      constructor
      · intro n2 d2 r2 h2
        rw [named_snoc] at h2 ⊢
        by_cases hn : a.name = n2
        · subst hn
          rw [if_pos rfl] at h2 ⊢
          rw [delimSuffix_snoc] at h2 ⊢
          by_cases ha : isDelim a = true
          · rw [if_pos ha, hd ha] at h2 ⊢
            simp at h2
            obtain ⟨n3, hn3⟩ : ∃ n3, n3 = a.name := ⟨_, rfl⟩
            rw [← hn3] at h2
            subst h2
            have hfresh : r2 ∉ as.filterMap refOf := by
              unfold Unshared at hu
              rw [List.filterMap_append, List.nodup_append] at hu
              intro h
              exact hu.2.2 r2 h r2 (by simp [refOf]) rfl
            rw [ih2 r2 hfresh]
            simp [runValues, Attr.values]
          · rw [if_neg ha] at h2; simp at h2
        · rw [if_neg hn] at h2 ⊢
          exact ih1 _ _ _ h2
      · intro r2 h2
        apply ih2
        intro h3
        apply h2
        rw [List.filterMap_append]
        exact List.mem_append_left _ h3

end Aitch

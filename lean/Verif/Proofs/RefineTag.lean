import Verif.Proofs.RefineAttr
/-
Refinement for start tags.
-/
namespace Aitch
open Spec

theorem exists_perm_map {α β} (f : α → β) (as : List α) (l : List β) (h : l.Perm (as.map f)) :
    ∃ as' : List α, as'.Perm as ∧ as'.map f = l := by
  induction as generalizing l with
  | nil => exact ⟨[], List.Perm.refl _, by simpa using h.symm⟩
  | cons a as ih =>
    have hm : f a ∈ l := h.mem_iff.mpr (by simp)
    obtain ⟨s, t, rfl⟩ := List.append_of_mem hm
    have h2 : (s ++ t).Perm (as.map f) := by
      have := List.perm_middle.symm.trans h
      exact List.Perm.cons_inv this
    obtain ⟨as', hp, hmap⟩ := ih _ h2
    obtain ⟨s', t', rfl, rfl, rfl⟩ := List.map_eq_append_iff.mp hmap
    exact ⟨s' ++ a :: t', List.perm_middle.trans (hp.cons a), by simp⟩

theorem lookup_zipIdx (names : List Bytes) (k : Nat) (hn : names.Nodup) (i : Nat) (n : Bytes)
    (h : names[i]? = some n) : (names.zipIdx k).lookup n = some (k + i) := by
  induction names generalizing k i with
  | nil => simp at h
  | cons x xs ih =>
    rw [List.nodup_cons] at hn
    cases i with
    | zero =>
      simp at h; subst h
      simp [List.zipIdx_cons]
    | succ i =>
      simp only [List.getElem?_cons_succ] at h
      have hne : n ≠ x := by
        rintro rfl
        exact hn.1 (List.mem_of_getElem? h)
      have : (n == x) = false := by simpa using hne
      simp only [List.zipIdx_cons, List.lookup, this]
      rw [ih (k + 1) hn.2 i h]
      simp; omega

theorem lookup_zipIdx_none (names : List Bytes) (k : Nat) (n : Bytes) (h : n ∉ names) :
    (names.zipIdx k).lookup n = none := by
  induction names generalizing k with
  | nil => rfl
  | cons x xs ih =>
    simp only [List.mem_cons, not_or] at h
    have : (n == x) = false := by simpa using h.1
    simp only [List.zipIdx_cons, List.lookup, this]
    exact ih _ h.2

theorem wf_lookup {h : ElemHead} (wf : WFHead h) {a : Attr} (ha : a ∈ h.attributes) :
    ∃ i, h.attIndices.lookup a.name = some i ∧ h.attributes[i]? = some a := by
  obtain ⟨i, hi⟩ := List.getElem?_of_mem ha
  refine ⟨i, ?_, hi⟩
  rw [wf.1, lookup_zipIdx _ 0 wf.2 i a.name (by simp [hi])]
  simp

theorem wf_lookup_none {h : ElemHead} (wf : WFHead h) {n : Bytes} (hn : n ∉ h.attributes.map Attr.name) :
    h.attIndices.lookup n = none := by
  rw [wf.1]; exact lookup_zipIdx_none _ _ _ hn

theorem wf_keys {h : ElemHead} (wf : WFHead h) : h.attIndices.map (·.1) = h.attributes.map Attr.name := by
  rw [wf.1]
  exact List.zipIdx_map_fst 0 _

theorem distinct_filter (p : Bytes → Bool) (l : List Bytes) : distinct (l.filter p) = (distinct l).filter p := by
  induction l with
  | nil => rfl
  | cons x xs ih =>
    by_cases hp : p x = true
    · rw [List.filter_cons_of_pos hp]
      simp only [distinct]
      rw [List.filter_cons_of_pos hp, ih, List.filter_filter, List.filter_filter]
      congr 1
      apply List.filter_congr
      intro y _
      exact Bool.and_comm _ _
    · rw [List.filter_cons_of_neg hp]
      simp only [distinct]
      rw [List.filter_cons_of_neg hp, ih, List.filter_filter]
      apply List.filter_congr
      intro y _
      by_cases hy : y = x
      · subst hy; simp [hp]
      · simp [hy]

theorem mem_distinct (l : List Bytes) (x : Bytes) : x ∈ distinct l ↔ x ∈ l := by
  induction l with
  | nil => simp [distinct]
  | cons y ys ih =>
    simp only [distinct, List.mem_cons, List.mem_filter, ih]
    by_cases h : x = y <;> simp [h]

theorem nodup_distinct (l : List Bytes) : (distinct l).Nodup := by
  induction l with
  | nil => simp [distinct]
  | cons y ys ih =>
    simp only [distinct, List.nodup_cons, List.mem_filter]
    exact ⟨by simp, ih.filter _⟩

section
variable {env : Env} {P : Fns} {c : Ctx}

/-- What a static attribute shows. -/
def staticShown (P : Fns) (c : Ctx) (act : List Attr) (a : Attr) : Shown :=
  match named a.name act with
  | [] => shown P c a
  | e :: es => shownMerged P c a (e :: es) ((e :: es).getLast (by simp))

/-- What an otherwise undeclared name shows. -/
def extraShown (P : Fns) (c : Ctx) (act : List Attr) (n : Bytes) : Option Shown :=
  match named n act with
  | [] => none
  | e :: es => some (shownMerged P c e es ((e :: es).getLast (by simp)))

theorem E.renderStatic (G : Good env P) (he : c.frame.err = none) {h : ElemHead} (wf : WFHead h) (act : List Attr)
    {a : Attr} (ha : a ∈ h.attributes) :
    E env c (renderStatic h (groupInto [] act) a.name) () (Shown.bytes (staticShown P c act a)) := by
  obtain ⟨i, hi, hg⟩ := wf_lookup wf ha
  simp only [Aitch.renderStatic, hi, hg, lookup_group, staticShown]
  cases hn : named a.name act with
  | nil => exact E.renderAttr G he a
  | cons e es =>
    have h2 := E.renderChosen (P := P) (c := c) G he a (e :: es) ((e :: es).getLast?.getD a)
    have h3 : (e :: es).getLast?.getD a = (e :: es).getLast (by simp) := by
      rw [List.getLast?_eq_some_getLast (by simp)]; rfl
    rw [h3] at h2
    exact h2

theorem E.renderStatics (G : Good env P) (he : c.frame.err = none) {h : ElemHead} (wf : WFHead h) (act : List Attr)
    (as : List Attr) (ha : ∀ a ∈ as, a ∈ h.attributes) :
    E env c (renderStatics h (groupInto [] act) (as.map Attr.name)) ()
      ((as.map (staticShown P c act)).flatMap Shown.bytes) := by
  induction as with
  | nil => exact E.pure
  | cons a as ih =>
    simp only [List.map_cons, Aitch.renderStatics, List.flatMap_cons]
    exact E.bind (E.renderStatic G he wf act (ha a (by simp))) (ih fun x hx => ha x (by simp [hx]))

theorem E.renderExtra (G : Good env P) (he : c.frame.err = none) {h : ElemHead} (wf : WFHead h) (act : List Attr)
    (n : Bytes) :
    E env c (renderExtra h (groupInto [] act) n) ()
      ((if n ∈ h.attributes.map Attr.name then none else extraShown P c act n).toList.flatMap Shown.bytes) := by
  unfold Aitch.renderExtra
  by_cases hn : n ∈ h.attributes.map Attr.name
  · obtain ⟨a, ha, rfl⟩ := List.mem_map.mp hn
    obtain ⟨i, hi, hg⟩ := wf_lookup wf ha
    rw [if_pos hn]
    simp only [hi]
    exact E.pure
  · simp only [wf_lookup_none wf hn, lookup_group, extraShown]
    rw [if_neg hn]
    cases hm : named n act with
    | nil => exact E.pure
    | cons e es =>
      have h2 := E.renderChosen (P := P) (c := c) G he e es ((e :: es).getLast?.getD e)
      have h3 : (e :: es).getLast?.getD e = (e :: es).getLast (by simp) := by
        rw [List.getLast?_eq_some_getLast (by simp)]; rfl
      have h4 : E env c (Aitch.renderChosen e es ((e :: es).getLast?.getD e)) ()
          (Shown.bytes (shownMerged P c e es ((e :: es).getLast (by simp))) ++ []) := by
        rw [← h3]; exact h2.of_eq (by simp)
      exact h4

theorem E.renderExtras (G : Good env P) (he : c.frame.err = none) {h : ElemHead} (wf : WFHead h) (act : List Attr)
    (ns : List Bytes) :
    E env c (renderExtras h (groupInto [] act) ns) ()
      ((ns.filterMap fun n => if n ∈ h.attributes.map Attr.name then none else extraShown P c act n).flatMap
        Shown.bytes) := by
  induction ns with
  | nil => exact E.pure
  | cons n ns ih =>
    simp only [Aitch.renderExtras]
    refine E.of_eq (E.bind (E.renderExtra G he wf act n) ih) ?_
    cases hx : (if n ∈ h.attributes.map Attr.name then none else extraShown P c act n) with
    | none => simp only [List.filterMap_cons, hx]; rfl
    | some x => simp only [List.filterMap_cons, hx]; simp

theorem shownExtras_eq (P : Fns) (c : Ctx) (statics act : List Attr) :
    shownExtras P c statics act =
      (distinct (act.map Attr.name)).filterMap fun n =>
        if n ∈ statics.map Attr.name then none else extraShown P c act n := by
  unfold shownExtras
  rw [distinct_filter]
  generalize distinct (act.map Attr.name) = l
  induction l with
  | nil => rfl
  | cons x xs ih =>
    by_cases hx : x ∈ statics.map Attr.name
    · rw [List.filter_cons_of_neg (by simpa using hx), List.filterMap_cons_none (by rw [if_pos hx]), ih]
    · rw [List.filter_cons_of_pos (by simpa using hx)]
      simp only [List.filterMap_cons, if_neg hx, ih]
      rfl

theorem Tr.renderAttributes (G : Good env P) (he : c.frame.err = none) {h : ElemHead} (wf : WFHead h) :
    Tr env c (renderAttributes h)
      (fun _ c' w => c' = c ∧ ∃ l, TagShows P c h l ∧ w = l.flatMap Shown.bytes) := by
  unfold Aitch.renderAttributes
  have plain : active P c h.conditionals = [] → Tr env c (renderAttrs h.attributes)
      (fun _ c' w => c' = c ∧ ∃ l, TagShows P c h l ∧ w = l.flatMap Shown.bytes) := by
    intro ha
    refine Tr.conseq (E.renderAttrs G he h.attributes) ?_
    rintro r c' w ⟨_, rfl, rfl⟩
    exact ⟨rfl, _, by simp [TagShows, ha], rfl⟩
  by_cases hc : h.conditionals.length > 0
  · rw [if_pos hc]
    refine E.bindTr (E.evaluate G h.conditionals []) ?_
    have hk := keys_group (active P c h.conditionals)
    by_cases ha : active P c h.conditionals = []
    · rw [ha]
      simp only [groupInto, List.foldl_nil, List.length_nil, gt_iff_lt, Nat.lt_irrefl, if_false, List.nil_append]
      exact plain ha
    · have hlen : (groupInto [] (active P c h.conditionals)).length > 0 := by
        have : ((groupInto [] (active P c h.conditionals)).map (·.1)).length > 0 := by
          rw [hk]
          cases hx : active P c h.conditionals with
          | nil => exact absurd hx ha
          | cons a as => simp [distinct]
        simpa using this
      rw [if_pos hlen]
      refine Tr.bind (Tr.order _) ?_
      rintro names c1 w1 ⟨hp, rfl, rfl⟩
      rw [wf_keys wf] at hp
      obtain ⟨as', has', rfl⟩ := exists_perm_map _ _ _ hp
      refine E.bindTr (E.renderStatics G he wf _ as' fun a h => has'.mem_iff.mp h) ?_
      refine Tr.bind (Tr.order _) ?_
      rintro names c2 w2 ⟨hp2, rfl, rfl⟩
      rw [hk] at hp2
      refine Tr.conseq (E.renderExtras G he wf _ names) ?_
      rintro r c' w ⟨_, rfl, rfl⟩
      refine ⟨rfl, _, ?_, by simp only [List.nil_append, ← List.flatMap_append]; rfl⟩
      unfold TagShows
      simp only [ha, if_false]
      refine ⟨_, _, ?_, ?_, rfl⟩
      · exact has'.map _
      · rw [shownExtras_eq]
        exact hp2.filterMap _
  · rw [if_neg hc]
    apply plain
    have : h.conditionals = [] := by
      cases hx : h.conditionals with
      | nil => rfl
      | cons a as => rw [hx] at hc; simp at hc
    rw [this]; rfl

theorem Tr.renderStartTag (G : Good env P) (he : c.frame.err = none) {h : ElemHead} (wf : WFHead h) :
    Tr env c (renderStartTag h)
      (fun _ c' w => c' = c ∧ ∃ l, TagShows P c h l ∧ w = tagBytes h.name l) := by
  have W := fun d => E.ctxWrite (c := c) G.healthy he d
  refine E.bindTr (W _) (E.bindTr (W _) (Tr.bind (Tr.renderAttributes G he wf) ?_))
  rintro _ c' w ⟨rfl, l, hl, rfl⟩
  refine Tr.conseq (W _) ?_
  rintro _ c1 w1 ⟨_, rfl, rfl⟩
  exact ⟨rfl, l, hl, by simp [tagBytes]⟩

theorem E.renderEndTag (G : Good env P) (he : c.frame.err = none) (n : Bytes) :
    E env c (renderEndTag n) () (endBytes n) := by
  have W := fun d => E.ctxWrite (c := c) G.healthy he d
  exact E.of_eq (E.bind (W _) (E.bind (W _) (W _))) (by simp [endBytes])

end

end Aitch

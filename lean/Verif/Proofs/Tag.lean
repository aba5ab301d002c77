import Verif.Spec.Tag
import Verif.Proofs.Merge
import Verif.Proofs.Built
/-
The tag of a constructed element against `TagSpec`.
-/
namespace Aitch
open Spec

theorem filterMap_eq_map {α β : Type} {f : α → Option β} {g : α → β} {l : List α} (h : ∀ a ∈ l, f a = some (g a)) :
    l.filterMap f = l.map g := by
  induction l with
  | nil => rfl
  | cons a l ih =>
    rw [List.filterMap_cons, h a (by simp), List.map_cons, ih fun b hb => h b (by simp [hb])]

theorem filterMap_congr {α β : Type} {f g : α → Option β} {l : List α} (h : ∀ a ∈ l, f a = g a) :
    l.filterMap f = l.filterMap g := by
  induction l with
  | nil => rfl
  | cons a l ih =>
    rw [List.filterMap_cons, List.filterMap_cons, h a (by simp), ih fun b hb => h b (by simp [hb])]

theorem named_self {n : Bytes} {as : List Attr} (h : n ∈ as.map Attr.name) : named n as ≠ [] := by
  obtain ⟨a, ha, rfl⟩ := List.mem_map.1 h
  exact List.ne_nil_of_mem (List.mem_filter.2 ⟨ha, by simp⟩)

/-- The merged element's attributes show what `nameShows` says. -/
theorem shows_static {P : Fns} {c : Ctx} {dl : Nat → List Value} {as : List Attr} {e : ElemHead} (m : Merged as e)
    (hv : ∀ n d r, (delimSuffix (named n as)).head? = some (.delim n d r) →
      c.dl r = valuesOf dl (delimSuffix (named n as)))
    (act : List Attr) :
    shownStatics P c e.attributes act =
      (distinct (as.map Attr.name)).filterMap fun n => nameShows P c dl (named n as) (named n act) := by
  rw [← m.names, List.filterMap_map]
  symm
  refine filterMap_eq_map fun a ha => ?_
  have hc := m.att a ha
  have hne : named a.name as ≠ [] := by
    intro h0; rw [h0] at hc; simp [chosen, delimSuffix] at hc
  obtain ⟨x, xs, hx⟩ := List.exists_cons_of_ne_nil hne
  have hd := chosen_delim hc
  simp only [Function.comp]
  by_cases hda : isDelim a = true
  · rw [hda] at hd
    simp only [if_true] at hd
    obtain ⟨n, d, r, rfl⟩ := name_refOf hda
    have hvr := hv n d r hd
    obtain ⟨rest, hrest⟩ : ∃ rest, delimSuffix (named n as) = .delim n d r :: rest := by
      cases hs : delimSuffix (named n as) with
      | nil => rw [show (Attr.delim n d r).name = n from rfl, hs] at hd; simp at hd
      | cons y ys => rw [show (Attr.delim n d r).name = n from rfl, hs] at hd; simp at hd; exact ⟨ys, by rw [hd]⟩
    have hshow : nameShows P c dl (named n as) (named n act) =
        some (n, some (delimJoin d ((c.dl r ++ valuesOf c.dl (named n act)).map (valueBytes P c)))) := by
      rw [hvr]
      unfold nameShows
      rw [show named (Attr.delim n d r).name as = named n as from rfl] at hx
      rw [hrest]
      split
      · rename_i h; simp at h; obtain ⟨⟨rfl, rfl, rfl⟩, -⟩ := h; rfl
      · rename_i hh; exact absurd rfl (hh _ _ _ _)
      · rename_i h; exact absurd h hne
    change nameShows P c dl (named n as) (named n act) = _
    rw [hshow]
    simp only [show (Attr.delim n d r).name = n from rfl]
    split
    · rename_i h; rw [h]; simp [valuesOf, shown]
    · rename_i e es h; rw [h]; simp [valuesOf, shownMerged]
  · simp only [hda] at hd
    have hd : delimSuffix (named a.name as) = [] := by simpa using hd
    have hlast : (named a.name as).getLast? = some a := by
      unfold chosen at hc; rw [hd] at hc; simpa using hc
    unfold nameShows
    rw [hd]
    split
    · rename_i h; simp at h
    · rw [hlast]
      split
      · rename_i h; rw [h]; simp
      · rename_i e es h; rw [h]
        rw [List.getLast?_eq_some_getLast (by simp)]
        cases a with
        | delim => simp [isDelim, refOf] at hda
        | plain => simp [shownMerged]
        | bool => simp [shownMerged]
    · rename_i h; exact absurd h hne

theorem shows_extra {P : Fns} {c : Ctx} {dl : Nat → List Value} {statics as act : List Attr}
    (hn : ∀ n, n ∈ statics.map Attr.name ↔ n ∈ as.map Attr.name) :
    shownExtras P c statics act =
      (distinct ((act.map Attr.name).filter fun n => n ∉ as.map Attr.name)).filterMap fun n =>
        nameShows P c dl (named n as) (named n act) := by
  unfold shownExtras
  have e1 : ((act.map Attr.name).filter fun n => n ∉ statics.map Attr.name) =
      (act.map Attr.name).filter fun n => n ∉ as.map Attr.name := by
    apply List.filter_congr
    intro n _
    simp only [hn]
  rw [e1]
  apply filterMap_congr
  intro n hmem
  rw [mem_distinct, List.mem_filter] at hmem
  have hnil : named n as = [] := named_eq_nil (by simpa using hmem.2)
  rw [hnil]
  cases hE : named n act with
  | nil => simp [nameShows]
  | cons e es =>
    cases e with
    | delim n d r => simp [nameShows, shownMerged, valuesOf, Attr.values]
    | plain n vs => simp [nameShows, shownMerged, List.getLast?_eq_some_getLast]
    | bool n => simp [nameShows, shownMerged, List.getLast?_eq_some_getLast]

theorem tagShows_iff {P : Fns} {c : Ctx} {dl : Nat → List Value} {as : List Attr} {e : ElemHead} (m : Merged as e)
    (hv : ∀ n d r, (delimSuffix (named n as)).head? = some (.delim n d r) →
      c.dl r = valuesOf dl (delimSuffix (named n as))) (l : List Shown) :
    TagShows P c e l ↔ TagSpec P c dl as (active P c e.conditionals) l := by
  have hn : ∀ n, n ∈ e.attributes.map Attr.name ↔ n ∈ as.map Attr.name := by
    intro n; rw [m.names, mem_distinct]
  unfold TagShows TagSpec
  simp only
  by_cases ha : active P c e.conditionals = []
  · simp only [ha, if_true]
    have := shows_static (P := P) m hv []
    rw [← this]
    unfold shownStatics
    simp [named]
  · simp only [ha, if_false]
    rw [shows_static (P := P) m hv, shows_extra (P := P) (dl := dl) hn]

theorem active_condAttrs (P : Fns) (c : Ctx) (ns : List Node) : active P c (condAttrs ns) = inEffect P c ns := by
  unfold active condAttrs inEffect
  rw [List.filter_map, List.map_map, List.filter_filter]
  congr 1
  apply List.filter_congr
  intro a _
  simp [Bool.and_comm]

theorem shown_fst (P : Fns) (c : Ctx) (a : Attr) : (shown P c a).1 = a.name := by cases a <;> rfl

theorem shownMerged_fst {P : Fns} {c : Ctx} {first : Attr} {more : List Attr} {last : Attr}
    (h : last.name = first.name) : (shownMerged P c first more last).1 = first.name := by
  cases first <;> first | rfl | (rw [← h]; exact shown_fst P c last)

theorem getLast_named {n : Bytes} {act : List Attr} {e : Attr} {es : List Attr} (h : named n act = e :: es) :
    ((e :: es).getLast (by simp)).name = n :=
  named_name (as := act) (by rw [h]; exact List.getLast_mem (by simp))

theorem shownStatics_names (P : Fns) (c : Ctx) (statics act : List Attr) :
    (shownStatics P c statics act).map (·.1) = statics.map Attr.name := by
  unfold shownStatics
  rw [List.map_map]
  apply List.map_congr_left
  intro a _
  simp only [Function.comp]
  split
  · exact shown_fst P c a
  · rename_i e es h
    exact shownMerged_fst (getLast_named h)

theorem shownExtras_names (P : Fns) (c : Ctx) (statics act : List Attr) :
    (shownExtras P c statics act).map (·.1) =
      distinct ((act.map Attr.name).filter fun n => n ∉ statics.map Attr.name) := by
  unfold shownExtras
  have key : ∀ l : List Bytes, (∀ n ∈ l, n ∈ act.map Attr.name) →
      (l.filterMap fun n =>
        match named n act with
        | [] => none
        | e :: es => some (shownMerged P c e es ((e :: es).getLast (by simp)))).map (·.1) = l := by
    intro l hl
    induction l with
    | nil => rfl
    | cons n l ih =>
      have ih := ih fun m hm => hl m (by simp [hm])
      obtain ⟨e, es, he⟩ := List.exists_cons_of_ne_nil (named_self (hl n (by simp)))
      have : e.name = n := named_name (as := act) (n := n) (by rw [he]; simp)
      rw [List.filterMap_cons]
      split
      · rename_i h; rw [he] at h; simp at h
      · rename_i b hb
        rw [List.map_cons, ih]
        congr 1
        rw [he] at hb
        simp only [Option.some.injEq] at hb
        rw [← hb, shownMerged_fst ((getLast_named he).trans this.symm), this]
  apply key
  intro n hn
  rw [mem_distinct] at hn
  exact (List.mem_filter.1 hn).1

/-- Names shown by a tag: those of the static attributes and of the conditional ones in effect, each once. -/
theorem tagShows_names {P : Fns} {c : Ctx} {h : ElemHead} (wf : WFHead h) {l : List Shown} (ht : TagShows P c h l) :
    (l.map (·.1)).Nodup ∧
    ∀ n, n ∈ l.map (·.1) ↔ n ∈ h.attributes.map Attr.name ∨ n ∈ (active P c h.conditionals).map Attr.name := by
  unfold TagShows at ht
  simp only at ht
  by_cases ha : active P c h.conditionals = []
  · rw [if_pos ha] at ht
    subst ht
    have : (h.attributes.map (shown P c)).map (·.1) = h.attributes.map Attr.name := by
      rw [List.map_map]; exact List.map_congr_left fun a _ => shown_fst P c a
    rw [this, ha]
    exact ⟨wf.2, by simp⟩
  · rw [if_neg ha] at ht
    obtain ⟨l1, l2, p1, p2, rfl⟩ := ht
    have q1 := p1.map (·.1)
    have q2 := p2.map (·.1)
    rw [shownStatics_names] at q1
    rw [shownExtras_names] at q2
    rw [List.map_append]
    constructor
    · rw [List.nodup_append]
      refine ⟨q1.nodup_iff.2 wf.2, q2.nodup_iff.2 (nodup_distinct _), ?_⟩
      rintro n h1 m h2 rfl
      rw [q1.mem_iff] at h1
      rw [q2.mem_iff, mem_distinct, List.mem_filter] at h2
      exact absurd h1 (by simpa using h2.2)
    · intro n
      rw [List.mem_append, q1.mem_iff, q2.mem_iff, mem_distinct, List.mem_filter]
      by_cases hm : n ∈ h.attributes.map Attr.name
      · simp only [hm, true_or]
      · simp only [hm, false_or]
        constructor
        · exact fun h => h.1
        · exact fun h => ⟨h, by simp⟩

theorem active_mem {P : Fns} {c : Ctx} {cas : List CondAttr} {a : Attr} (h : a ∈ active P c cas) :
    ∃ ca ∈ cas, ca.att = a := by
  unfold active at h
  obtain ⟨ca, h1, h2⟩ := List.mem_map.1 h
  exact ⟨ca, (List.mem_filter.1 h1).1, h2⟩

/-- The facts about the head of a constructed void element. -/
theorem void_head {name : Bytes} {contents : List Any} {h : Heap} :
    ∃ e dl, NewVoidElement name contents h = (.voidElement e, ⟨dl, h.next⟩) ∧ e.name = name ∧
      Merged (staticAttrs (contents.map (asNode h.dl))) e ∧
      e.conditionals = (attributesAndContents (contents.map (asNode h.dl))).2.1 ∧
      (Unshared (staticAttrs (contents.map (asNode h.dl))) →
        ∀ n d r, (delimSuffix (named n (staticAttrs (contents.map (asNode h.dl))))).head? = some (.delim n d r) →
          dl r = valuesOf h.dl (delimSuffix (named n (staticAttrs (contents.map (asNode h.dl)))))) := by
  obtain ⟨e, dl, h1, h2⟩ := newVoidElement_eq name contents h
  have hm := addAttributes_merged (staticAttrs (contents.map (asNode h.dl))) name
    (attributesAndContents (contents.map (asNode h.dl))).2.1 h.dl
  rw [h2] at hm
  refine ⟨e, dl, h1, hm.2.1, hm.1, hm.2.2, ?_⟩
  intro hu n d r hr
  have := (addAttributes_values _ hu name (attributesAndContents (contents.map (asNode h.dl))).2.1 h.dl).1 n d r hr
  rw [h2] at this
  exact this

theorem delimSuffix_ref {as : List Attr} {n d : Bytes} {r : Nat}
    (h : (delimSuffix (named n as)).head? = some (.delim n d r)) : r ∈ as.filterMap refOf := by
  have h1 : Attr.delim n d r ∈ delimSuffix (named n as) := List.mem_of_mem_head? h
  exact List.mem_filterMap.2 ⟨_, named_mem (delimSuffix_mem h1), rfl⟩

/-- What the two declarations lists of a name resolve to is in the tag, and nothing else is. -/
theorem tagSpec_mem {P : Fns} {c : Ctx} {dl : Nat → List Value} {statics act : List Attr} {l : List Shown}
    (h : TagSpec P c dl statics act l) (x : Shown) :
    x ∈ l ↔ ∃ n, (n ∈ statics.map Attr.name ∨ n ∈ act.map Attr.name) ∧
      nameShows P c dl (named n statics) (named n act) = some x := by
  unfold TagSpec at h
  simp only at h
  by_cases ha : act = []
  · rw [if_pos ha] at h
    subst h ha
    simp [List.mem_filterMap, mem_distinct]
  · rw [if_neg ha] at h
    obtain ⟨l1, l2, p1, p2, rfl⟩ := h
    rw [List.mem_append, p1.mem_iff, p2.mem_iff, List.mem_filterMap, List.mem_filterMap]
    constructor
    · rintro (⟨n, h1, h2⟩ | ⟨n, h1, h2⟩)
      · exact ⟨n, Or.inl (by simpa [mem_distinct] using h1), h2⟩
      · rw [mem_distinct, List.mem_filter] at h1
        exact ⟨n, Or.inr h1.1, h2⟩
    · rintro ⟨n, h1, h2⟩
      by_cases hn : n ∈ statics.map Attr.name
      · exact Or.inl ⟨n, by rw [mem_distinct]; exact hn, h2⟩
      · exact Or.inr ⟨n, by rw [mem_distinct, List.mem_filter]; exact ⟨h1.resolve_left hn, by simpa using hn⟩, h2⟩

theorem delimSuffix_all {ds : List Attr} (h : ∀ a ∈ ds, isDelim a = true) : delimSuffix ds = ds := by
  induction ds using snoc_induction with
  | nil => rfl
  | append_singleton ds a ih =>
    rw [delimSuffix_snoc, h a (by simp), if_pos rfl, ih fun b hb => h b (by simp [hb])]

theorem delimSuffix_last {ds : List Attr} {a : Attr} (h : ds.getLast? = some a) (ha : isDelim a = false) :
    delimSuffix ds = [] := by
  obtain ⟨init, rfl⟩ := List.getLast?_eq_some_iff.1 h
  simp [delimSuffix_snoc, ha]

theorem nameShows_delim {P : Fns} {c : Ctx} {dl : Nat → List Value} {n d : Bytes} {r : Nat} {ds es : List Attr}
    (hd : ds.head? = some (.delim n d r)) (hall : ∀ a ∈ ds, isDelim a = true) :
    nameShows P c dl ds es = some (n, some (delimJoin d ((valuesOf dl ds ++ valuesOf c.dl es).map (valueBytes P c)))) := by
  cases ds with
  | nil => simp at hd
  | cons a ds =>
    simp only [List.head?_cons, Option.some.injEq] at hd
    subst hd
    unfold nameShows
    rw [delimSuffix_all hall]

theorem nameShows_plain {P : Fns} {c : Ctx} {dl : Nat → List Value} {a b : Attr} {ds es : List Attr}
    (hd : ds.getLast? = some a) (ha : isDelim a = false) (hb : (es.getLast?.or (some a)) = some b) :
    nameShows P c dl ds es = some (shown P c b) := by
  cases ds with
  | nil => simp at hd
  | cons x ds =>
    unfold nameShows
    rw [delimSuffix_last hd ha, hd, hb]
    rfl

theorem nameShows_fst {P : Fns} {c : Ctx} {dl : Nat → List Value} {n : Bytes} {ds es : List Attr} {x : Shown}
    (h : nameShows P c dl (named n ds) (named n es) = some x) : x.1 = n := by
  unfold nameShows at h
  split at h
  · rename_i _ _ m d r rest _ hs
    simp only [Option.some.injEq] at h
    subst h
    exact named_name (a := .delim m d r) (as := ds) (delimSuffix_mem (ds := named n ds) (by rw [hs]; simp))
  · cases hl : (named n es).getLast? with
    | some a =>
      rw [hl] at h
      simp at h; subst h
      rw [shown_fst]; exact named_name (as := es) (List.mem_of_getLast? hl)
    | none =>
      rw [hl] at h
      simp at h
      obtain ⟨a, ha, rfl⟩ := h
      rw [shown_fst]; exact named_name (as := ds) (List.mem_of_getLast? ha)
  · split at h
    · rename_i m d r rest hs
      simp only [Option.some.injEq] at h
      subst h
      exact named_name (a := .delim m d r) (as := es) (by rw [hs]; simp)
    · simp at h
      obtain ⟨a, ha, rfl⟩ := h
      rw [shown_fst]; exact named_name (as := es) (List.mem_of_getLast? ha)

theorem tagSpec_name {P : Fns} {c : Ctx} {dl : Nat → List Value} {statics act : List Attr} {l : List Shown}
    (h : TagSpec P c dl statics act l) (n : Bytes) (v : Option Bytes) :
    (n, v) ∈ l ↔ nameShows P c dl (named n statics) (named n act) = some (n, v) := by
  rw [tagSpec_mem h]
  constructor
  · rintro ⟨m, -, hm⟩
    have := nameShows_fst hm
    simp only at this
    subst this
    exact hm
  · intro hm
    refine ⟨n, ?_, hm⟩
    refine Classical.byContradiction fun hn => ?_
    rw [not_or] at hn
    rw [named_eq_nil hn.1, named_eq_nil hn.2] at hm
    simp [nameShows] at hm

end Aitch

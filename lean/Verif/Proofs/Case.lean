import Verif.Spec.Case
import Verif.Proofs.Source
import Verif.Proofs.Tag
import Verif.Proofs.Leaf
/-
Repeated attributes in different case, as they are written and read.
-/
namespace Aitch

open Spec Markup

/-- A start tag whose attributes may be repeated. -/
theorem run_startTag_any (R : CharRefs) (name : Bytes) (attrs : List (Bytes × Option Bytes)) (hn : ValidName name)
    (ha : ∀ a ∈ attrs, ValidName a.1) (rest : Bytes) :
    run R .data 0 (writeTag name attrs ++ rest) =
      .start (lower name) (firstOnly (attrs.map fun a => (lower a.1, valueOf a))) false ::
        run R (contentState (lower name)) 0 rest := by
  obtain ⟨c, cs, rfl, hc, hcs⟩ := hn
  obtain ⟨l1, l2, l3, l4, l5, l6, l7, l8⟩ := letter_facts c hc
  have e : writeTag (c :: cs) attrs ++ rest =
      c%'<' :: c :: (cs ++ (attrs.flatMap Markup.writeAttr ++ c%'>' :: rest)) := by simp [writeTag]
  rw [e, run_step R _ (.inl (by decide)), run_step R _ (.inl (by simpa using l7))]
  have e1 : step .data c%'<' = (.tagOpen, []) := rfl
  rw [e1]
  have e2 : step .tagOpen c = (.tagName { isEnd := false, name := [lowerByte c] }, []) := by
    simp [step, stepTagOpen, l1, l3, l6]
  rw [e2]
  simp only [List.nil_append]
  rw [run_tagName R _ cs _ hcs, run_attrs R attrs ha .name]
  simp only [emitTag, Tag.addAll, Bool.false_eq_true, ↓reduceIte, List.nil_append, List.singleton_append]
  have e3 : [lowerByte c] ++ lower cs = lower (c :: cs) := rfl
  simp only [List.cons_append, List.nil_append] at e3
  rw [e3]
  rfl

theorem run_contentState_end (R : CharRefs) (n : Bytes) : run R (contentState n) 0 [] = [] := by
  unfold contentState
  split
  · rfl
  · split
    · rfl
    · split <;> rfl

/-- The first counts. -/
theorem lookup_firstOnly (l : List (Bytes × Bytes)) (m : Bytes) : (firstOnly l).lookup m = l.lookup m := by
  induction l with
  | nil => rfl
  | cons a l ih =>
    obtain ⟨k, v⟩ := a
    rw [firstOnly, List.lookup_cons, List.lookup_cons]
    by_cases hk : m = k
    · subst hk; simp
    · have hb : (m == k) = false := by simpa using hk
      rw [hb]
      simp only
      rw [← ih]
      generalize firstOnly l = l'
      induction l' with
      | nil => rfl
      | cons b l' ih' =>
        obtain ⟨k', v'⟩ := b
        by_cases hk' : k' = k
        · subst hk'
          rw [List.filter_cons_of_neg (by simp), ih', List.lookup_cons, hb]
        · rw [List.filter_cons_of_pos (by simpa using hk'), List.lookup_cons, List.lookup_cons, ih']

/-- The attributes as they are written: every spelling once, with what was declared last under it. -/
def kept (l : List (Bytes × Option Bytes)) : List (Bytes × Option Bytes) :=
  (distinct (l.map (·.1))).filterMap (lastSpelled l)

theorem lastSpelled_fst {l : List (Bytes × Option Bytes)} {n : Bytes} {a : Bytes × Option Bytes}
    (h : lastSpelled l n = some a) : a.1 = n ∧ a ∈ l := by
  have := List.mem_of_getLast? h
  rw [List.mem_filter] at this
  exact ⟨by simpa using this.2, this.1⟩

theorem lastSpelled_some {l : List (Bytes × Option Bytes)} {n : Bytes} (h : n ∈ l.map (·.1)) :
    ∃ a, lastSpelled l n = some a := by
  obtain ⟨a, ha, rfl⟩ := List.mem_map.1 h
  have hne : (l.filter fun b => b.1 = a.1) ≠ [] :=
    List.ne_nil_of_mem (a := a) (List.mem_filter.2 ⟨ha, by simp⟩)
  exact ⟨_, List.getLast?_eq_some_getLast hne⟩

theorem find_distinct (l : List Bytes) (p : Bytes → Bool) : (distinct l).find? p = l.find? p := by
  induction l with
  | nil => rfl
  | cons a l ih =>
    rw [distinct, List.find?_cons, List.find?_cons]
    by_cases hp : p a = true
    · rw [hp]
    · simp only [hp]
      rw [← ih, List.find?_filter]
      congr 1
      funext b
      by_cases hb : b = a
      · subst hb; simp [hp]
      · simp [hb]

theorem lookup_kept (l : List (Bytes × Option Bytes)) (m : Bytes) :
    ((kept l).map fun a => (lower a.1, valueOf a)).lookup (lower m) =
      (firstSpelling l m).bind fun n => (lastSpelled l n).map valueOf := by
  have key : ∀ ns : List Bytes, (∀ n ∈ ns, n ∈ l.map (·.1)) →
      ((ns.filterMap (lastSpelled l)).map fun a => (lower a.1, valueOf a)).lookup (lower m) =
        (ns.find? fun n => lower n = lower m).bind fun n => (lastSpelled l n).map valueOf := by
    intro ns hns
    induction ns with
    | nil => rfl
    | cons n ns ih =>
      obtain ⟨a, ha⟩ := lastSpelled_some (hns n (.head _))
      rw [List.filterMap_cons, ha]
      simp only [List.map_cons, List.lookup_cons, List.find?_cons]
      rw [(lastSpelled_fst ha).1]
      by_cases hm : lower n = lower m
      · rw [hm]; simp [ha]
      · have : (lower m == lower n) = false := by simpa using fun h => hm h.symm
        rw [this]
        simp only [hm, decide_false]
        exact ih fun k hk => hns k (.tail _ hk)
  unfold kept firstSpelling
  rw [key _ fun n hn => by rwa [mem_distinct] at hn, find_distinct]
  congr 1
  rw [List.find?_map]
  rfl

/-! ### Writing -/

/-- The same for attributes still to be built. -/
def keptSrc (attrs : List (Bytes × Option (List Part))) : List (Bytes × Option (List Part)) :=
  (distinct (attrs.map (·.1))).filterMap fun n => (attrs.filter fun a => a.1 = n).getLast?

theorem keptSrc_of (c : Ctx) (attrs : List (Bytes × Option (List Part))) :
    (keptSrc attrs).map (attrOf c) = kept (attrs.map (attrOf c)) := by
  unfold keptSrc kept
  rw [List.map_filterMap]
  have e : (attrs.map (attrOf c)).map (·.1) = attrs.map (·.1) := by simp [attrOf, Function.comp_def]
  rw [e]
  congr 1
  funext n
  unfold lastSpelled
  rw [List.filter_map, List.getLast?_map]
  rfl

theorem keptSrc_mem {attrs : List (Bytes × Option (List Part))} {a : Bytes × Option (List Part)} (h : a ∈ keptSrc attrs) :
    a ∈ attrs := by
  obtain ⟨n, -, hn⟩ := List.mem_filterMap.1 h
  exact (List.mem_filter.1 (List.mem_of_getLast? hn)).1

theorem named_srcAttrs (h : Heap) (attrs : List (Bytes × Option (List Part))) (n : Bytes) :
    named n (attrs.map (srcAttr h)) = (attrs.filter fun a => a.1 = n).map (srcAttr h) := by
  unfold named
  rw [List.filter_map]
  congr 1
  apply List.filter_congr
  intro a _
  simp [srcAttr_name]

theorem isDelim_srcAttr (h : Heap) (a : Bytes × Option (List Part)) : isDelim (srcAttr h a) = false := by
  obtain ⟨n, _ | ps⟩ := a <;> rfl

theorem chosen_srcAttrs (h : Heap) (attrs : List (Bytes × Option (List Part))) :
    chosen (attrs.map (srcAttr h)) = attrs.getLast?.map (srcAttr h) := by
  have : delimSuffix (attrs.map (srcAttr h)) = [] := by
    unfold delimSuffix
    rw [← List.map_reverse, List.takeWhile_map]
    have : (isDelim ∘ srcAttr h) = fun _ => false := by funext a; exact isDelim_srcAttr h a
    rw [this]
    cases attrs.reverse <;> simp
  unfold chosen
  rw [this, List.getLast?_map]
  rfl

theorem merged_srcAttrs {h : Heap} {attrs : List (Bytes × Option (List Part))} {e : ElemHead}
    (m : Merged (attrs.map (srcAttr h)) e) : e.attributes = (keptSrc attrs).map (srcAttr h) := by
  have h1 : e.attributes = (distinct ((attrs.map (srcAttr h)).map Attr.name)).filterMap
      fun n => chosen (named n (attrs.map (srcAttr h))) := by
    rw [← m.names, List.filterMap_map]
    symm
    have := filterMap_eq_map (l := e.attributes) (f := (fun n => chosen (named n (attrs.map (srcAttr h)))) ∘ Attr.name)
      (g := id) fun a ha => m.att a ha
    rw [this, List.map_id]
  rw [h1]
  unfold keptSrc
  rw [List.map_filterMap]
  have e : (attrs.map (srcAttr h)).map Attr.name = attrs.map (·.1) := by
    rw [List.map_map]; congr 1; funext a; exact srcAttr_name h a
  rw [e]
  congr 1
  funext n
  rw [named_srcAttrs, chosen_srcAttrs]

/-- What a void element with repeated attributes writes. -/
theorem voidTag_writes {env : Env} (H : Healthy env) (h : Heap) (name : Bytes) (attrs : List (Bytes × Option (List Part)))
    {s : St} (he : s.frame.err = none) (hs : AttrStrings s.toCtx attrs) :
    Writes env (NewVoidElement name (attrs.map fun a => .node (buildAttr h a)) h).1 s
      (writeTag name (kept (attrs.map (attrOf s.toCtx)))) := by
  obtain ⟨e, dl, h1, h2, hm, hc, -⟩ :=
    void_head (name := name) (contents := attrs.map fun a => .node (buildAttr h a)) (h := h)
  have e1 : (attrs.map fun a => Any.node (buildAttr h a)).map (asNode h.dl) = (attrs.map (srcAttr h)).map .attr := by
    rw [List.map_map, List.map_map]
    congr 1
    funext a
    simp [buildAttr_eq, asNode]
  rw [e1] at hm hc
  have hst : staticAttrs ((attrs.map (srcAttr h)).map .attr) = attrs.map (srcAttr h) := by
    generalize attrs.map (srcAttr h) = as
    unfold staticAttrs; rw [declaredAll_attrs]
    simp [List.filter_map, Function.comp_def]
  rw [hst] at hm
  have hc : e.conditionals = [] := by
    rw [hc]
    have := attributesAndContents_conds (separateAll_attrs 0 (attrs.map (srcAttr h)) [] trivial)
    rw [List.append_nil] at this
    rw [this]
    unfold condAttrs
    rw [declaredAll_attrs]
    simp [List.filter_map, Function.comp_def]
  have ha := merged_srcAttrs hm
  obtain ⟨ht, hb⟩ := made_tag (P := noFns) (c := s.toCtx) h2 ha hc fun a h' => hs a (keptSrc_mem h')
  rw [h1]
  refine writes_of_out H (n := .voidElement e) hm.wf (made_head ha hc _) he fun w' ho => ?_
  cases ho with
  | voidElement h' => rw [(ht _).1 h', hb, keptSrc_of]

end Aitch

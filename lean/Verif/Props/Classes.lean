import Verif.Proofs.Classes
import Verif.Props.Attributes
import Verif.Props.Elements
import Verif.Props.Conditionals
/-
C98: the classes that a browser finds.
-/
namespace Aitch.Props
open Spec Markup

/-! ### C98 — a browser finds exactly the classes that are in effect -/

/-- The function `Class` of package html. -/
example : classFn ∈ htmlAttributes := by decide +kernel

section
variable {P : Fns} (F : BuiltFns P) (c : Ctx) (he : c.frame.err = none) (name : Bytes) (hn : ValidName name)
  (contents : List Any) (h : Heap) (hb : ∀ n ∈ nodesIn contents, Built n)
  (hs : SeparateAll 0 (contents.map (asNode h.dl))) (hu : Unshared (staticAttrs (contents.map (asNode h.dl))))
  (hst : ∀ a ∈ staticAttrs (contents.map (asNode h.dl)), Ordinary P c h.dl a)
  (hact : ∀ a ∈ inEffect P c (contents.map (asNode h.dl)), Ordinary P c c.dl a)
  (n : Bytes)
  (hd : ∀ a ∈ staticAttrs (contents.map (asNode h.dl)) ++ inEffect P c (contents.map (asNode h.dl)),
    a.name = n → ∃ r, a = .delim n b%" " r)
  (ts : List Bytes)
  (ht : (valuesOf h.dl (named n (staticAttrs (contents.map (asNode h.dl)))) ++
    valuesOf c.dl (named n (inEffect P c (contents.map (asNode h.dl))))).map (valueBytes P c) = ts.map escaped)
  (R : CharRefs)
include F he hn hb hs hu hst hact hd ht

/-- An attribute all of whose declarations are delimited by spaces, in a void element: a browser reads as its words
the words of the texts declared without conditions, then those of the texts declared under conditions that hold. -/
theorem C98_words
    (hcur : Current c.dl (staticAttrs (contents.map (asNode h.dl))) (NewVoidElement name contents h).2) {w : Bytes}
    (hr : Renders P c (NewVoidElement name contents h).1 w) (rest : Bytes) :
    wordsOf n (readHtml R (w ++ rest)) = ts.flatMap fun t => words (seen t) := by
  obtain ⟨l, hl, rfl⟩ := (C19_tag F c he name contents h hb hs hu hcur w).1 hr
  exact words_tag R hl (tagSpec_nodup hl) hn hst hact n hd ts ht rest

/-- The same for an element with content. -/
theorem C98_words_element
    (hcur : Current c.dl (staticAttrs (contents.map (asNode h.dl))) (NewElement name contents h).2) {w : Bytes}
    (hr : Renders P c (NewElement name contents h).1 w) (rest : Bytes) :
    wordsOf n (readHtml R (w ++ rest)) = ts.flatMap fun t => words (seen t) := by
  obtain ⟨e, h', h1, h2⟩ := newElement_head name contents h
  obtain ⟨tag, ws, h3, -, rfl⟩ := (C06_element F c he name contents h hb w).1 hr
  rw [h1] at hcur
  rw [List.append_assoc, List.append_assoc]
  exact C98_words F c he name hn contents h hb hs hu hst hact n hd ts ht R (by rw [h2]; exact hcur) h3 _

end

/-! ### Calls of html.Class -/

/-- When a call is in force: alone, always; under `When`, as its key tells; under `Conditional`, as its function
tells. -/
theorem C98_in_force (P : Fns) (c : Ctx) :
    (∀ ns, (ClassCall.given ns).inForce P c = true) ∧
    (∀ key ns, key.head? ≠ some c%'!' → ((ClassCall.when key ns).inForce P c = true ↔ Truthy c key)) ∧
    (∀ key ns, (ClassCall.when (c%'!' :: key) ns).inForce P c = true ↔ ¬ Truthy c key) ∧
    ∀ f ns, (ClassCall.conditional f ns).inForce P c = P.cond f c := by
  refine ⟨fun _ => rfl, fun key ns hk => ?_, fun key ns => ?_, fun _ _ => rfl⟩
  · cases key with
    | nil => exact holds_has (P := P) c []
    | cons x key =>
      rw [ClassCall.inForce, if_neg (by simpa using hk)]
      exact holds_has c _
  · rw [ClassCall.inForce, if_pos rfl]
    exact holds_hasNot c key

/-- Pairs with different second parts. -/
theorem eq_of_snd {α : Type} {ps : List (α × Nat)} (h : (ps.map (·.2)).Nodup) {p q : α × Nat} (hp : p ∈ ps) (hq : q ∈ ps)
    (e : p.2 = q.2) : p = q := by
  induction ps with
  | nil => simp at hp
  | cons x ps ih =>
    simp only [List.map_cons, List.nodup_cons] at h
    rcases List.mem_cons.1 hp with rfl | hp' <;> rcases List.mem_cons.1 hq with rfl | hq'
    · rfl
    · exact (h.1 (e ▸ List.mem_map.2 ⟨q, hq', rfl⟩)).elim
    · exact (h.1 (e ▸ List.mem_map.2 ⟨p, hp', rfl⟩)).elim
    · exact ih h.2 hp' hq'

section
variable {P : Fns} (F : BuiltFns P) (c : Ctx) (he : c.frame.err = none) (name : Bytes) (hn : ValidName name)
  (ks : List ClassCall) {h h' : Heap} {ns : List Node} (hk : ClassCalls ks h ns h') (rest : List Any)
  (hb : ∀ n ∈ nodesIn rest, Built n) (hs : SeparateAll 0 (rest.map (asNode h'.dl)))
  (hd : declaredAll [] (rest.map (asNode h'.dl)) = []) (R : CharRefs)
include F he hn hk hb hs hd

/-- The hypotheses of `C98_words`, met by calls of `html.Class`. -/
theorem classes_met (hcur : c.dl = (NewVoidElement name (ns.map .node ++ rest) h').2.dl) {w : Bytes}
    (hr : Renders P c (NewVoidElement name (ns.map .node ++ rest) h').1 w) (more : Bytes) :
    wordsOf b%"class" (readHtml R (w ++ more)) =
      ((ks.filter ClassCall.isGiven ++ ks.filter fun k => !k.isGiven && k.inForce P c).flatMap ClassCall.names).flatMap
        fun t => words (seen t) := by
  obtain ⟨s1, s2, s3, ps, s4, s5, s6, s7⟩ := classCalls_shape P c hk
  have hm : (ns.map Any.node ++ rest).map (asNode h'.dl) = ns ++ rest.map (asNode h'.dl) := by
    rw [List.map_append, map_asNode_node]
  have hdecl : declaredAll [] ((ns.map Any.node ++ rest).map (asNode h'.dl)) =
      ps.map (fun p => (classAttr p.2, p.1.conds)) := by
    rw [hm, declaredAll_append, s6, hd, List.append_nil]
  have hst : staticAttrs ((ns.map Any.node ++ rest).map (asNode h'.dl)) =
      (ps.filter fun p => p.1.isGiven).map fun p => classAttr p.2 := by
    rw [staticAttrs, hdecl, List.filter_map, List.map_map]
    congr 1
    exact List.filter_congr fun p _ => conds_isGiven p.1
  have hact : inEffect P c ((ns.map Any.node ++ rest).map (asNode h'.dl)) =
      (ps.filter fun p => !p.1.isGiven && p.1.inForce P c).map fun p => classAttr p.2 := by
    rw [inEffect, hdecl, List.filter_map, List.map_map]
    congr 1
    exact List.filter_congr fun p _ => by
      simp only [Function.comp_apply]
      rw [conds_isGiven p.1, conds_inForce]
  have hnd : (ps.map (·.2)).Nodup := by rw [s5]; exact List.nodup_range'
  have hu : Unshared (staticAttrs ((ns.map Any.node ++ rest).map (asNode h'.dl))) := by
    rw [hst]
    unfold Unshared
    rw [List.filterMap_map]
    have : (refOf ∘ fun p : ClassCall × Nat => classAttr p.2) = some ∘ (·.2) := rfl
    rw [this, ← List.filterMap_map, List.filterMap_some]
    exact (List.filter_sublist.map _).nodup hnd
  -- addresses of conditional attributes keep their values
  have hkeep : ∀ p ∈ ps, p.1.isGiven = false → c.dl p.2 = h'.dl p.2 := by
    intro p hp hg
    obtain ⟨e, dl, h1, h2⟩ := newVoidElement_eq name (ns.map .node ++ rest) h'
    have := (addAttributes_values _ hu name
      (attributesAndContents ((ns.map Any.node ++ rest).map (asNode h'.dl))).2.1 h'.dl).2 p.2 (by
        rw [hst, List.filterMap_map]
        intro hmem
        obtain ⟨q, hq, hqr⟩ := List.mem_filterMap.1 hmem
        have e : q.2 = p.2 := by simpa [classAttr, refOf] using hqr
        obtain ⟨hq, hqg⟩ := List.mem_filter.1 hq
        have : q = p := eq_of_snd hnd hq hp e
        subst this
        simp [hg] at hqg)
    rw [h2] at this
    rw [hcur, h1]
    exact this
  refine C98_words F c he name hn _ h' ?_ ?_ hu ?_ ?_ b%"class" ?_ _ ?_ R (fun r _ => by rw [hcur]) hr more
  · intro n hn
    rw [mem_nodesIn] at hn
    rcases List.mem_append.1 hn with hn | hn
    · obtain ⟨m, hm, e⟩ := List.mem_map.1 hn
      cases e
      exact s2 _ hm
    · exact hb n (mem_nodesIn.2 hn)
  · rw [hm]
    exact separateAll_append' 0 (separateAll_of_depth _ 0 (by omega)) hs
  · rw [hst]
    intro a ha
    obtain ⟨p, hp, rfl⟩ := List.mem_map.1 ha
    exact ordinary_class (s7 p (List.mem_filter.1 hp).1)
  · rw [hact]
    intro a ha
    obtain ⟨p, hp, rfl⟩ := List.mem_map.1 ha
    obtain ⟨hp, hg⟩ := List.mem_filter.1 hp
    refine ordinary_class (ts := p.1.names) ?_
    rw [hkeep p hp (by simp at hg; exact hg.1)]
    exact s7 p hp
  · rw [hst, hact, ← List.map_append]
    intro a ha _
    obtain ⟨p, -, rfl⟩ := List.mem_map.1 ha
    exact ⟨p.2, rfl⟩
  · rw [hst, hact, List.map_append, class_parts _ fun p hp => s7 p (List.mem_filter.1 hp).1,
      class_parts _ fun p hp => by
        obtain ⟨hp, hg⟩ := List.mem_filter.1 hp
        rw [hkeep p hp (by simp at hg; exact hg.1)]
        exact s7 p hp, ← List.map_append, ← s4, List.filter_map, List.filter_map, ← List.map_append, List.flatMap_map,
      List.flatMap_append]
    rfl

/-- The classes that a browser finds of an element that was given calls of `html.Class` and contents without
attributes: those of the calls that stand alone, in order, then those of the calls whose conditions hold, in order. -/
theorem C98_classes (hcur : c.dl = (NewElement name (ns.map .node ++ rest) h').2.dl) {w : Bytes}
    (hr : Renders P c (NewElement name (ns.map .node ++ rest) h').1 w) :
    wordsOf b%"class" (readHtml R w) =
      ((ks.filter ClassCall.isGiven ++ ks.filter fun k => !k.isGiven && k.inForce P c).flatMap ClassCall.names).flatMap
        fun t => words (seen t) := by
  obtain ⟨e, h'', h1, h2⟩ := newElement_head name (ns.map .node ++ rest) h'
  obtain ⟨tag, ws, h3, -, rfl⟩ := (C06_element F c he name _ h' (by
    intro n hn
    rw [mem_nodesIn] at hn
    rcases List.mem_append.1 hn with hn | hn
    · obtain ⟨m, hm, e⟩ := List.mem_map.1 hn
      cases e
      exact (classCalls_shape P c hk).2.1 _ hm
    · exact hb n (mem_nodesIn.2 hn)) w).1 hr
  rw [List.append_assoc]
  exact classes_met F c he name hn ks hk rest hb hs hd R (by rw [hcur, h1, h2]) h3 _

/-- The same for a void element. -/
theorem C98_classes_void (hcur : c.dl = (NewVoidElement name (ns.map .node ++ rest) h').2.dl) {w : Bytes}
    (hr : Renders P c (NewVoidElement name (ns.map .node ++ rest) h').1 w) :
    wordsOf b%"class" (readHtml R w) =
      ((ks.filter ClassCall.isGiven ++ ks.filter fun k => !k.isGiven && k.inForce P c).flatMap ClassCall.names).flatMap
        fun t => words (seen t) := by
  rw [← List.append_nil w]
  exact classes_met F c he name hn ks hk rest hb hs hd R hcur hr []

/-- When every string is one class name (not empty, without blanks and NUL bytes): the names themselves. -/
theorem C98_names (hcur : c.dl = (NewElement name (ns.map .node ++ rest) h').2.dl)
    (hw : ∀ k ∈ ks, ∀ s ∈ k.names, s ≠ [] ∧ ∀ x ∈ s, isBlank x = false ∧ x ≠ 0) {w : Bytes}
    (hr : Renders P c (NewElement name (ns.map .node ++ rest) h').1 w) :
    wordsOf b%"class" (readHtml R w) =
      (ks.filter ClassCall.isGiven ++ ks.filter fun k => !k.isGiven && k.inForce P c).flatMap ClassCall.names := by
  rw [C98_classes F c he name hn ks hk rest hb hs hd R hcur hr]
  have key : ∀ l : List Bytes, (∀ s ∈ l, s ≠ [] ∧ ∀ x ∈ s, isBlank x = false ∧ x ≠ 0) →
      (l.flatMap fun t => words (seen t)) = l := by
    intro l hl
    induction l with
    | nil => rfl
    | cons s l ih =>
      obtain ⟨h1, h2⟩ := hl s (by simp)
      have hseen : seen s = s := List.filter_eq_self.2 fun x hx => by simpa using (h2 x hx).2
      rw [List.flatMap_cons, ih fun s hs => hl s (by simp [hs]), hseen, words_one h1 fun x hx => (h2 x hx).1]
      rfl
  refine key _ fun s hs => ?_
  obtain ⟨k, hk', hs⟩ := List.mem_flatMap.1 hs
  refine hw k ?_ s hs
  rcases List.mem_append.1 hk' with hk' | hk' <;> exact (List.mem_filter.1 hk').1

end

/-- Four calls: two alone, one under a key that the data has, one under its negation. -/
def classCalls : List ClassCall :=
  [.given [b%"a", b%"b"], .when b%"name" [b%"c"], .when b%"!name" [b%"d"], .given [b%"e"], .conditional 0 [b%"f"]]

/-- Their nodes. -/
def classNodes : List Node :=
  [.attr (.delim b%"class" b%" " 0), .conditional [] [.delim b%"class" b%" " 1] (.has b%"name"),
   .conditional [] [.delim b%"class" b%" " 2] (.hasNot b%"name"), .attr (.delim b%"class" b%" " 3),
   .conditional [] [.delim b%"class" b%" " 4] (.user 0)]

/-- The memory after them. -/
def classMemory : Heap :=
  (classFn.call [.str b%"f"] (classFn.call [.str b%"e"] (classFn.call [.str b%"d"] (classFn.call [.str b%"c"]
    (classFn.call [.str b%"a", .str b%"b"] .empty).2).2).2).2).2

theorem classCalls_made : ClassCalls classCalls .empty classNodes classMemory :=
  .cons rfl (.cons rfl (.cons rfl (.cons rfl (.cons rfl .nil))))

/-- The context after the construction of the element. -/
def classCtx : Ctx :=
  { Sample.ctx with dl := (NewElement b%"p" (classNodes.map .node ++ [.str b%"hi"]) classMemory).2.dl }

theorem class_renders : Renders Sample.fns classCtx (NewElement b%"p" (classNodes.map .node ++ [.str b%"hi"]) classMemory).1
    b%"<p class=\"a b e c f\">hi</p>" :=
  ⟨Sample.env, Sample.healthy, Sample.computes, { Sample.st with dl := classCtx.dl }, _, rfl, ⟨2, rfl⟩, rfl⟩

example (R : CharRefs) : wordsOf b%"class" (readHtml R b%"<p class=\"a b e c f\">hi</p>") =
    [b%"a", b%"b", b%"e", b%"c", b%"f"] :=
  C98_names Sample.built classCtx rfl b%"p" ⟨_, _, rfl, by decide, by decide⟩ classCalls classCalls_made [.str b%"hi"]
    nofun ⟨trivial, trivial⟩ rfl R rfl (by decide) class_renders

/-- One string with two class names and too many spaces, in a void element; and no class at all. -/
example (R : CharRefs) :
    wordsOf b%"class" (readHtml R b%"<br class=\" x  y \">") = [b%"x", b%"y"] ∧ wordsOf b%"class" (readHtml R b%"<br>") = [] := by
  refine ⟨C98_classes_void Sample.built
    { Sample.ctx with dl := (NewVoidElement b%"br" [.node (.attr (.delim b%"class" b%" " 0))]
      (classFn.call [.str b%" x  y "] .empty).2).2.dl }
    rfl b%"br" ⟨_, _, rfl, by decide, by decide⟩ [.given [b%" x  y "]] (h := .empty) (.cons rfl .nil) [] nofun trivial rfl R rfl
    ⟨Sample.env, Sample.healthy, Sample.computes, { Sample.st with dl := (NewVoidElement b%"br"
      [.node (.attr (.delim b%"class" b%" " 0))] (classFn.call [.str b%" x  y "] .empty).2).2.dl }, _, rfl, ⟨2, rfl⟩, rfl⟩,
    C98_classes_void Sample.built Sample.ctx rfl b%"br" ⟨_, _, rfl, by decide, by decide⟩ [] (h := .empty) .nil [] nofun trivial
      rfl R rfl ⟨Sample.env, Sample.healthy, Sample.computes, Sample.st, _, rfl, ⟨2, rfl⟩, rfl⟩⟩

end Aitch.Props

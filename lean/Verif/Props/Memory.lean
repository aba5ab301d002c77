import Verif.Proofs.Blind
import Verif.Proofs.Items
import Verif.Proofs.Unique
import Verif.Proofs.Leaf
import Verif.Proofs.Quiet
import Verif.Spec.Sample
/-
C34, C35: what rendering and building leave unchanged.
-/
namespace Aitch
open Spec

/-- The memory other than contexts. -/
def HasMemory (s : St) (c : Ctx) : Prop := c.dl = s.dl ∧ c.dlNext = s.dlNext ∧ c.maps = s.maps ∧ c.world = s.world

theorem keeps_memory (env : Env) (s : St) : Keeps env (HasMemory s) NoCall := by
  intro a t hp hs
  cases a with
  | leave => simp only [Action.run]; split <;> exact hs
  | dyn | cond | collect | items | yields | imp | user => exact hp.elim
  | _ => exact hs

theorem keepsItem_yieldsOf (l : List Any) : KeepsItemYield (yieldsOf l) := by
  induction l with
  | nil => exact .done
  | cons a l ih => exact .yield fun _ => ih

theorem keepsItem_impOf (l : List ImpOp) : KeepsItemImp (impOf l) := by
  induction l with
  | nil => exact .ret
  | cons a l ih => exact .call fun _ => ih

theorem keepsItemFns_withFns (env : Env) (P : Fns) : KeepsItemFns (withFns env P) :=
  ⟨fun _ _ => ⟨rfl, rfl⟩, fun _ _ => ⟨rfl, rfl⟩, fun _ _ => ⟨rfl, rfl⟩, fun _ _ => ⟨rfl, rfl⟩,
    fun _ _ => keepsItem_yieldsOf _, fun _ _ => keepsItem_impOf _⟩

/-- Attributes not absorbing others keep their values. -/
theorem addAttributes_keeps (as : List Attr) (name : Bytes) (cas : List CondAttr) (dl : Nat → List Value) (r : Nat)
    (hr : ¬ Absorbs as r) : (addAttributes as ⟨name, [], [], cas⟩ dl).2 r = dl r := by
  induction as using snoc_induction with
  | nil => rfl
  | append_singleton as a ih =>
    have ih := ih (by
      rintro ⟨n, d, d', r', pre, mid, post, rfl⟩
      exact hr ⟨n, d, d', r', pre, mid, post ++ [a], by simp⟩)
    rw [addAttributes_append]
    have hm := addAttributes_merged as name cas dl
    rcases (addAttributes_one hm.1 a (addAttributes as ⟨name, [], [], cas⟩ dl).2).2.2.2 with
      ⟨n, d, x, n', d', r', rfl, hb, rfl, hh, he⟩ | ⟨-, he⟩
    · rw [he]
      by_cases hx : r = x
      · subst hx
        have hmem : Attr.delim n d r ∈ as := named_mem (delimSuffix_mem (List.mem_of_head? hh))
        obtain ⟨pre, mid, rfl⟩ := List.append_of_mem hmem
        exact absurd ⟨n, d, d', r', pre, mid, [], by simp⟩ hr
      · rw [upd, if_neg hx]; exact ih
    · rw [he]; exact ih

namespace Props

/-! ### C34 — rendering does not change the template -/

/-- For the examples: a paragraph with an attribute, a text, and a value of the data. -/
def quietSample : Node :=
  (NewElement b%"p" [.str b%"x", .node (NewAttribute (fun _ => []) b%"id" [.str b%"y"]),
    .node (Text (fun _ => []) [.dynKey b%"name"])] .empty).1

theorem quietSample_free (dl : Nat → List Value) : CallbackFree dl quietSample := by
  refine ⟨⟨?_, ?_⟩, ?_⟩
  · intro a ha
    have ha : a ∈ [Attr.plain b%"id" [.mk b%"y" none []]] := ha
    simp at ha
    subst ha
    exact ⟨trivial, trivial⟩
  · intro ca hca
    cases (show ca ∈ [] from hca)
  · exact ⟨⟨trivial, trivial⟩, ⟨trivial, trivial⟩, trivial⟩

theorem quietSample_built : Built quietSample := by
  refine .newElement _ _ _ fun n hn => ?_
  simp only [nodesIn, List.filterMap_cons, List.filterMap_nil, List.mem_cons, List.not_mem_nil, or_false] at hn
  rcases hn with rfl | rfl
  · exact .newAttribute _ _ _
  · exact .text _ _

/-- Rendering a node that calls no user function ends and leaves all memory as it was: for every writer (failing or
not) and every state. -/
theorem C34_unchanged (env : Env) (n : Node) (s : St) (hc : CallbackFree s.dl n) :
    ∃ e s', Runs env n s e s' ∧ SameMemory s s' := by
  have ho : Only (HasMemory s) NoCall (renderProg (depth n) n) :=
    (only_of_callbackFree hc).mono (fun c h => h.1) fun _ h => h
  obtain ⟨e, s', h1, h2⟩ := ho.exec (keeps_memory env s) s ⟨rfl, rfl, rfl, rfl⟩
  obtain ⟨e2, s2, h3, h4⟩ := callbackFree_runs (env := env) noFns hc
  have hr : Runs env n s e s' := ⟨_, h1⟩
  obtain ⟨rfl, rfl⟩ := runs_unique hr h3
  exact ⟨e, s', hr, ⟨⟨h2.1, h2.2.1⟩, h2.2.2.1, h2.2.2.2, runs_keepsItems (keepsItemFns_withFns env noFns) h4⟩⟩

example := C34_unchanged (withWriter Sample.env fun _ _ => (0, some 7)) quietSample Sample.st (quietSample_free _)

/-- With a healthy writer and no error before, the whole context is unchanged, `Error` included; and rendering in any
state with the same memory writes the same up to the order of conditional attributes (see C20). -/
theorem C34_again {env : Env} (H : Healthy env) {n : Node} (b : Built n) {s : St} (hc : CallbackFree s.dl n)
    (he : s.frame.err = none) : ∃ w, Writes env n s w ∧ ∀ s₂ : St, s₂.toCtx = s.toCtx →
      ∃ w₂, Writes env n s₂ w₂ ∧ Reordered w w₂ := by
  obtain ⟨s', w, h1, h2, h3, h4⟩ := callbackFree_refines H wfFns_noFns b.wf hc he
  refine ⟨w, ⟨s', h1, h4, h2⟩, fun s₂ hs => ?_⟩
  obtain ⟨s₂', w₂, k1, k2, k3, k4⟩ := callbackFree_refines H wfFns_noFns b.wf (s := s₂) (by rw [hs]; exact hc) (by rw [hs]; exact he)
  rw [hs] at k3
  exact ⟨w₂, ⟨s₂', k1, k4, k2⟩, out_reordered h3 k3⟩

example := C34_again Sample.healthy quietSample_built (s := Sample.st) (quietSample_free _) rfl

/-- Without conditional attributes it writes exactly the same, any number of times. -/
theorem C34_times {env : Env} (H : Healthy env) {n : Node} (b : Built n) (hn : EveryHead NoCondAttrs n) {s : St}
    (hc : CallbackFree s.dl n) (he : s.frame.err = none) : ∃ w, ∀ k, ∃ s', RunsTimes env n k s s' ∧
      s'.toCtx = s.toCtx ∧ s'.out = s.out ++ (List.replicate k w).flatten := by
  obtain ⟨-, w, -, -, h3, -⟩ := callbackFree_refines H wfFns_noFns b.wf hc he
  refine ⟨w, fun k => ?_⟩
  generalize hs0 : s.toCtx = c0 at h3
  replace he : c0.frame.err = none := by rw [← hs0]; exact he
  have hF : EveryHeadFns NoCondAttrs noFns := ⟨fun _ _ _ h => by simp [noFns] at h, fun _ _ _ _ h => by simp [noFns] at h⟩
  induction k generalizing s with
  | zero => exact ⟨s, .zero, hs0, by simp⟩
  | succ k ih =>
    obtain ⟨s₁, w₁, k1, k2, k3, k4⟩ := callbackFree_refines H wfFns_noFns b.wf hc (by rw [hs0]; exact he)
    rw [hs0] at k2 k3
    have := out_unique hF hn h3 k3
    subst this
    obtain ⟨s', j1, j2, j3⟩ := ih (s := s₁) (by rw [k2, ← hs0]; exact hc) k2
    exact ⟨s', .succ k1 j1, j2, by rw [j3, k4, List.replicate_succ, List.flatten_cons, List.append_assoc]⟩

example := C34_times Sample.healthy quietSample_built ⟨rfl, trivial, trivial, trivial⟩ (s := Sample.st) (quietSample_free _) rfl

/-- The same for templates with user functions, if these only compute. -/
theorem C34_computing {env : Env} {P : Fns} (H : Healthy env) (C : Computes env P) (F : BuiltFns P) {n : Node}
    (b : Built n) {s s' : St} {e : Option Err} (he : s.frame.err = none) (h : Runs env n s e s') :
    e = none ∧ s'.toCtx = s.toCtx := by
  obtain ⟨fuel, h⟩ := h
  have := render_refines ⟨H, C⟩ F.wf b.wf he h
  exact ⟨this.1, this.2.1⟩

example := C34_computing Sample.healthy Sample.computes Sample.built (.imperative (some 0)) (s := Sample.st) rfl ⟨2, rfl⟩

/-! ### C35 — building an element does not change other nodes (false in general) -/

/-- The full claim: constructing an element leaves what other nodes write unchanged. -/
def C35_claim : Prop := ∀ (P : Fns) (c : Ctx) (name : Bytes) (contents : List Any) (h : Heap) (m : Node) (w : Bytes),
  BuiltFns P → c.frame.err = none → (∀ n ∈ nodesIn contents, Built n) → Built m → CallbackFree h.dl m →
    (Renders P (withDl c h.dl) m w ↔ Renders P (withDl c (NewElement name contents h).2.dl) m w)

/-- Two delimited attributes `class`, "a" and "b", at addresses 0 and 1. -/
def twoClasses : Heap :=
  (NewDelimitedAttribute b%"class" b%" " [.str b%"b"] (NewDelimitedAttribute b%"class" b%" " [.str b%"a"] .empty).2).2

/-- The attribute at address 0, rendered alone. -/
def classA : Node := .attr (.delim b%"class" b%" " 0)

theorem C35_false : ¬ C35_claim := by
  intro h
  have h1 := h Sample.fns Sample.ctx b%"p" [.node classA, .node (.attr (.delim b%"class" b%" " 1))] twoClasses classA
    b%" class=\"a\"" Sample.built rfl (by
      intro n hn
      simp [nodesIn] at hn
      rcases hn with rfl | rfl
      · exact .newDelimitedAttribute b%"class" b%" " [] .empty
      · exact .newDelimitedAttribute b%"class" b%" " [] ⟨fun _ => [], 1⟩)
    (.newDelimitedAttribute b%"class" b%" " [] .empty) (by
      show ValuesUse _ _
      exact ⟨trivial, trivial⟩)
  have bA : Built classA := .newDelimitedAttribute b%"class" b%" " [] .empty
  rw [bA.renders_iff Sample.built rfl, bA.renders_iff Sample.built rfl] at h1
  have h2 : Out Sample.fns (withDl Sample.ctx twoClasses.dl) classA b%" class=\"a\"" := .attr
  have h3 := h1.1 h2
  have huniq : ∀ w, Out Sample.fns (withDl Sample.ctx (NewElement b%"p" [.node classA,
      .node (.attr (.delim b%"class" b%" " 1))] twoClasses).2.dl) classA w → w = b%" class=\"a b\"" := by
    intro w ho
    cases ho
    rfl
  exact absurd (huniq _ h3) (by decide)

/-- What holds: a node is unaffected if none of its delimited attributes occurs in the new element's (unconditional)
contents followed by another delimited attribute of the same name.  In particular (`C35_fresh_partial`) all nodes are
unaffected if no delimited attribute name is declared twice.
`ρ` are the addresses of the node's delimited attributes. -/
theorem C35_partial {P : Fns} (F : BuiltFns P) (c : Ctx) (he : c.frame.err = none) (name : Bytes) (contents : List Any)
    (h : Heap) {m : Node} (b : Built m) {ρ : Nat → Prop} (hu : NodeUses (Blind P) ρ m)
    (hh : HeapUses (Blind P) ρ h.dl)
    (hr : ∀ r, ρ r → ¬ Absorbs (staticAttrs (contents.map (asNode h.dl))) r) (w : Bytes) :
    Renders P (withDl c h.dl) m w ↔ Renders P (withDl c (NewElement name contents h).2.dl) m w := by
  have hw : ∀ dl, (withDl c dl).frame.err = none := fun _ => he
  rw [b.renders_iff F (hw _), b.renders_iff F (hw _)]
  obtain ⟨e, dl, h1, h2⟩ := newElement_eq name contents h
  rw [h1]
  have hdl : ∀ r, ρ r → dl r = h.dl r := by
    intro r hr'
    have := addAttributes_keeps _ name (attributesAndContents (contents.map (asNode h.dl))).2.1 h.dl r (hr r hr')
    rw [h2] at this
    exact this
  exact (out_withDl (c := withDl c h.dl) (dl := dl) ⟨hdl, hh⟩ hu).symm

/-- If among the new element's unconditional attributes no two delimited ones have the same name, then building it
changes no memory at all. -/
theorem C35_fresh_partial (name : Bytes) (contents : List Any) (h : Heap)
    (hd : ((staticAttrs (contents.map (asNode h.dl))).filter isDelim |>.map Attr.name).Nodup) :
    (NewElement name contents h).2 = h ∧ (NewVoidElement name contents h).2 = h := by
  have hdl : ∀ cas, (addAttributes (staticAttrs (contents.map (asNode h.dl))) ⟨name, [], [], cas⟩ h.dl).2 = h.dl := by
    intro cas
    funext r
    refine addAttributes_keeps _ name _ h.dl r ?_
    rintro ⟨n, d, d', r', pre, mid, post, hs⟩
    rw [hs] at hd
    have hx : isDelim (.delim n d r) = true := rfl
    have hy : isDelim (.delim n d' r') = true := rfl
    rw [List.append_assoc, List.filter_append, List.map_append, List.nodup_append] at hd
    replace hd := hd.2.1
    rw [List.cons_append, List.filter_cons_of_pos hx, List.map_cons, List.nodup_cons, List.filter_append,
      List.filter_cons_of_pos hy] at hd
    exact hd.1 (by simp [Attr.name])
  obtain ⟨e, dl, h1, h2⟩ := newElement_eq name contents h
  obtain ⟨e', dl', h3, h4⟩ := newVoidElement_eq name contents h
  rw [h1, h3]
  have e1 := hdl (attributesAndContents (contents.map (asNode h.dl))).2.1
  have e2 := e1
  rw [h2] at e1
  rw [h4] at e2
  cases h
  simp only at e1 e2
  rw [e1, e2]
  exact ⟨rfl, rfl⟩

example := C35_fresh_partial b%"p" [.node classA, .node (.attr (.delim b%"style" b%";" 1)), .str b%"x"] twoClasses (by decide)

/-- A delimited attribute has a place of its own: nothing that was in use is overwritten. -/
theorem C35_attribute (name delimiter : Bytes) (values : List Any) (h : Heap) :
    ∃ r h', NewDelimitedAttribute name delimiter values h = (.attr (.delim name delimiter r), h') ∧
      h.next ≤ r ∧ r < h'.next ∧ h'.dl r = newValues h.dl values ∧ ∀ r', r' ≠ r → h'.dl r' = h.dl r' :=
  ⟨_, _, rfl, Nat.le_refl _, Nat.lt_succ_self _, by simp [upd], fun r' hr => by simp [upd, hr]⟩

example := C35_attribute b%"class" b%" " [.str b%"a", .str b%"b"] twoClasses

theorem buildAttrs_keeps (l : List (Bytes × Bytes × List Any)) :
    ∀ (h : Heap) (r : Nat), r < h.next → (buildAttrs l h).dl r = h.dl r := by
  induction l with
  | nil => exact fun h r _ => rfl
  | cons x l ih =>
    obtain ⟨name, delimiter, values⟩ := x
    intro h r hr
    obtain ⟨r', h', he, h1, h2, -, h4⟩ := C35_attribute name delimiter values h
    show (buildAttrs l (NewDelimitedAttribute name delimiter values h).2).dl r = _
    rw [he, ih h' r (by omega), h4 r (by omega)]

/-- Whatever delimited attributes are built after one, of the same name or not, it writes its own values only. -/
theorem C35_attributes {P : Fns} (F : BuiltFns P) (c : Ctx) (he : c.frame.err = none) (name delimiter : Bytes)
    (values : List Any) (h : Heap) (others : List (Bytes × Bytes × List Any)) :
    RendersExactly P (withDl c (buildAttrs others (NewDelimitedAttribute name delimiter values h).2).dl)
      (NewDelimitedAttribute name delimiter values h).1
      (b%" " ++ name ++ b%"=\"" ++ delimJoin delimiter ((newValues h.dl values).map
        (valueBytes P (withDl c (buildAttrs others (NewDelimitedAttribute name delimiter values h).2).dl))) ++ b%"\"") := by
  obtain ⟨r, h', hn, -, h2, h3, -⟩ := C35_attribute name delimiter values h
  rw [hn, ← h3, ← buildAttrs_keeps others h' r h2]
  exact rendersExactly_of_out (c := withDl c (buildAttrs others h').dl) (n := .attr (.delim name delimiter r)) F.wf trivial
    he .attr fun w h => by cases h; rfl

example := C35_attributes Sample.built Sample.ctx rfl b%"class" b%" " [.str b%"a"] .empty [(b%"class", b%" ", [.str b%"b"])]

/-- Two attributes of the same name, both in memory at the same time, have different values. -/
example : (buildAttrs [(b%"class", b%" ", [.str b%"b"])]
      (NewDelimitedAttribute b%"class" b%" " [.str b%"a"] .empty).2).dl 0 = [.mk b%"a" none []] ∧
    (buildAttrs [(b%"class", b%" ", [.str b%"b"])]
      (NewDelimitedAttribute b%"class" b%" " [.str b%"a"] .empty).2).dl 1 = [.mk b%"b" none []] := ⟨rfl, rfl⟩

theorem absorbs_other : ¬ Absorbs [.delim b%"class" b%" " 0, .delim b%"style" b%";" 1] 0 := by
  rintro ⟨n, d, d', r', pre, mid, post, h⟩
  cases pre with
  | nil =>
    simp at h
    obtain ⟨⟨rfl, -⟩, h⟩ := h
    cases mid with
    | nil => simp at h
    | cons x mid => simp at h
  | cons x pre => cases pre <;> simp at h

example (w : Bytes) := C35_partial Sample.built Sample.ctx rfl b%"p" [.node (.attr (.delim b%"class" b%" " 0)),
    .node (.attr (.delim b%"style" b%";" 1))] twoClasses (m := classA) (.newDelimitedAttribute b%"class" b%" " [] .empty)
  (ρ := (· = 0)) rfl (by rintro r rfl; exact ⟨trivial, trivial⟩) (by rintro r rfl; exact absorbs_other) w

end Props
end Aitch

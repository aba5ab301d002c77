import Verif.Spec.Each
import Verif.Spec.Names
import Verif.Proofs.Tag
/-
Lemmas about constructed elements.
-/
namespace Aitch
open Spec

theorem each_imp {α β : Type} {R S : α → β → Prop} {l : List α} {m : List β} (h : Each R l m)
    (hi : ∀ a b, a ∈ l → R a b → S a b) : Each S l m := by
  induction h with
  | nil => exact .nil
  | cons hr _ ih => exact .cons (hi _ _ (by simp) hr) (ih fun a b ha => hi a b (by simp [ha]))

theorem outAll_each {P : Fns} {c : Ctx} {ns : List Node} {w : Bytes} :
    OutAll P c ns w ↔ ∃ ws, Each (Out P c) ns ws ∧ w = ws.flatten := by
  constructor
  · intro h
    induction ns generalizing w with
    | nil => cases h; exact ⟨[], .nil, rfl⟩
    | cons n ns ih =>
      cases h with
      | cons h hs =>
        obtain ⟨ws, h1, rfl⟩ := ih hs
        exact ⟨_ :: ws, .cons h h1, rfl⟩
  · rintro ⟨ws, h, rfl⟩
    induction h with
    | nil => exact .nil
    | cons h _ ih => exact .cons h ih

theorem outAll_append {P : Fns} {c : Ctx} {ns ms : List Node} {w : Bytes} :
    OutAll P c (ns ++ ms) w ↔ ∃ w1 w2, OutAll P c ns w1 ∧ OutAll P c ms w2 ∧ w = w1 ++ w2 := by
  induction ns generalizing w with
  | nil => exact ⟨fun h => ⟨[], w, .nil, h, rfl⟩, fun ⟨w1, w2, h1, h2, e⟩ => by cases h1; subst e; exact h2⟩
  | cons n ns ih =>
    constructor
    · intro h
      cases h with
      | cons h hs =>
        obtain ⟨w1, w2, h1, h2, rfl⟩ := ih.1 hs
        exact ⟨_, w2, .cons h h1, h2, by simp⟩
    · rintro ⟨w1, w2, h1, h2, rfl⟩
      cases h1 with
      | cons h hs => rw [List.append_assoc]; exact .cons h (ih.2 ⟨_, w2, hs, h2, rfl⟩)

theorem outAll_one {P : Fns} {c : Ctx} {n : Node} {w : Bytes} : OutAll P c [n] w ↔ Out P c n w := by
  constructor
  · intro h
    cases h with
    | cons h hs => cases hs; simpa using h
  · intro h; simpa using OutAll.cons h .nil

theorem built_asNode {contents : List Any} (hb : ∀ n ∈ nodesIn contents, Built n) (dl : Nat → List Value) :
    ∀ n ∈ contents.map (asNode dl), Built n := by
  intro n hn
  obtain ⟨a, ha, rfl⟩ := List.mem_map.1 hn
  cases a <;> first | exact .text dl [_] | exact hb _ (mem_nodesIn.2 ha)

theorem nonAttrs_mem {n : Node} {ns : List Node} (h : n ∈ nonAttrs ns) : n ∈ ns := (List.mem_filter.1 h).1

/-! ### Grouping -/

/-- Nodes that may carry attributes to their element. -/
def carries : Node → Bool
  | .attr _ | .collection _ | .conditional _ _ _ => true
  | _ => false

theorem splitItem_leaf (s : CondSlice) {n : Node} (h : carries n = false) (hp : CondHeap) :
    splitItem s n hp = ({ contents := [n] }, hp) := by
  cases n <;> first | rfl | simp [carries] at h

/-- What an element keeps of a `Split` besides its contents. -/
def tags (r : Split × CondHeap) : List Attr × List (Attr × CondSlice) × CondHeap := (r.1.attrs, r.1.condAttrs, r.2)

theorem tags_cons (s : CondSlice) (n : Node) (ns : List Node) (hp : CondHeap) :
    tags (splitItems s (n :: ns) hp) =
      ((splitItem s n hp).1.attrs ++ (splitItems s ns (splitItem s n hp).2).1.attrs,
       (splitItem s n hp).1.condAttrs ++ (splitItems s ns (splitItem s n hp).2).1.condAttrs,
       (splitItems s ns (splitItem s n hp).2).2) := rfl

theorem tags_filter_carries (s : CondSlice) (ns : List Node) (hp : CondHeap) :
    tags (splitItems s (ns.filter carries) hp) = tags (splitItems s ns hp) := by
  induction ns generalizing hp with
  | nil => rfl
  | cons n ns ih =>
    rw [List.filter_cons]
    split
    · have := ih (splitItem s n hp).2
      rw [tags_cons, tags_cons]
      simp only [tags, Prod.mk.injEq] at this
      rw [this.1, this.2.1, this.2.2]
    · rename_i h
      rw [ih, tags_cons, splitItem_leaf s (by simpa using h)]
      simp [tags]

theorem tags_append (s : CondSlice) (ns ms : List Node) (hp : CondHeap) :
    tags (splitItems s (ns ++ ms) hp) =
      ((splitItems s ns hp).1.attrs ++ (splitItems s ms (splitItems s ns hp).2).1.attrs,
       (splitItems s ns hp).1.condAttrs ++ (splitItems s ms (splitItems s ns hp).2).1.condAttrs,
       (splitItems s ms (splitItems s ns hp).2).2) := by
  induction ns generalizing hp with
  | nil => simp [splitItems, tags]
  | cons n ns ih =>
    have := ih (splitItem s n hp).2
    simp only [tags, Prod.mk.injEq] at this
    rw [List.cons_append, tags_cons, this.1, this.2.1, this.2.2]
    simp [splitItems, Split.append]

theorem tags_one (s : CondSlice) (n : Node) (hp : CondHeap) : tags (splitItems s [n] hp) = tags (splitItem s n hp) := by
  rw [tags_cons]; simp [tags, splitItems]

mutual
theorem tags_openNode (s : CondSlice) : (n : Node) → (hp : CondHeap) →
    tags (splitItems s (openNode n) hp) = tags (splitItem s n hp)
  | .collection ns, hp => by
    rw [openNode, tags_openNodes s ns hp]
    simp [splitItem, tags]
  | .attr a, hp => tags_one s (.attr a) hp
  | .conditional ns as fn, hp => tags_one s (.conditional ns as fn) hp
  | .element h cs, hp => tags_one s (.element h cs) hp
  | .voidElement h, hp => tags_one s (.voidElement h) hp
  | .text v, hp => tags_one s (.text v) hp
  | .comment v, hp => tags_one s (.comment v) hp
  | .fragment v, hp => tags_one s (.fragment v) hp
  | .pi n v, hp => tags_one s (.pi n v) hp
  | .collector f, hp => tags_one s (.collector f) hp
  | .imperative f, hp => tags_one s (.imperative f) hp
  | .iterator ns f, hp => tags_one s (.iterator ns f) hp
  | .yieldIterator ns f, hp => tags_one s (.yieldIterator ns f) hp
  | .document p cs, hp => tags_one s (.document p cs) hp
theorem tags_openNodes (s : CondSlice) : (ns : List Node) → (hp : CondHeap) →
    tags (splitItems s (openNodes ns) hp) = tags (splitItems s ns hp)
  | [], hp => rfl
  | n :: ns, hp => by
    rw [openNodes, tags_append, tags_cons]
    have h1 := tags_openNode s n hp
    simp only [tags, Prod.mk.injEq] at h1
    rw [h1.1, h1.2.1, h1.2.2]
    have h2 := tags_openNodes s ns (splitItem s n hp).2
    simp only [tags, Prod.mk.injEq] at h2
    rw [h2.1, h2.2.1, h2.2.2]
end

/-- Top-level attributes do not touch conditions. -/
theorem tags_nonAttrs (ns : List Node) (hp : CondHeap) :
    (tags (splitItems ⟨0, 0, 0⟩ (nonAttrs ns) hp)).2 = (tags (splitItems ⟨0, 0, 0⟩ ns hp)).2 := by
  induction ns generalizing hp with
  | nil => rfl
  | cons n ns ih =>
    unfold nonAttrs at ih ⊢
    rw [List.filter_cons]
    split
    · have := ih (splitItem ⟨0, 0, 0⟩ n hp).2
      rw [tags_cons, tags_cons]
      simp only [tags, Prod.mk.injEq] at this
      simp only
      rw [this.1, this.2]
    · rename_i h
      cases n <;> first | (simp [Node.isAttr, Node.type] at h; done) | skip
      rw [ih, tags_cons]
      simp [splitItem, tags]

/-- The head of an element depends on the `tags` of its contents only. -/
theorem attributesAndContents_tags {ns ms : List Node}
    (h : tags (splitItems ⟨0, 0, 0⟩ ns ⟨fun _ => [], 1⟩) = tags (splitItems ⟨0, 0, 0⟩ ms ⟨fun _ => [], 1⟩)) :
    (attributesAndContents ns).1 = (attributesAndContents ms).1 ∧
    (attributesAndContents ns).2.1 = (attributesAndContents ms).2.1 := by
  simp only [tags, Prod.mk.injEq] at h
  simp only [attributesAndContents]
  rw [h.1, h.2.1, h.2.2]
  exact ⟨rfl, rfl⟩

theorem newVoidElement_congr {contents₁ contents₂ : List Any} {h : Heap} (name : Bytes)
    (h1 : (attributesAndContents (contents₁.map (asNode h.dl))).1 =
      (attributesAndContents (contents₂.map (asNode h.dl))).1)
    (h2 : (attributesAndContents (contents₁.map (asNode h.dl))).2.1 =
      (attributesAndContents (contents₂.map (asNode h.dl))).2.1) :
    NewVoidElement name contents₁ h = NewVoidElement name contents₂ h := by
  simp only [NewVoidElement, contentsToNodes_eq, h1, h2]

/-- The element and the void element of the same contents have the same head and leave the same memory. -/
theorem newElement_head (name : Bytes) (contents : List Any) (h : Heap) :
    ∃ e h', NewElement name contents h = (.element e (nonAttrs (contents.map (asNode h.dl))), h') ∧
      NewVoidElement name contents h = (.voidElement e, h') := by
  obtain ⟨e, dl, h1, h2⟩ := newElement_eq name contents h
  obtain ⟨e', dl', h3, h4⟩ := newVoidElement_eq name contents h
  rw [h2] at h4
  simp only [Prod.mk.injEq] at h4
  obtain ⟨rfl, rfl⟩ := h4
  exact ⟨_, _, h1, h3⟩

theorem newElement_name {name : Bytes} {contents : List Any} {h : Heap} {e : ElemHead} {h' : Heap}
    (he : NewVoidElement name contents h = (.voidElement e, h')) : e.name = name := by
  obtain ⟨e', dl', h3, h4⟩ := newVoidElement_eq name contents h
  rw [h3] at he
  simp only [Prod.mk.injEq, Node.voidElement.injEq] at he
  obtain ⟨rfl, -⟩ := he
  have := (addAttributes_merged (staticAttrs (contents.map (asNode h.dl))) name
    (attributesAndContents (contents.map (asNode h.dl))).2.1 h.dl).2.1
  rw [h4] at this
  exact this

/-! ### Names -/

theorem isNameStart_iff (c : UInt8) : isNameStart c = true ↔ c ∈ letters := by
  revert c
  have : ∀ n : Fin 256, isNameStart (UInt8.ofFin n) = true ↔ UInt8.ofFin n ∈ letters := by decide +kernel
  intro c
  exact this c.toFin

theorem isNameChar_iff (c : UInt8) : isNameChar c = true ↔ c ∈ nameChars := by
  revert c
  have : ∀ n : Fin 256, isNameChar (UInt8.ofFin n) = true ↔ UInt8.ofFin n ∈ nameChars := by decide +kernel
  intro c
  exact this c.toFin

theorem htmlTagMatch_iff (name : Bytes) : htmlTagMatch name = true ↔ ValidName name := by
  cases name with
  | nil => exact ⟨fun h => by simp [htmlTagMatch] at h, fun ⟨c, cs, h, _⟩ => by simp at h⟩
  | cons c cs =>
    simp only [htmlTagMatch, Bool.and_eq_true, isNameStart_iff, List.all_eq_true, isNameChar_iff]
    constructor
    · rintro ⟨h1, h2⟩; exact ⟨c, cs, rfl, h1, h2⟩
    · rintro ⟨c', cs', h, h1, h2⟩
      simp at h; obtain ⟨rfl, rfl⟩ := h
      exact ⟨h1, h2⟩

/-- What a list of built nodes can write. -/
theorem rendersAll_iff {P : Fns} (F : BuiltFns P) {c : Ctx} (he : c.frame.err = none) {ns : List Node}
    (hb : ∀ n ∈ ns, Built n) {w : Bytes} : RendersAll P c ns w ↔ OutAll P c ns w := by
  rw [outAll_each]
  constructor
  · rintro ⟨ws, h1, h2⟩
    exact ⟨ws, each_imp h1 fun a b ha h => ((hb a ha).renders_iff F he).1 h, h2⟩
  · rintro ⟨ws, h1, h2⟩
    exact ⟨ws, each_imp h1 fun a b ha h => ((hb a ha).renders_iff F he).2 h, h2⟩

end Aitch

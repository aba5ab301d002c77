import Verif.Spec.Built
import Verif.Proofs.Split
import Verif.Proofs.Merge
import Verif.Proofs.Complete
/-
Nodes built through the API are well-formed.
-/
namespace Aitch
open Spec

theorem mem_nodesIn {contents : List Any} {n : Node} : n ∈ nodesIn contents ↔ .node n ∈ contents := by
  unfold nodesIn
  rw [List.mem_filterMap]
  constructor
  · rintro ⟨a, ha, h⟩
    cases a <;> simp at h
    subst h; exact ha
  · intro h; exact ⟨_, h, rfl⟩

theorem contentsToNodes_eq (dl : Nat → List Value) (contents : List Any) :
    contentsToNodes dl contents = contents.map (asNode dl) := by
  unfold contentsToNodes
  apply List.map_congr_left
  intro a _
  cases a <;> rfl

theorem wf_asNode {dl : Nat → List Value} {contents : List Any} (h : ∀ n ∈ nodesIn contents, WF n) :
    ∀ n ∈ contents.map (asNode dl), WF n := by
  intro n hn
  obtain ⟨a, ha, rfl⟩ := List.mem_map.1 hn
  cases a with
  | node m => exact h m (mem_nodesIn.2 ha)
  | _ => trivial

/-- The element that `NewElement` builds, in terms of the specification of grouping and merging. -/
theorem newElement_eq (name : Bytes) (contents : List Any) (h : Heap) :
    ∃ e dl, NewElement name contents h = (.element e (nonAttrs (contents.map (asNode h.dl))), ⟨dl, h.next⟩) ∧
      addAttributes (staticAttrs (contents.map (asNode h.dl)))
        ⟨name, [], [], (attributesAndContents (contents.map (asNode h.dl))).2.1⟩ h.dl = (e, dl) := by
  obtain ⟨h1, -, h3⟩ := attributesAndContents_shape (contents.map (asNode h.dl))
  refine ⟨_, _, ?_, rfl⟩
  unfold NewElement
  simp only [contentsToNodes_eq]
  rw [← h1, ← h3]

theorem newVoidElement_eq (name : Bytes) (contents : List Any) (h : Heap) :
    ∃ e dl, NewVoidElement name contents h = (.voidElement e, ⟨dl, h.next⟩) ∧
      addAttributes (staticAttrs (contents.map (asNode h.dl)))
        ⟨name, [], [], (attributesAndContents (contents.map (asNode h.dl))).2.1⟩ h.dl = (e, dl) := by
  obtain ⟨h1, -, -⟩ := attributesAndContents_shape (contents.map (asNode h.dl))
  refine ⟨_, _, ?_, rfl⟩
  unfold NewVoidElement
  simp only [contentsToNodes_eq]
  rw [← h1]

theorem wf_NewElement {name : Bytes} {contents : List Any} {h : Heap} (hc : ∀ n ∈ nodesIn contents, WF n) :
    WF (NewElement name contents h).1 := by
  obtain ⟨e, dl, he, ha⟩ := newElement_eq name contents h
  rw [he]
  have hm := (addAttributes_merged (staticAttrs (contents.map (asNode h.dl))) name
    (attributesAndContents (contents.map (asNode h.dl))).2.1 h.dl).1
  rw [ha] at hm
  exact ⟨hm.wf, wfAll_filter ((wfAll_iff _).2 (wf_asNode hc)) _⟩

theorem wf_NewVoidElement {name : Bytes} {contents : List Any} {h : Heap} :
    WF (NewVoidElement name contents h).1 := by
  obtain ⟨e, dl, he, ha⟩ := newVoidElement_eq name contents h
  rw [he]
  have hm := (addAttributes_merged (staticAttrs (contents.map (asNode h.dl))) name
    (attributesAndContents (contents.map (asNode h.dl))).2.1 h.dl).1
  rw [ha] at hm
  exact hm.wf

theorem condSplit_eq (nodes : List (Option Node)) (ns : List Node) (as : List Attr)
    (h : condSplit nodes = .val (ns, as)) :
    ∃ l, nodes = l.map some ∧ ns = nonAttrs l ∧
      as = attrsIn l := by
  induction nodes generalizing ns as with
  | nil => simp [condSplit] at h; obtain ⟨rfl, rfl⟩ := h; exact ⟨[], rfl, rfl, rfl⟩
  | cons o rest ih =>
    cases o with
    | none => simp [condSplit] at h
    | some n =>
      unfold condSplit at h
      cases hr : condSplit rest with
      | panic => rw [hr] at h; simp at h
      | val p =>
        obtain ⟨ns', as'⟩ := p
        obtain ⟨l, rfl, rfl, rfl⟩ := ih _ _ hr
        rw [hr] at h
        refine ⟨n :: l, rfl, ?_, ?_⟩ <;> cases n <;> simp at h <;> simp [← h.1, ← h.2, nonAttrs, attrsIn, Node.isAttr, Node.type]

theorem condSplit_some (l : List Node) : condSplit (l.map some) =
    .val (nonAttrs l, attrsIn l) := by
  induction l with
  | nil => rfl
  | cons n l ih =>
    simp only [List.map_cons, condSplit, ih]
    cases n <;> simp [nonAttrs, attrsIn, Node.isAttr, Node.type]

theorem iterSplit_eq (nodes : List (Option Node)) (ns : List Node) (h : iterSplit nodes = .val ns) :
    ∃ l, nodes = l.map some ∧ ns = nonAttrs l := by
  induction nodes generalizing ns with
  | nil => simp [iterSplit] at h; subst h; exact ⟨[], rfl, rfl⟩
  | cons o rest ih =>
    cases o with
    | none => simp [iterSplit] at h
    | some n =>
      unfold iterSplit at h
      cases hr : iterSplit rest with
      | panic => rw [hr] at h; simp at h
      | val p =>
        obtain ⟨l, rfl, rfl⟩ := ih _ hr
        rw [hr] at h
        refine ⟨n :: l, rfl, ?_⟩
        by_cases hn : n.isAttr = true <;> simp [hn] at h <;> simp [nonAttrs, hn, ← h]

theorem iterSplit_some (l : List Node) : iterSplit (l.map some) = .val (nonAttrs l) := by
  induction l with
  | nil => rfl
  | cons n l ih =>
    simp only [List.map_cons, iterSplit, ih]
    by_cases hn : n.isAttr = true <;> simp [nonAttrs, hn]

theorem wf_mkConditional {fn : Cond} {nodes : List (Option Node)} {n : Node}
    (hw : ∀ n, some n ∈ nodes → WF n) (h : mkConditional fn nodes = .val n) : WF n := by
  unfold mkConditional at h
  cases hs : condSplit nodes with
  | panic => rw [hs] at h; simp at h
  | val p =>
    obtain ⟨ns, as⟩ := p
    rw [hs] at h; simp at h; subst h
    obtain ⟨l, rfl, rfl, -⟩ := condSplit_eq _ _ _ hs
    exact wfAll_filter ((wfAll_iff _).2 fun m hm => hw m (List.mem_map_of_mem hm)) _

theorem wf_iterSplit {nodes : List (Option Node)} {ns : List Node} (hw : ∀ n, some n ∈ nodes → WF n)
    (h : iterSplit nodes = .val ns) : WFAll ns := by
  obtain ⟨l, rfl, rfl⟩ := iterSplit_eq _ _ h
  exact wfAll_filter ((wfAll_iff _).2 fun m hm => hw m (List.mem_map_of_mem hm)) _

theorem wf_Collection {nodes : List (Option Node)} (hw : ∀ n, some n ∈ nodes → WF n) : WF (Collection nodes) :=
  (wfAll_iff _).2 fun n hn => hw n (by simpa using hn)

theorem document_eq (lang : Any) (head body : List Any) (h : Heap) :
    (Document lang head body h).1 = .document (some (DocType (Body body (headArg head h).2).2.dl))
      [(NewElement b%"html" [langArg h.dl lang, (headArg head h).1, .node (Body body (headArg head h).2).1]
        (Body body (headArg head h).2).2).1] := rfl

theorem Spec.Built.wf {n : Node} (h : Built n) : WF n := by
  induction h with
  | newElement name contents h _ ih => exact wf_NewElement ih
  | newVoidElement name contents h _ ih => exact wf_NewVoidElement
  | newAttribute => trivial
  | newBooleanAttribute => trivial
  | newDelimitedAttribute => trivial
  | text => trivial
  | comment => trivial
  | fragment => trivial
  | pi => trivial
  | collection nodes _ ih => exact wf_Collection ih
  | contentCollect f => cases f <;> trivial
  | conditional fn nodes n _ hn ih =>
    cases fn with
    | none => simp [Conditional] at hn; subst hn; exact wf_Collection ih
    | some f => exact wf_mkConditional ih hn
  | when key nodes n _ hn ih =>
    unfold When at hn
    cases key with
    | nil => exact wf_mkConditional ih hn
    | cons c k =>
      simp only at hn
      split at hn <;> exact wf_mkConditional ih hn
  | iterate fn nodes n _ hn ih =>
    cases fn with
    | none => simp [Iterate] at hn
    | some f =>
      unfold Iterate at hn
      cases hs : iterSplit nodes with
      | panic => simp [hs] at hn
      | val ns => simp [hs] at hn; subst hn; exact wf_iterSplit ih hs
  | iterateKey key nodes n _ hn ih =>
    unfold IterateKey at hn
    cases hs : iterSplit nodes with
    | panic => simp [hs] at hn
    | val ns => simp [hs] at hn; subst hn; exact wf_iterSplit ih hs
  | iterateYield fn nodes n _ hn ih =>
    cases fn with
    | none => simp [IterateYield] at hn
    | some f =>
      unfold IterateYield at hn
      cases hs : iterSplit nodes with
      | panic => simp [hs] at hn
      | val ns => simp [hs] at hn; subst hn; exact wf_iterSplit ih hs
  | imperative fn => trivial
  | document lang head body h _ _ ih1 ih2 =>
    rw [document_eq]
    refine ⟨trivial, wf_NewElement ?_, trivial⟩
    intro n hn
    rw [mem_nodesIn] at hn
    simp only [List.mem_cons, List.not_mem_nil, or_false] at hn
    rcases hn with hn | hn | hn
    · cases lang <;> simp [langArg] at hn <;> (subst hn; trivial)
    · cases head with
      | nil => simp [headArg] at hn
      | cons x xs => simp [headArg] at hn; subst hn; exact wf_NewElement ih1
    · simp at hn; subst hn; exact wf_NewElement ih2

theorem Spec.BuiltFns.wf {P : Fns} (h : BuiltFns P) : WFFns P :=
  ⟨fun f c n hn => (h.collect f c n hn).wf, fun f c ns n h1 h2 => (h.imp f c ns n h1 h2).wf⟩

/-- A render of a built node can write exactly what the specification allows. -/
theorem Spec.Built.renders_iff {P : Fns} (F : BuiltFns P) {n : Node} (b : Built n) {c : Ctx} (he : c.frame.err = none)
    {w : Bytes} : Renders P c n w ↔ Out P c n w := renders_iff_out F.wf b.wf he

end Aitch

import Verif.Spec.Retain
/-
Nodes that keep the caller's slices: reading commutes with building.
-/
namespace Aitch.Retain

variable (M : Mem)

theorem valuesNow_eq (vs : List KValue) : valuesNow M vs = vs.map (·.now M) := by
  induction vs with
  | nil => rfl
  | cons v vs ih => simp [valuesNow, ih]

theorem nodesNow_eq (ns : List KNode) : nodesNow M ns = ns.map (·.now M) := by
  induction ns with
  | nil => rfl
  | cons v vs ih => simp [nodesNow, ih]

theorem valuesNow_append (a b : List KValue) : valuesNow M (a ++ b) = valuesNow M a ++ valuesNow M b := by
  simp [valuesNow_eq]

theorem valueToBytes_now : (a : KAny) → (valueToBytes a).now M = Aitch.valueToBytes (a.now M)
  | .nil | .bytes _ | .value _ | .dynFunc _ _ | .dynKey _ | .node _ | .fixed _ _ => rfl
  | .thunk r => by simp [valueToBytes, KAny.now, Aitch.valueToBytes, valueToBytes_now r]

variable (dl : Nat → List KValue)

mutual
theorem nodeValues_now : (n : KNode) →
    valuesNow M (nodeValues dl n) = Aitch.nodeValues (fun r => valuesNow M (dl r)) (n.now M)
  | .attr (.plain _ _) | .attr (.delim _ _ _) | .attr (.bool _) => rfl
  | .text _ | .comment _ | .fragment _ | .pi _ _ => rfl
  | .collection ns => by
    simp only [nodeValues, KNode.now, Aitch.nodeValues]
    exact nodesValues_now ns
  | .element _ _ | .voidElement _ | .conditional _ _ _ | .collector _ | .imperative _ | .iterator _ _
  | .yieldIterator _ _ => rfl
theorem nodesValues_now : (ns : List KNode) →
    valuesNow M (nodesValues dl ns) = Aitch.nodesValues (fun r => valuesNow M (dl r)) (nodesNow M ns)
  | [] => rfl
  | n :: ns => by
    simp only [nodesValues, nodesNow, Aitch.nodesValues, valuesNow_append, nodeValues_now n, nodesValues_now ns]
end

theorem newValue_now (a : KAny) :
    valuesNow M (newValue dl a) = Aitch.newValue (fun r => valuesNow M (dl r)) (a.now M) := by
  cases a with
  | nil => rfl
  | bytes b => simp [newValue, valuesNow, KValue.now, KAny.now, Aitch.newValue, Aitch.valueToBytes, valueToBytes]
  | thunk r =>
    have := valueToBytes_now M (.thunk r)
    simp only [newValue, valuesNow, KValue.now, this]
    rfl
  | value v => simp [newValue, valuesNow, KAny.now, Aitch.newValue]
  | dynFunc nm f => rfl
  | dynKey k =>
    by_cases h : k = b%"."
    · simp [newValue, h, KAny.now, Aitch.newValue, valuesNow, KValue.now, Kept.now]
    · simp [newValue, h, KAny.now, Aitch.newValue, valuesNow, KValue.now, Kept.now]
  | node n => exact nodeValues_now M dl n
  | fixed a h =>
    simp only [newValue, valuesNow, KValue.now, KAny.now, valueToBytes, Kept.now]
    cases a <;> first | exact h.elim | rfl

theorem newValues_now : (as : List KAny) →
    valuesNow M (newValues dl as) = Aitch.newValues (fun r => valuesNow M (dl r)) (as.map (·.now M))
  | [] => rfl
  | a :: as => by
    have ih := newValues_now as
    have h1 := newValue_now M dl a
    cases a with
    | fixed a h =>
      have hn : Aitch.newValues (fun r => valuesNow M (dl r)) (a :: as.map (·.now M)) =
          Aitch.newValue (fun r => valuesNow M (dl r)) a ++
          Aitch.newValues (fun r => valuesNow M (dl r)) (as.map (·.now M)) := by
        cases a <;> first | exact h.elim | rfl
      simp only [newValues, valuesNow_append, h1, ih, List.map_cons]
      exact hn.symm
    | nil => simpa [newValues, KAny.now, Aitch.newValues] using ih
    | _ => simp only [newValues, valuesNow_append, h1, ih, List.map_cons, KAny.now, Aitch.newValues]

theorem NewValue_now (a : KAny) :
    (NewValue dl a).now M = Aitch.NewValue (fun r => valuesNow M (dl r)) (a.now M) := by
  unfold NewValue Aitch.NewValue
  have h := newValue_now M dl a
  rcases hv : newValue dl a with _ | ⟨x, _ | ⟨y, ys⟩⟩
  · rw [hv] at h; rw [← h]; rfl
  · rw [hv] at h; rw [← h]; rfl
  · rw [hv] at h; rw [← h]; rfl

/-! ### Nodes -/

theorem upd_now (r : Nat) (vs : List KValue) :
    (fun x => valuesNow M (if x = r then vs else dl x)) = upd (fun x => valuesNow M (dl x)) r (valuesNow M vs) := by
  funext x
  unfold upd
  split <;> rfl

theorem condSplit_now : (ns : List KNode) → Aitch.condSplit (ns.map fun n => some (n.now M)) =
    .val ((condSplit ns).1.map (·.now M), (condSplit ns).2.map (·.now M))
  | [] => rfl
  | n :: ns => by
    have ih := condSplit_now ns
    simp only [List.map_cons, Aitch.condSplit, ih]
    cases n <;> simp [condSplit, KNode.now]

theorem iterSplit_now : (ns : List KNode) → Aitch.iterSplit (ns.map fun n => some (n.now M)) =
    .val ((iterSplit ns).map (·.now M))
  | [] => rfl
  | n :: ns => by
    have ih := iterSplit_now ns
    simp only [List.map_cons, Aitch.iterSplit, ih]
    cases n <;> simp [iterSplit, KNode.now, Node.isAttr, Node.type]

/-- Reading the results of `attributesAndContents`. -/
def Split.now (s : Split) : Aitch.Split :=
  ⟨s.attrs.map (·.now M), s.condAttrs.map (fun x => (x.1.now M, x.2)), s.contents.map (·.now M)⟩

mutual
theorem splitItem_now (c : CondSlice) : (n : KNode) → (hp : CondHeap) →
    Aitch.splitItem c (n.now M) hp = ((splitItem c n hp).1.now M, (splitItem c n hp).2)
  | .attr a, hp => by
    simp only [KNode.now, Aitch.splitItem, splitItem]
    split <;> simp [Split.now]
  | .collection ns, hp => by
    simp only [KNode.now, Aitch.splitItem, splitItem, splitItems_now c ns hp]
    simp [Split.now, KNode.now]
  | .conditional ns as fn, hp => by
    simp only [KNode.now, Aitch.splitItem, splitItem, splitItems_now _ ns]
    simp [Split.now, KNode.now]
  | .element _ _, _ | .voidElement _, _ | .text _, _ | .comment _, _ | .fragment _, _ | .pi _ _, _ | .collector _, _
  | .imperative _, _ | .iterator _ _, _ | .yieldIterator _ _, _ => by
    simp [KNode.now, Aitch.splitItem, splitItem, Split.now]
theorem splitItems_now (c : CondSlice) : (ns : List KNode) → (hp : CondHeap) →
    Aitch.splitItems c (nodesNow M ns) hp = ((splitItems c ns hp).1.now M, (splitItems c ns hp).2)
  | [], hp => rfl
  | n :: ns, hp => by
    simp only [nodesNow, Aitch.splitItems, splitItems, splitItem_now c n hp, splitItems_now c ns]
    simp [Split.now, Split.append, Aitch.Split.append]
end

theorem attributesAndContents_now (ns : List KNode) : Aitch.attributesAndContents (ns.map (·.now M)) =
    ((attributesAndContents ns).1.map (·.now M), (attributesAndContents ns).2.1.map (·.now M),
      (attributesAndContents ns).2.2.map (·.now M)) := by
  unfold Aitch.attributesAndContents attributesAndContents
  rw [← nodesNow_eq, splitItems_now]
  simp [Split.now, KCondAttr.now]

theorem contentsToNodes_now (as : List KAny) :
    (contentsToNodes dl as).map (·.now M) = Aitch.contentsToNodes (fun r => valuesNow M (dl r)) (as.map (·.now M)) := by
  unfold contentsToNodes Aitch.contentsToNodes
  rw [List.map_map, List.map_map]
  refine List.map_congr_left fun a _ => ?_
  have h := newValues_now M dl [a]
  cases a with
  | node n => rfl
  | fixed a hf =>
    simp only [Function.comp, KNode.now, KAny.now, h]
    cases a <;> first | exact hf.elim | rfl
  | _ => simp only [Function.comp, KNode.now, KAny.now, h]; rfl

theorem addAttributes_now (m : Mem) : (as : List KAttr) → (∀ a ∈ as, a.name m = a.name M) → (e : KHead) →
    (dl : Nat → List KValue) →
    Aitch.addAttributes (as.map (·.now M)) (e.now M) (fun r => valuesNow M (dl r)) =
      ((addAttributes m as e dl).1.now M, fun r => valuesNow M ((addAttributes m as e dl).2 r))
  | [], _, e, dl => rfl
  | a :: as, h, e, dl => by
    have ih := addAttributes_now m as fun a ha => h a (.tail _ ha)
    have hname : (a.now M).name = a.name m := by rw [h a (.head _)]; cases a <;> rfl
    simp only [List.map_cons, Aitch.addAttributes, addAttributes, hname]
    have hi : (e.now M).attIndices = e.attIndices := rfl
    have ha : (e.now M).attributes = e.attributes.map (·.now M) := rfl
    rw [hi, ha]
    cases hl : e.attIndices.lookup (a.name m) with
    | none =>
      simp only
      rw [← ih]
      simp [KHead.now]
    | some idx =>
      simp only [List.getElem?_map]
      rcases hx : e.attributes[idx]? with _ | x
      · simp only [Option.map_none]
        rw [← ih]
        simp [KHead.now, List.map_set]
      · simp only [Option.map_some]
        cases x <;> cases a <;> simp only [KAttr.now] <;> rw [← ih] <;>
          first
          | (rw [upd_now, valuesNow_append]; rfl)
          | simp [KHead.now, List.map_set, KAttr.now]

/-- The slices that are names of attributes in a node that an element may be given. -/
def Named (P : Nat → Prop) : KAttr → Prop
  | .plain (.slice r) _ => P r
  | .bool (.slice r) => P r
  | .delim (.slice r) _ _ => P r
  | _ => True

theorem Named.mono {P Q : Nat → Prop} (hPQ : ∀ r, P r → Q r) {a : KAttr} (h : Named P a) : Named Q a := by
  cases a with
  | plain n _ => cases n <;> first | trivial | exact hPQ _ h
  | bool n => cases n <;> first | trivial | exact hPQ _ h
  | delim n _ _ => cases n <;> first | trivial | exact hPQ _ h

theorem Named.name {P : Nat → Prop} {m : Mem} (h : ∀ r, P r → m r = M r) {a : KAttr} (hn : Named P a) :
    a.name m = a.name M := by
  cases a with
  | plain n _ => cases n <;> first | rfl | exact h _ hn
  | bool n => cases n <;> first | rfl | exact h _ hn
  | delim n _ _ => cases n <;> first | rfl | exact h _ hn

mutual
/-- The attributes that a node brings to an element have names in `P`. -/
def Brings (P : Nat → Prop) : KNode → Prop
  | .attr a => Named P a
  | .collection ns => BringsAll P ns
  | .conditional ns as _ => BringsAll P ns ∧ ∀ a ∈ as, Named P a
  | _ => True
@[inherit_doc Brings] def BringsAll (P : Nat → Prop) : List KNode → Prop
  | [] => True
  | n :: ns => Brings P n ∧ BringsAll P ns
end

theorem bringsAll_iff {P : Nat → Prop} (ns : List KNode) : BringsAll P ns ↔ ∀ n ∈ ns, Brings P n := by
  induction ns with
  | nil => simp [BringsAll]
  | cons n ns ih => simp [BringsAll, ih]

mutual
theorem Brings.mono {P Q : Nat → Prop} (hPQ : ∀ r, P r → Q r) : (n : KNode) → Brings P n → Brings Q n
  | .attr _, h => Named.mono hPQ h
  | .collection ns, h => BringsAll.mono hPQ ns h
  | .conditional ns _ _, h => ⟨BringsAll.mono hPQ ns h.1, fun a ha => (h.2 a ha).mono hPQ⟩
  | .element _ _, _ | .voidElement _, _ | .text _, _ | .comment _, _ | .fragment _, _ | .pi _ _, _ | .collector _, _
  | .imperative _, _ | .iterator _ _, _ | .yieldIterator _ _, _ => trivial
theorem BringsAll.mono {P Q : Nat → Prop} (hPQ : ∀ r, P r → Q r) : (ns : List KNode) → BringsAll P ns → BringsAll Q ns
  | [], _ => trivial
  | n :: ns, h => ⟨Brings.mono hPQ n h.1, BringsAll.mono hPQ ns h.2⟩
end

mutual
theorem splitItem_named {P : Nat → Prop} (c : CondSlice) : (n : KNode) → (hp : CondHeap) → Brings P n →
    ∀ a ∈ (splitItem c n hp).1.attrs, Named P a
  | .attr a, hp, h => by
    simp only [splitItem]
    split
    · simp
    · simpa [Brings] using h
  | .collection ns, hp, h => by simpa only [splitItem] using splitItems_named c ns hp h
  | .conditional ns as fn, hp, h => by simp [splitItem]
  | .element _ _, _, _ | .voidElement _, _, _ | .text _, _, _ | .comment _, _, _ | .fragment _, _, _ | .pi _ _, _, _
  | .collector _, _, _ | .imperative _, _, _ | .iterator _ _, _, _ | .yieldIterator _ _, _, _ => by simp [splitItem]
theorem splitItems_named {P : Nat → Prop} (c : CondSlice) : (ns : List KNode) → (hp : CondHeap) → BringsAll P ns →
    ∀ a ∈ (splitItems c ns hp).1.attrs, Named P a
  | [], hp, _ => by simp [splitItems]
  | n :: ns, hp, h => by
    simp only [splitItems, Split.append]
    intro a ha
    rcases List.mem_append.1 ha with ha | ha
    · exact splitItem_named c n hp h.1 a ha
    · exact splitItems_named c ns _ h.2 a ha
end

/-- The same for a value. -/
def AnyBrings (P : Nat → Prop) : KAny → Prop
  | .node n => Brings P n
  | _ => True

theorem AnyBrings.mono {P Q : Nat → Prop} (hPQ : ∀ r, P r → Q r) {a : KAny} (h : AnyBrings P a) : AnyBrings Q a := by
  cases a <;> first | trivial | exact Brings.mono hPQ _ h

theorem attrs_named {P : Nat → Prop} {as : List KAny} (h : ∀ a ∈ as, AnyBrings P a) :
    ∀ a ∈ (attributesAndContents (contentsToNodes dl as)).1, Named P a := by
  refine splitItems_named _ _ _ ((bringsAll_iff _).2 ?_)
  intro n hn
  obtain ⟨a, ha, rfl⟩ := List.mem_map.1 hn
  have := h a ha
  cases a <;> first | exact this | trivial

theorem NewElement_now {P : Nat → Prop} {m : Mem} (hm : ∀ r, P r → m r = M r) (name : Kept) {as : List KAny}
    (h : ∀ a ∈ as, AnyBrings P a) (hp : KHeap) :
    Aitch.NewElement (name.now M) (as.map (·.now M)) (hp.now M) =
      ((NewElement m name as hp).1.now M, (NewElement m name as hp).2.now M) := by
  unfold Aitch.NewElement NewElement
  have h1 : (hp.now M).dl = fun r => valuesNow M (hp.dl r) := rfl
  have h2 : (⟨name.now M, [], [], (attributesAndContents (contentsToNodes hp.dl as)).2.1.map (·.now M)⟩ : ElemHead) =
    KHead.now M ⟨name, [], [], (attributesAndContents (contentsToNodes hp.dl as)).2.1⟩ := rfl
  simp only [h1, ← contentsToNodes_now, attributesAndContents_now, h2]
  rw [addAttributes_now M m _ fun a ha => (attrs_named hp.dl h a ha).name M hm]
  simp [KNode.now, nodesNow_eq, KHeap.now]

theorem NewVoidElement_now {P : Nat → Prop} {m : Mem} (hm : ∀ r, P r → m r = M r) (name : Kept) {as : List KAny}
    (h : ∀ a ∈ as, AnyBrings P a) (hp : KHeap) :
    Aitch.NewVoidElement (name.now M) (as.map (·.now M)) (hp.now M) =
      ((NewVoidElement m name as hp).1.now M, (NewVoidElement m name as hp).2.now M) := by
  unfold Aitch.NewVoidElement NewVoidElement
  have h1 : (hp.now M).dl = fun r => valuesNow M (hp.dl r) := rfl
  have h2 : (⟨name.now M, [], [], (attributesAndContents (contentsToNodes hp.dl as)).2.1.map (·.now M)⟩ : ElemHead) =
    KHead.now M ⟨name, [], [], (attributesAndContents (contentsToNodes hp.dl as)).2.1⟩ := rfl
  simp only [h1, ← contentsToNodes_now, attributesAndContents_now, h2]
  rw [addAttributes_now M m _ fun a ha => (attrs_named hp.dl h a ha).name M hm]
  simp [KNode.now, KHeap.now]

end Aitch.Retain

namespace Aitch.Spec.Retain
open Aitch.Retain (Kept Mem KNode KAny KHeap Fixed AnyBrings Brings BringsAll Named)

variable (M : Mem)

theorem get_now (vs : List KAny) : (a : Arg) → (a.get vs).now M = a.copy M (vs.map (·.now M))
  | .nil | .slice _ | .dynFunc _ _ | .dynKey _ | .fixed _ _ => rfl
  | .thunk a => by simp [Arg.get, KAny.now, Arg.copy, get_now vs a]
  | .var i => by
    simp only [Arg.get, Arg.copy, List.getElem?_map]
    cases vs[i]? <;> rfl

theorem gets_now (vs : List KAny) (as : List Arg) :
    (as.map (·.get vs)).map (·.now M) = as.map (·.copy M (vs.map (·.now M))) := by
  rw [List.map_map]
  exact List.map_congr_left fun a _ => get_now M vs a

theorem nodesIn_now : (as : List KAny) → nodesIn (as.map (·.now M)) = (nodesOf as).map fun n => some (n.now M)
  | [] => rfl
  | a :: as => by
    have ih := nodesIn_now as
    cases a with
    | node n => simp [nodesIn, nodesOf, KAny.now, ih]
    | fixed a h =>
      simp only [List.map_cons, KAny.now, nodesOf]
      rw [← ih]
      cases a <;> first | exact h.elim | rfl
    | _ => simpa only [List.map_cons, KAny.now, nodesOf, nodesIn] using ih

theorem get_brings {P : Nat → Prop} {vs : List KAny} (h : ∀ a ∈ vs, AnyBrings P a) : (a : Arg) → AnyBrings P (a.get vs)
  | .nil | .slice _ | .dynFunc _ _ | .dynKey _ | .fixed _ _ | .thunk _ => trivial
  | .var i => by
    simp only [Arg.get]
    cases hv : vs[i]? with
    | none => trivial
    | some a => exact h a (List.mem_of_getElem? hv)

theorem gets_bring {P : Nat → Prop} {vs : List KAny} (h : ∀ a ∈ vs, AnyBrings P a) (as : List Arg) :
    ∀ a ∈ as.map (·.get vs), AnyBrings P a := by
  intro a ha
  obtain ⟨x, _, rfl⟩ := List.mem_map.1 ha
  exact get_brings h x

theorem nodesOf_bring {P : Nat → Prop} : (as : List KAny) → (∀ a ∈ as, AnyBrings P a) → ∀ n ∈ nodesOf as, Brings P n
  | [], _, n, hn => by simp [nodesOf] at hn
  | a :: as, h, n, hn => by
    have ih := nodesOf_bring as fun a ha => h a (.tail _ ha)
    cases a with
    | node x =>
      simp only [nodesOf, List.mem_cons] at hn
      rcases hn with rfl | hn
      · exact h (.node n) (.head _)
      · exact ih n hn
    | _ => exact ih n hn

theorem run_now_call {P : Nat → Prop} {m : Mem} (hm : ∀ r, P r → m r = M r) {v : Vars}
    (hv : ∀ a ∈ v.vars, AnyBrings P a) (c : Call) :
    c.copied M ⟨v.vars.map (·.now M), v.heap.now M⟩ = ((c.run m v).1.now M, (c.run m v).2.now M) := by
  have hdl : (v.heap.now M).dl = fun r => Aitch.Retain.valuesNow M (v.heap.dl r) := rfl
  cases c with
  | value a =>
    simp only [Call.copied, Call.run, KAny.now, ← get_now, hdl, ← Aitch.Retain.NewValue_now]
  | concat as =>
    simp only [Call.copied, Call.run, KAny.now, ← gets_now, hdl, NewConcatValue, Aitch.Retain.NewConcatValue,
      ← Aitch.Retain.newValues_now, Aitch.Retain.KValue.now, Kept.now]
  | text as =>
    simp only [Call.copied, Call.run, KAny.now, ← gets_now, hdl, Text, ← Aitch.Retain.newValues_now, KNode.now]
  | comment as =>
    simp only [Call.copied, Call.run, KAny.now, ← gets_now, hdl, Comment, ← Aitch.Retain.newValues_now, KNode.now]
  | fragment as =>
    simp only [Call.copied, Call.run, KAny.now, ← gets_now, hdl, Fragment, ← Aitch.Retain.newValues_now, KNode.now]
  | pi name as =>
    simp only [Call.copied, Call.run, KAny.now, ← gets_now, hdl, PI, ← Aitch.Retain.newValues_now, KNode.now]
  | attr name as =>
    simp only [Call.copied, Call.run, KAny.now, ← gets_now, hdl, NewAttribute, ← Aitch.Retain.newValues_now, KNode.now,
      Aitch.Retain.KAttr.now]
  | boolAttr name => rfl
  | delimAttr name d as =>
    simp only [Call.copied, Call.run, KAny.now, ← gets_now, NewDelimitedAttribute, Aitch.Retain.NewDelimitedAttribute,
      KNode.now, Aitch.Retain.KAttr.now, KHeap.now, ← Aitch.Retain.newValues_now]
    rw [← Aitch.Retain.upd_now]
  | collection as =>
    simp only [Call.copied, Call.run, KAny.now, ← gets_now, nodesIn_now, Collection, KNode.now, Aitch.Retain.nodesNow_eq]
    simp [List.filterMap_map, Function.comp_def]
  | conditional fn as =>
    simp only [Call.copied, Call.run, KAny.now, ← gets_now, nodesIn_now, mkConditional, Aitch.Retain.condSplit_now,
      Aitch.Retain.mkConditional, made, KNode.now, Aitch.Retain.nodesNow_eq]
  | iterator fn as =>
    cases fn <;>
    simp only [Call.copied, Call.run, KAny.now, ← gets_now, nodesIn_now, Iterate, IterateKey, Aitch.Retain.iterSplit_now,
      made, KNode.now, Aitch.Retain.nodesNow_eq]
  | yieldIterator f as =>
    simp only [Call.copied, Call.run, KAny.now, ← gets_now, nodesIn_now, IterateYield, Aitch.Retain.iterSplit_now,
      made, KNode.now, Aitch.Retain.nodesNow_eq]
  | collector f => rfl
  | imperative f => rfl
  | element name as =>
    simp only [Call.copied, Call.run, KAny.now, ← gets_now,
      Aitch.Retain.NewElement_now M hm name (gets_bring hv as)]
  | voidElement name as =>
    simp only [Call.copied, Call.run, KAny.now, ← gets_now,
      Aitch.Retain.NewVoidElement_now M hm name (gets_bring hv as)]

theorem condSplit_bring {P : Nat → Prop} : (ns : List KNode) → (∀ n ∈ ns, Brings P n) →
    (∀ n ∈ (Aitch.Retain.condSplit ns).1, Brings P n) ∧ ∀ a ∈ (Aitch.Retain.condSplit ns).2, Named P a
  | [], _ => by simp [Aitch.Retain.condSplit]
  | n :: ns, h => by
    obtain ⟨h1, h2⟩ := condSplit_bring ns fun n hn => h n (.tail _ hn)
    have h0 := h n (.head _)
    cases n with
    | attr a =>
      refine ⟨h1, fun a' ha' => ?_⟩
      rcases List.mem_cons.1 ha' with rfl | ha'
      · exact h0
      · exact h2 _ ha'
    | _ =>
      refine ⟨fun a' ha' => ?_, h2⟩
      rcases List.mem_cons.1 ha' with rfl | ha'
      · exact h0
      · exact h1 _ ha'

theorem run_brings {P : Nat → Prop} {m : Mem} {v : Vars} (hv : ∀ a ∈ v.vars, AnyBrings P a) {c : Call}
    (hc : ∀ r ∈ c.names, P r) : AnyBrings P (c.run m v).1 := by
  cases c with
  | attr name as =>
    cases name with
    | own b => trivial
    | slice r => exact hc r (by simp [Call.names, keptSlices])
  | boolAttr name =>
    cases name with
    | own b => trivial
    | slice r => exact hc r (by simp [Call.names, keptSlices])
  | delimAttr name d as =>
    cases name with
    | own b => trivial
    | slice r => exact hc r (by simp [Call.names, keptSlices])
  | collection as =>
    exact (Aitch.Retain.bringsAll_iff _).2 (nodesOf_bring _ (gets_bring hv as))
  | conditional fn as =>
    obtain ⟨h1, h2⟩ := condSplit_bring _ (nodesOf_bring _ (gets_bring hv as))
    exact ⟨(Aitch.Retain.bringsAll_iff _).2 h1, h2⟩
  | _ => trivial

theorem after_left {r : Nat} : (p : List Step) → (∀ b, .set r b ∉ p) → (m : Mem) → after m p r = m r
  | [], _, m => rfl
  | .set r' b :: p, h, m => by
    rw [after, after_left p (fun b hb => h b (.tail _ hb))]
    unfold put
    split
    · next he => subst he; exact absurd (.head _) (h b)
    · rfl
  | .call c :: p, h, m => by rw [after, after_left p fun b hb => h b (.tail _ hb)]

theorem namesLeft_tail {s : Step} {p : List Step} (h : NamesLeft (s :: p)) : NamesLeft p :=
  fun before c rest he => h (s :: before) c rest (by rw [he]; rfl)

theorem slicesLeft_tail {s : Step} {p : List Step} (h : SlicesLeft (s :: p)) : SlicesLeft p :=
  fun before c rest he => h (s :: before) c rest (by rw [he]; rfl)

theorem run_copied : (p : List Step) → NamesLeft p → (m : Mem) → (v : Vars) →
    (∀ a ∈ v.vars, AnyBrings (fun r => ∀ b, .set r b ∉ p) a) →
    copied (after m p) ⟨v.vars.map (·.now (after m p)), v.heap.now (after m p)⟩ (calls p) =
      ⟨(run m v p).vars.map (·.now (after m p)), (run m v p).heap.now (after m p)⟩
  | [], _, m, v, _ => rfl
  | .set r b :: p, hn, m, v, hv => by
    have := run_copied p (namesLeft_tail hn) (put m r b) v fun a ha =>
      (hv a ha).mono fun r h b hb => h b (.tail _ hb)
    simpa only [after, calls, run] using this
  | .call c :: p, hn, m, v, hv => by
    have hv' : ∀ a ∈ v.vars, AnyBrings (fun r => ∀ b, .set r b ∉ p) a := fun a ha =>
      (hv a ha).mono fun r h b hb => h b (.tail _ hb)
    have hb : AnyBrings (fun r => ∀ b, .set r b ∉ p) (c.run m v).1 := run_brings hv' fun r hr => hn [] c p rfl r hr
    have ih := run_copied p (namesLeft_tail hn) m ⟨v.vars ++ [(c.run m v).1], (c.run m v).2⟩ (by
      intro a ha
      rcases List.mem_append.1 ha with ha | ha
      · exact hv' a ha
      · simp only [List.mem_singleton] at ha; subst ha; exact hb)
    have hc := run_now_call (after m p) (P := fun r => ∀ b, .set r b ∉ p)
      (fun r hr => (after_left p hr m).symm) hv' c
    simp only [after, calls, run, copied, hc]
    rw [← ih]
    simp

/-! ### Slices that are left alone -/

theorem copy_congr {m M : Mem} (vs : List Any) : (a : Arg) → (∀ r ∈ a.slices, m r = M r) → a.copy m vs = a.copy M vs
  | .nil, _ | .dynFunc _ _, _ | .dynKey _, _ | .fixed _ _, _ | .var _, _ => rfl
  | .slice r, h => by simp [Arg.copy, h r (by simp [Arg.slices])]
  | .thunk a, h => by simp [Arg.copy, copy_congr vs a h]

theorem copies_congr {m M : Mem} (vs : List Any) (as : List Arg) (h : ∀ r ∈ as.flatMap Arg.slices, m r = M r) :
    as.map (·.copy m vs) = as.map (·.copy M vs) :=
  List.map_congr_left fun a ha => copy_congr vs a fun r hr => h r (List.mem_flatMap.2 ⟨a, ha, hr⟩)

theorem kept_congr {m M : Mem} {k : Kept} (h : ∀ r ∈ keptSlices k, m r = M r) : k.now m = k.now M := by
  cases k with
  | own b => rfl
  | slice r => exact h r (by simp [keptSlices])

theorem copied_congr {m M : Mem} (v : Copies) (c : Call) (h : ∀ r ∈ c.slices, m r = M r) :
    c.copied m v = c.copied M v := by
  cases c with
  | value a => simp only [Call.copied, copy_congr v.vars a h]
  | concat as => simp only [Call.copied, copies_congr v.vars as h]
  | text as => simp only [Call.copied, copies_congr v.vars as h]
  | comment as => simp only [Call.copied, copies_congr v.vars as h]
  | fragment as => simp only [Call.copied, copies_congr v.vars as h]
  | pi _ as => simp only [Call.copied, copies_congr v.vars as h]
  | attr name as =>
    simp only [Call.copied, copies_congr v.vars as fun r hr => h r (List.mem_append_right _ hr),
      kept_congr fun r hr => h r (List.mem_append_left _ hr)]
  | boolAttr name => simp only [Call.copied, kept_congr h]
  | delimAttr name d as =>
    simp only [Call.copied, copies_congr v.vars as fun r hr => h r (List.mem_append_right _ hr),
      kept_congr (k := name) fun r hr => h r (List.mem_append_left _ (List.mem_append_left _ hr)),
      kept_congr (k := d) fun r hr => h r (List.mem_append_left _ (List.mem_append_right _ hr))]
  | collection as => simp only [Call.copied, copies_congr v.vars as h]
  | conditional _ as => simp only [Call.copied, copies_congr v.vars as h]
  | iterator fn as => cases fn <;> simp only [Call.copied, copies_congr v.vars as h]
  | yieldIterator _ as => simp only [Call.copied, copies_congr v.vars as h]
  | collector _ => rfl
  | imperative _ => rfl
  | element name as =>
    simp only [Call.copied, copies_congr v.vars as fun r hr => h r (List.mem_append_right _ hr),
      kept_congr fun r hr => h r (List.mem_append_left _ hr)]
  | voidElement name as =>
    simp only [Call.copied, copies_congr v.vars as fun r hr => h r (List.mem_append_right _ hr),
      kept_congr fun r hr => h r (List.mem_append_left _ hr)]

theorem copied_calls : (p : List Step) → SlicesLeft p → (m : Mem) → (v : Copies) →
    copied (after m p) v (calls p) = copied m v p
  | [], _, m, v => rfl
  | .set r b :: p, h, m, v => by
    simp only [after, calls, copied]
    exact copied_calls p (slicesLeft_tail h) (put m r b) v
  | .call c :: p, h, m, v => by
    have hc : c.copied (after m p) v = c.copied m v :=
      (copied_congr v c fun r hr => (after_left p (h [] c p rfl r hr) m).symm).symm
    simp only [after, calls, copied, hc]
    exact copied_calls p (slicesLeft_tail h) m _

theorem names_slices (c : Call) : ∀ r ∈ c.names, r ∈ c.slices := by
  intro r hr
  cases c with
  | attr => exact List.mem_append_left _ hr
  | boolAttr => exact hr
  | delimAttr => exact List.mem_append_left _ (List.mem_append_left _ hr)
  | _ => simp [Call.names] at hr

/-! ### Imperative -/

open Aitch.Retain (KImp)

theorem endAll_now (m : Mem) : (stack : List Kept) →
    Aitch.Retain.endAll m stack = Aitch.endAll (stack.map (·.now m))
  | [] => rfl
  | n :: ns => by simp only [Aitch.Retain.endAll, List.map_cons, Aitch.endAll, endAll_now m ns]

theorem prog_assoc {α β γ : Type} (f : α → Prog β) (g : β → Prog γ) : (p : Prog α) →
    (p.bind f).bind g = p.bind fun a => (f a).bind g
  | .pure _ => rfl
  | .step a k => by
    simp only [Prog.bind]
    congr 1
    funext r
    exact prog_assoc f g (k r)
  | .stuck => rfl

/-- After a call the stack is `opened op stack`, whatever the call does. -/
theorem runOp_now (rec : Render) (m : Mem) (op : ImpOp) (stack : List Kept) {β : Type} (f : List Kept → Prog β)
    (g : List Bytes → Prog β) (h : f (opened op stack) = g ((opened op stack).map (·.now m))) :
    (Aitch.Retain.runOp rec m op stack).bind f = (Aitch.runOp rec op (stack.map (·.now m))).bind g := by
  have key : ∀ (p : Prog Unit) (a : List Kept) (b : List Bytes), f a = g b →
      (p.bind fun _ => .pure a).bind f = (p.bind fun _ => .pure b).bind g := by
    intro p a b hab
    rw [prog_assoc, prog_assoc]
    simp only [Prog.bind, hab]
  cases op with
  | writeString d => exact key _ _ _ h
  | writeRaw d => exact key _ _ _ h
  | writeNodes ns => exact key _ _ _ h
  | start n isVoid attrs =>
    cases isVoid with
    | true => exact key _ _ _ h
    | false => exact key _ _ _ h
  | «end» =>
    cases stack with
    | nil => exact h
    | cons n st => exact key _ _ _ h
  | endAll =>
    simp only [Aitch.Retain.runOp, Aitch.runOp, endAll_now]
    exact key _ _ _ h

theorem runImp_now (rec : Render) : (p : KImp) → (m : Mem) → (stack : List Kept) → OpenNamesLeft p stack →
    Aitch.Retain.runImp rec p m stack = Aitch.runImp rec (copyNames m p) (stack.map (·.now m))
  | .ret e, _, _, _ => rfl
  | .set r b k, m, stack, h => by
    have ih := runImp_now rec k (put m r b) stack h.2
    have hs : stack.map (·.now (put m r b)) = stack.map (·.now m) := by
      refine List.map_congr_left fun n hn => kept_congr fun x hx => ?_
      have : x ≠ r := by rintro rfl; exact h.1 n hn hx
      simp [put, this]
    rw [hs] at ih
    exact ih
  | .user upd k, m, stack, h => by
    simp only [Aitch.Retain.runImp, copyNames, Aitch.runImp]
    exact congrArg _ (funext fun s => runImp_now rec (k s) m stack (h s))
  | .start name isVoid attrs k, m, stack, h => by
    simp only [Aitch.Retain.runImp, copyNames, Aitch.runImp, Aitch.runOp]
    show (startTag _ _).bind _ = Prog.bind (Prog.bind (startTag _ _) _) _
    rw [prog_assoc]
    refine congrArg _ (funext fun _ => ?_)
    cases isVoid <;> exact congrArg _ (funext fun s => runImp_now rec (k s) m _ (h s))
  | .call op k, m, stack, h => by
    simp only [Aitch.Retain.runImp, copyNames, Aitch.runImp]
    exact runOp_now rec m op stack _ _ (congrArg _ (funext fun s => runImp_now rec (k s) m _ (h s)))

end Aitch.Spec.Retain

import Verif.Proofs.OwnWhen
/-
A conditional attribute of the user's own with the name of a delimited attribute.
-/
namespace Aitch.Own

open Aitch.Spec Aitch.Spec.Own

/-- Attributes of the user's own with the name `n` made to do nothing. -/
def hide (n : Bytes) : OAttr → OAttr
  | .own m q => if m = n then .own m (pure ()) else .own m q
  | a => a

theorem hide_name (n : Bytes) (a : OAttr) : (hide n a).name = a.name := by
  cases a with
  | std a => rfl
  | own m q => by_cases h : m = n <;> simp [hide, h, OAttr.name]

theorem hide_values (n : Bytes) (dl : Nat → List Value) (a : OAttr) : (hide n a).values dl = a.values dl := by
  cases a with
  | std a => rfl
  | own m q => by_cases h : m = n <;> simp [hide, h, OAttr.values]

theorem hide_ne {n : Bytes} {a : OAttr} (h : a.name ≠ n) : hide n a = a := by
  cases a with
  | std a => rfl
  | own m q => exact if_neg h

/-- The same in the map of the attributes in effect. -/
def hides (n : Bytes) (es : List (Bytes × List OAttr)) : List (Bytes × List OAttr) := es.map fun e => (e.1, e.2.map (hide n))

/-- The same of conditional attributes. -/
def hideCond (n : Bytes) (c : OCondAttr) : OCondAttr := ⟨hide n c.att, c.conditions⟩

theorem hides_add (n m : Bytes) (a : OAttr) (es : List (Bytes × List OAttr)) :
    addEvaluated m (hide n a) (hides n es) = hides n (addEvaluated m a es) := by
  induction es with
  | nil => rfl
  | cons e es ih =>
    obtain ⟨x, l⟩ := e
    by_cases h : x = m
    · simp [hides, addEvaluated, h]
    · simp only [hides, List.map_cons, addEvaluated, h, if_false] at ih ⊢
      rw [ih]

/-- Every attribute is under its name. -/
def Labelled (es : List (Bytes × List OAttr)) : Prop := ∀ e ∈ es, ∀ a ∈ e.2, a.name = e.1

theorem labelled_add {es : List (Bytes × List OAttr)} (h : Labelled es) (a : OAttr) : Labelled (addEvaluated a.name a es) := by
  induction es with
  | nil => intro e he b hb; simp only [addEvaluated, List.mem_singleton] at he; subst he; simp at hb; rw [hb]
  | cons e es ih =>
    obtain ⟨x, l⟩ := e
    have h1 : Labelled es := fun e he => h e (List.mem_cons_of_mem _ he)
    have h2 := h (x, l) List.mem_cons_self
    rw [addEvaluated]
    split
    · next hx =>
      intro e he b hb
      rcases List.mem_cons.mp he with rfl | he
      · rcases List.mem_append.mp hb with hb | hb
        · exact h2 b hb
        · rw [List.mem_singleton.mp hb]; exact hx.symm
      · exact h1 e he b hb
    · intro e he b hb
      rcases List.mem_cons.mp he with rfl | he
      · exact h2 b hb
      · exact ih h1 e he b hb

theorem evaluate_hide {β : Type} (n : Bytes) (cs : List OCondAttr) : ∀ (es : List (Bytes × List OAttr))
    (k k' : List (Bytes × List OAttr) → Prog β), Labelled es → (∀ es, Labelled es → k es = k' (hides n es)) →
      (evaluate cs es).bind k = (evaluate (cs.map (hideCond n)) (hides n es)).bind k' := by
  induction cs with
  | nil => intro es k k' hl h; exact h es hl
  | cons c cs ih =>
    intro es k k' hl h
    show ((evalConds c.conditions).bind fun b => _).bind k = ((evalConds c.conditions).bind fun b => _).bind k'
    rw [bind_bind, bind_bind]
    refine bind_congr _ fun b => ?_
    cases b with
    | true =>
      have := ih _ k k' (labelled_add hl c.att) h
      rw [← hides_add] at this
      simp only [if_true, hideCond, hide_name]
      exact this
    | false => exact ih es k k' hl h

theorem lookup_hides (n : Bytes) (es : List (Bytes × List OAttr)) (m : Bytes) :
    (hides n es).lookup m = (es.lookup m).map (·.map (hide n)) := by
  induction es with
  | nil => rfl
  | cons e es ih =>
    obtain ⟨x, l⟩ := e
    simp only [hides, List.map_cons, List.lookup_cons] at ih ⊢
    cases m == x with
    | true => rfl
    | false => exact ih

theorem hide_others {n m : Bytes} {es : List (Bytes × List OAttr)} (hl : Labelled es) (hm : m ≠ n) {l : List OAttr}
    (h : es.lookup m = some l) : l.map (hide n) = l := by
  have hmem := mem_lookup h
  conv_rhs => rw [← List.map_id l]
  refine List.map_congr_left fun a ha => ?_
  exact hide_ne (by rw [hl _ hmem a ha]; exact hm)

/-- The attribute without condition with this name is delimited. -/
def Delimits (n : Bytes) (e : OHead) : Prop :=
  ∃ i d r, e.attIndices.lookup n = some i ∧ e.attributes[i]? = some (.std (.delim n d r))

theorem statics_hide {n : Bytes} {e e' : OHead} (h1 : e'.attIndices = e.attIndices) (h2 : e'.attributes = e.attributes)
    (hd : Delimits n e) {es : List (Bytes × List OAttr)} (hl : Labelled es) (names : List Bytes) :
    renderStatics e es names = renderStatics e' (hides n es) names := by
  induction names with
  | nil => rfl
  | cons m names ih =>
    rw [renderStatics, renderStatics, ih]
    congr 1
    unfold renderStatic
    rw [h1, h2]
    cases hi : e.attIndices.lookup m with
    | none => rfl
    | some i =>
      simp only
      cases ha : e.attributes[i]? with
      | none => rfl
      | some att =>
        simp only [lookup_hides]
        cases hel : es.lookup m with
        | none => rfl
        | some l =>
          simp only [Option.map_some]
          by_cases hm : m = n
          · subst hm
            obtain ⟨j, d, r, hj, hr⟩ := hd
            rw [hi] at hj
            cases hj
            rw [ha] at hr
            cases hr
            simp only [renderChosen, List.flatMap_map, hide_values]
          · rw [hide_others hl hm hel]

theorem extras_hide {n : Bytes} {e e' : OHead} (h1 : e'.attIndices = e.attIndices)
    (hd : Delimits n e) {es : List (Bytes × List OAttr)} (hl : Labelled es) (names : List Bytes) :
    renderExtras e es names = renderExtras e' (hides n es) names := by
  induction names with
  | nil => rfl
  | cons m names ih =>
    rw [renderExtras, renderExtras, ih]
    congr 1
    unfold renderExtra
    rw [h1, lookup_hides]
    cases hi : e.attIndices.lookup m with
    | some i => rfl
    | none =>
      have hm : m ≠ n := by
        intro h
        subst h
        obtain ⟨j, d, r, hj, _⟩ := hd
        rw [hi] at hj
        cases hj
      cases hel : es.lookup m with
      | none => rfl
      | some l => rw [Option.map_some, hide_others hl hm hel]

theorem renderAttributes_hide {n : Bytes} {e : OHead} (hd : Delimits n e) :
    renderAttributes e = renderAttributes { e with conditionals := e.conditionals.map (hideCond n) } := by
  unfold renderAttributes
  simp only [List.length_map]
  split
  · refine evaluate_hide n e.conditionals [] _ _ (by intro e he; cases he) fun es hl => ?_
    have hlen : (hides n es).length = es.length := List.length_map ..
    have hkeys : (hides n es).map (·.1) = es.map (·.1) := by simp [hides]
    simp only [hlen, hkeys, fun names => statics_hide (n := n) (e := e)
      (e' := { e with conditionals := e.conditionals.map (hideCond n) }) rfl rfl hd hl names,
      fun names => extras_hide (n := n) (e := e)
      (e' := { e with conditionals := e.conditionals.map (hideCond n) }) rfl hd hl names]
  · rfl

/-! ### Construction -/

/-- What `addAttributes` keeps: names are found where they are, and the attribute named `n` is delimited. -/
structure Indexed (n : Bytes) (e : OHead) : Prop where
  found : ∀ m i, e.attIndices.lookup m = some i → ∃ x, e.attributes[i]? = some x ∧ x.name = m
  delim : ∀ i, e.attIndices.lookup n = some i → ∃ d r, e.attributes[i]? = some (.std (.delim n d r))

theorem indexed_add (n : Bytes) (as : List OAttr) (ha : ∀ a ∈ as, a.name = n → ∃ d r, a = .std (.delim n d r)) :
    ∀ (e : OHead) (dl : Nat → List Value), Indexed n e → Indexed n (addAttributes as e dl).1 ∧
      (addAttributes as e dl).1.name = e.name ∧ (addAttributes as e dl).1.conditionals = e.conditionals := by
  induction as with
  | nil => intro e dl h; exact ⟨h, rfl, rfl⟩
  | cons a as ih =>
    intro e dl h
    have ih := ih fun b hb => ha b (List.mem_cons_of_mem _ hb)
    cases hl : e.attIndices.lookup a.name with
    | none =>
      simp only [addAttributes, hl]
      refine ih _ dl ⟨?_, ?_⟩
      · intro m i hi
        simp only [lookup_append] at hi
        cases hm : e.attIndices.lookup m with
        | some j =>
          rw [hm] at hi
          simp only [Option.some_or, Option.some.injEq] at hi
          subst hi
          obtain ⟨x, hx1, hx2⟩ := h.found m j hm
          exact ⟨x, by rw [List.getElem?_append_left (List.getElem?_eq_some_iff.mp hx1).1]; exact hx1, hx2⟩
        | none =>
          rw [hm] at hi
          by_cases hn : m = a.name
          · simp only [hn, if_true, Option.none_or, Option.some.injEq] at hi
            exact ⟨a, by rw [← hi]; simp, hn.symm⟩
          · simp [hn] at hi
      · intro i hi
        simp only [lookup_append] at hi
        cases hm : e.attIndices.lookup n with
        | some j =>
          rw [hm] at hi
          simp only [Option.some_or, Option.some.injEq] at hi
          subst hi
          obtain ⟨d, r, hx1⟩ := h.delim j hm
          exact ⟨d, r, by rw [List.getElem?_append_left (List.getElem?_eq_some_iff.mp hx1).1]; exact hx1⟩
        | none =>
          rw [hm] at hi
          by_cases hn : n = a.name
          · simp only [hn, if_true, Option.none_or, Option.some.injEq] at hi
            obtain ⟨d, r, hdr⟩ := ha a List.mem_cons_self hn.symm
            exact ⟨d, r, by rw [← hi, ← hdr]; simp⟩
          · simp [hn] at hi
    | some i =>
      obtain ⟨x, hx1, hx2⟩ := h.found _ i hl
      have hset : Indexed n { e with attributes := e.attributes.set i a } := by
        refine ⟨?_, ?_⟩
        · intro m j hj
          by_cases hij : i = j
          · subst hij
            obtain ⟨y, hy1, hy2⟩ := h.found m i hj
            rw [hx1] at hy1
            cases hy1
            exact ⟨a, by rw [List.getElem?_set, if_pos rfl, if_pos (List.getElem?_eq_some_iff.mp hx1).1], by rw [← hx2, hy2]⟩
          · obtain ⟨y, hy1, hy2⟩ := h.found m j hj
            exact ⟨y, by rw [List.getElem?_set_ne hij]; exact hy1, hy2⟩
        · intro j hj
          by_cases hij : i = j
          · subst hij
            obtain ⟨y, hy1, hy2⟩ := h.found n i hj
            rw [hx1] at hy1
            cases hy1
            obtain ⟨d, r, hdr⟩ := ha a List.mem_cons_self (by rw [← hx2, hy2])
            exact ⟨d, r, by rw [List.getElem?_set, if_pos rfl, if_pos (List.getElem?_eq_some_iff.mp hx1).1, hdr]⟩
          · obtain ⟨d, r, hy1⟩ := h.delim j hj
            exact ⟨d, r, by rw [List.getElem?_set_ne hij]; exact hy1⟩
      simp only [addAttributes, hl]
      split
      · exact ih e _ h
      · exact ih _ dl hset

/-- A head apart from its conditional attributes. -/
theorem add_conditionals (as : List OAttr) : ∀ (e : OHead) (cs : List OCondAttr) (dl : Nat → List Value),
    addAttributes as { e with conditionals := cs } dl =
      ({ (addAttributes as e dl).1 with conditionals := cs }, (addAttributes as e dl).2) := by
  induction as with
  | nil => intro e cs dl; rfl
  | cons a as ih =>
    intro e cs dl
    cases hl : e.attIndices.lookup a.name with
    | none =>
      simp only [addAttributes, hl]
      exact ih ⟨e.name, e.attributes ++ [a], e.attIndices ++ [(a.name, e.attributes.length)], e.conditionals⟩ cs dl
    | some i =>
      simp only [addAttributes, hl]
      split
      · exact ih e cs _
      · exact ih ⟨e.name, e.attributes.set i _, e.attIndices, e.conditionals⟩ cs dl

theorem split_list (s : CondSlice) (a b : List ONode) : ∀ hp : CondHeap,
    splitItems s (a ++ b) hp = ((splitItems s a hp).1.append (splitItems s b (splitItems s a hp).2).1,
      (splitItems s b (splitItems s a hp).2).2) := by
  induction a with
  | nil => intro hp; simp [splitItems, OSplit.append]
  | cons n a ih =>
    intro hp
    simp only [List.cons_append, splitItems, ih]
    simp [OSplit.append]

theorem contents_hide {rec : ONode → Prog (Option Err)} {c c' : ONode} (h : rec c = rec c') (pre post : List ONode) :
    contentLoop rec (pre ++ c :: post) = contentLoop rec (pre ++ c' :: post) := by
  induction pre with
  | nil => simp only [List.nil_append, contentLoop, h]
  | cons n pre ih => simp only [List.cons_append, contentLoop, ih]

theorem element_dropped (name n : Bytes) (pre post : List ONode) (fn : Cond) (p p' : Prog Unit)
    (hn : n ∈ namesOf (broughtAlways (pre ++ post)))
    (hd : ∀ a ∈ broughtAlways (pre ++ post), a.name = n → ∃ d r, a = .std (.delim n d r)) (h : Heap) (fuel : Nat) :
    renderProg fuel (NewElement name (pre ++ Conditional fn [.attr (.own n p)] :: post) h).1 =
      renderProg fuel (NewElement name (pre ++ Conditional fn [.attr (.own n p')] :: post) h).1 ∧
    renderProg fuel (NewVoidElement name (pre ++ Conditional fn [.attr (.own n p)] :: post) h).1 =
      renderProg fuel (NewVoidElement name (pre ++ Conditional fn [.attr (.own n p')] :: post) h).1 := by
  cases fuel with
  | zero => simp only [renderProg, and_self]
  | succ fuel =>
  -- the results of `attributesAndContents`
  have hA : ∀ q, (attributesAndContents (pre ++ Conditional fn [.attr (.own n q)] :: post)).1 = broughtAlways (pre ++ post) := by
    intro q
    have := (split_allShape ⟨0, 0, 0⟩ [] rfl (pre ++ Conditional fn [.attr (.own n q)] :: post) ⟨fun _ => [], 1⟩).1
    refine this.trans ?_
    have happ : ∀ a b : List ONode, allDeclares [] (a ++ b) = allDeclares [] a ++ allDeclares [] b := by
      intro a b
      induction a with
      | nil => rfl
      | cons n a ih => simp only [List.cons_append, allDeclares, ih, List.append_assoc]
    simp only [broughtAlways, happ, allDeclares, declares, Conditional, condSplit, List.filter_append, List.map_append]
    simp
  have hC : ∀ q, (attributesAndContents (pre ++ Conditional fn [.attr (.own n q)] :: post)).2.2 =
      within pre ++ Conditional fn [.attr (.own n q)] :: within post := by
    intro q
    have := (split_allShape ⟨0, 0, 0⟩ [] rfl (pre ++ Conditional fn [.attr (.own n q)] :: post) ⟨fun _ => [], 1⟩).2.2
    refine this.trans ?_
    clear this hA hn hd
    induction pre with
    | nil => rfl
    | cons m pre ih => cases m <;> simp only [List.cons_append, within, ih]
  have hB : ∀ q, (attributesAndContents (pre ++ Conditional fn [.attr (.own n q)] :: post)).2.1.map (hideCond n) =
      (attributesAndContents (pre ++ Conditional fn [.attr (.own n (pure ()))] :: post)).2.1.map (hideCond n) := by
    intro q
    simp [attributesAndContents, split_list, splitItems, Conditional, condSplit, splitItem, OSplit.append, hideCond, hide]
  have hE : ∀ cs, Delimits n { (addAttributes (broughtAlways (pre ++ post)) ⟨name, [], [], []⟩ h.dl).1 with conditionals := cs } := by
    intro cs
    obtain ⟨hi, _, _⟩ := indexed_add n _ hd ⟨name, [], [], []⟩ h.dl ⟨by simp, by simp⟩
    have hk := keys_add (broughtAlways (pre ++ post)) [] ⟨name, [], [], []⟩ h.dl rfl
    rw [List.nil_append] at hk
    cases hl : (addAttributes (broughtAlways (pre ++ post)) ⟨name, [], [], []⟩ h.dl).1.attIndices.lookup n with
    | none =>
      exfalso
      have hm := (mem_distinct _ _).mpr hn
      rw [← hk] at hm
      obtain ⟨q, hq1, hq2⟩ := List.mem_map.mp hm
      have := List.lookup_eq_none_iff.mp hl q hq1
      simp [hq2] at this
    | some i =>
      obtain ⟨d, r, hdr⟩ := hi.delim i hl
      exact ⟨i, d, r, hl, hdr⟩
  have hT : ∀ cs cs' : List OCondAttr, cs.map (hideCond n) = cs'.map (hideCond n) →
      renderStartTag (addAttributes (broughtAlways (pre ++ post)) ⟨name, [], [], cs⟩ h.dl).1 =
        renderStartTag (addAttributes (broughtAlways (pre ++ post)) ⟨name, [], [], cs'⟩ h.dl).1 := by
    intro cs cs' hcs
    have e1 := congrArg Prod.fst (add_conditionals (broughtAlways (pre ++ post)) ⟨name, [], [], []⟩ cs h.dl)
    have e2 := congrArg Prod.fst (add_conditionals (broughtAlways (pre ++ post)) ⟨name, [], [], []⟩ cs' h.dl)
    simp only at e1 e2
    rw [e1, e2]
    simp only [renderStartTag]
    rw [renderAttributes_hide (hE cs), renderAttributes_hide (hE cs')]
    simp only [hcs]
  have hN : ∀ cs, (addAttributes (broughtAlways (pre ++ post)) ⟨name, [], [], cs⟩ h.dl).1.name = name := by
    intro cs
    exact (indexed_add n _ hd ⟨name, [], [], cs⟩ h.dl ⟨by simp, by simp⟩).2.1
  have hb := (hB p).trans (hB p').symm
  have hrec : renderProg fuel (Conditional fn [.attr (.own n p)]) = renderProg fuel (Conditional fn [.attr (.own n p')]) := by
    cases fuel <;> simp only [Conditional, condSplit, renderProg]
  constructor
  · simp only [NewElement, renderProg, hA, hC, hN]
    rw [hT _ _ hb, contents_hide hrec]
  · simp only [NewVoidElement, renderProg, hA]
    rw [hT _ _ hb]

end Aitch.Own

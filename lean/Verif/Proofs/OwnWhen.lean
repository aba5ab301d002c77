import Verif.Spec.OwnWhen
import Verif.Proofs.OwnElement
import Verif.Proofs.Split
/-
Elements with conditional attributes that have any `Render` methods.
-/
namespace Aitch.Own

open Aitch.Spec Aitch.Spec.Own

/-! ### Construction -/

/-- A node with boolean attributes for its attributes, and texts for what is no attribute or grouping. -/
def bool (a : OAttr) : Attr := .bool a.name

mutual
@[inherit_doc bool] def erase : ONode → Node
  | .attr a => .attr (bool a)
  | .collection ns => .collection (eraseAll ns)
  | .conditional ns as fn => .conditional (eraseAll ns) (as.map bool) fn
  | _ => .text []
@[inherit_doc bool] def eraseAll : List ONode → List Node
  | [] => []
  | n :: ns => erase n :: eraseAll ns
end

/-- The same of the results of `attributesAndContents`. -/
def eraseSplit (r : OSplit) : Split := ⟨r.attrs.map bool, r.condAttrs.map fun p => (bool p.1, p.2), eraseAll r.contents⟩

theorem eraseAll_append (a b : List ONode) : eraseAll (a ++ b) = eraseAll a ++ eraseAll b := by
  induction a with
  | nil => rfl
  | cons n a ih => simp only [List.cons_append, eraseAll, ih]

mutual
theorem split_erase (s : CondSlice) (n : ONode) (hp : CondHeap) :
    Aitch.splitItem s (erase n) hp = (eraseSplit (splitItem s n hp).1, (splitItem s n hp).2) := by
  cases n with
  | attr a => by_cases h : s.len > 0 <;> simp [splitItem, Aitch.splitItem, erase, eraseSplit, eraseAll, h]
  | collection ns =>
    have := split_eraseAll s ns hp
    simp only [erase, Aitch.splitItem, splitItem, this, eraseSplit, eraseAll]
  | conditional ns as fn =>
    have := split_eraseAll (condAppend s fn hp).1 ns (condAppend s fn hp).2
    simp only [erase, Aitch.splitItem, splitItem, this, eraseSplit, eraseAll, List.map_append, List.map_map, List.map_nil]
    rfl
  | _ => simp [splitItem, Aitch.splitItem, erase, eraseSplit, eraseAll]
theorem split_eraseAll (s : CondSlice) (ns : List ONode) (hp : CondHeap) :
    Aitch.splitItems s (eraseAll ns) hp = (eraseSplit (splitItems s ns hp).1, (splitItems s ns hp).2) := by
  cases ns with
  | nil => simp [splitItems, Aitch.splitItems, eraseAll, eraseSplit]
  | cons n ns =>
    simp only [eraseAll, Aitch.splitItems, splitItems, split_erase s n hp, split_eraseAll s ns, Split.append, eraseSplit,
      OSplit.append, List.map_append, eraseAll_append]
end

mutual
theorem declares_erase (cs : List Cond) (n : ONode) :
    Spec.declared cs (erase n) = (declares cs n).map fun p => (bool p.1, p.2) := by
  cases n with
  | collection ns => simp only [erase, Spec.declared, declares, declares_eraseAll cs ns]
  | conditional ns as fn =>
    simp only [erase, Spec.declared, declares, declares_eraseAll (cs ++ [fn]) ns, List.map_append, List.map_map]
    rfl
  | _ => simp [erase, Spec.declared, declares]
theorem declares_eraseAll (cs : List Cond) (ns : List ONode) :
    declaredAll cs (eraseAll ns) = (allDeclares cs ns).map fun p => (bool p.1, p.2) := by
  cases ns with
  | nil => rfl
  | cons n ns => simp only [eraseAll, declaredAll, allDeclares, declares_erase cs n, declares_eraseAll cs ns, List.map_append]
end

mutual
theorem count_erase (n : ONode) : condCount (erase n) = conditionals n := by
  cases n with
  | collection ns => simp only [erase, condCount, conditionals, count_eraseAll ns]
  | _ => rfl
theorem count_eraseAll (ns : List ONode) : condCountAll (eraseAll ns) = allConditionals ns := by
  cases ns with
  | nil => rfl
  | cons n ns => simp only [eraseAll, condCountAll, allConditionals, count_erase n, count_eraseAll ns]
end

mutual
theorem apart_erase (k : Nat) (n : ONode) (h : Apart k n) : Separate k (erase n) := by
  cases n with
  | collection ns => exact apart_eraseAll k ns h
  | conditional ns as fn =>
    obtain ⟨h1, h2⟩ := h
    exact ⟨by rwa [count_eraseAll], apart_eraseAll (k + 1) ns h2⟩
  | _ => trivial
theorem apart_eraseAll (k : Nat) (ns : List ONode) (h : AllApart k ns) : SeparateAll k (eraseAll ns) := by
  cases ns with
  | nil => trivial
  | cons n ns => exact ⟨apart_erase k n h.1, apart_eraseAll k ns h.2⟩
end

mutual
theorem levels_erase (n : ONode) : condDepth (erase n) = levels n := by
  cases n with
  | collection ns => simp only [erase, condDepth, levels, levels_eraseAll ns]
  | conditional ns as fn => simp only [erase, condDepth, levels, levels_eraseAll ns]
  | _ => rfl
theorem levels_eraseAll (ns : List ONode) : condDepthAll (eraseAll ns) = allLevels ns := by
  cases ns with
  | nil => rfl
  | cons n ns => simp only [eraseAll, condDepthAll, allLevels, levels_erase n, levels_eraseAll ns]
end

mutual
theorem apart_of_erase (k : Nat) (n : ONode) (h : Separate k (erase n)) : Apart k n := by
  cases n with
  | collection ns => exact apart_of_eraseAll k ns h
  | conditional ns as fn =>
    obtain ⟨h1, h2⟩ := h
    exact ⟨by rwa [count_eraseAll] at h1, apart_of_eraseAll (k + 1) ns h2⟩
  | _ => trivial
theorem apart_of_eraseAll (k : Nat) (ns : List ONode) (h : SeparateAll k (eraseAll ns)) : AllApart k ns := by
  cases ns with
  | nil => trivial
  | cons n ns => exact ⟨apart_of_erase k n h.1, apart_of_eraseAll k ns h.2⟩
end

mutual
theorem declares_prefix (cs : List Cond) (n : ONode) (p : OAttr × List Cond) (hp : p ∈ declares cs n) : cs <+: p.2 := by
  cases n with
  | attr a => simp only [declares, List.mem_singleton] at hp; subst hp; exact List.prefix_refl _
  | collection ns => exact allDeclares_prefix cs ns p hp
  | conditional ns as fn =>
    simp only [declares, List.mem_append, List.mem_map] at hp
    rcases hp with ⟨a, _, rfl⟩ | hp
    · exact List.prefix_append _ _
    · exact (List.prefix_append _ _).trans (allDeclares_prefix (cs ++ [fn]) ns p hp)
  | _ => simp [declares] at hp
theorem allDeclares_prefix (cs : List Cond) (ns : List ONode) (p : OAttr × List Cond) (hp : p ∈ allDeclares cs ns) :
    cs <+: p.2 := by
  cases ns with
  | nil => simp [allDeclares] at hp
  | cons n ns =>
    simp only [allDeclares, List.mem_append] at hp
    rcases hp with hp | hp
    · exact declares_prefix cs n p hp
    · exact allDeclares_prefix cs ns p hp
end

mutual
theorem split_shape (s : CondSlice) (cs : List Cond) (hl : s.len = cs.length) (n : ONode) (hp : CondHeap) :
    (splitItem s n hp).1.attrs = ((declares cs n).filter fun p => p.2.isEmpty).map (·.1) ∧
    (splitItem s n hp).1.condAttrs.map (·.1) = ((declares cs n).filter fun p => !p.2.isEmpty).map (·.1) ∧
    (splitItem s n hp).1.contents = within [n] := by
  cases n with
  | attr a =>
    cases cs with
    | nil => simp at hl; simp [splitItem, declares, hl, within]
    | cons c cs => simp at hl; simp [splitItem, declares, hl, within]
  | collection ns =>
    have := split_allShape s cs hl ns hp
    simp [splitItem, declares, this, within]
  | conditional ns as fn =>
    have h1 := condAppend_len s fn hp
    have := split_allShape (condAppend s fn hp).1 (cs ++ [fn]) (by simp [h1, hl]) ns (condAppend s fn hp).2
    have hne : ((allDeclares (cs ++ [fn]) ns).filter fun p => p.2.isEmpty) = [] := by
      rw [List.filter_eq_nil_iff]
      intro p hp
      have := allDeclares_prefix (cs ++ [fn]) ns p hp
      rcases h : p.2 with _ | ⟨c, l⟩
      · rw [h] at this; simp at this
      · simp
    simp only [splitItem, declares, List.filter_append, List.map_append, List.map_map]
    refine ⟨?_, ?_, ?_⟩
    · rw [hne]
      simp
    · simp only [this.2.1]
      congr 1
      rw [List.filter_eq_self.2]
      · simp
      · intro p hp
        simp only [List.mem_map] at hp
        obtain ⟨a, _, rfl⟩ := hp
        simp
    · simp [within]
  | _ => simp [splitItem, declares, within]
theorem split_allShape (s : CondSlice) (cs : List Cond) (hl : s.len = cs.length) (ns : List ONode) (hp : CondHeap) :
    (splitItems s ns hp).1.attrs = ((allDeclares cs ns).filter fun p => p.2.isEmpty).map (·.1) ∧
    (splitItems s ns hp).1.condAttrs.map (·.1) = ((allDeclares cs ns).filter fun p => !p.2.isEmpty).map (·.1) ∧
    (splitItems s ns hp).1.contents = within ns := by
  cases ns with
  | nil => simp [splitItems, allDeclares, within]
  | cons n ns =>
    have h1 := split_shape s cs hl n hp
    have h2 := split_allShape s cs hl ns (splitItem s n hp).2
    simp only [splitItems, OSplit.append, allDeclares, List.filter_append, List.map_append, h1, h2, true_and]
    cases n <;> simp [within]
end

theorem pairs_eq {α β : Type} {l m : List (α × β)} (h1 : l.map (·.1) = m.map (·.1)) (h2 : l.map (·.2) = m.map (·.2)) : l = m := by
  induction l generalizing m with
  | nil => cases m <;> simp_all
  | cons p l ih =>
    cases m with
    | nil => simp at h1
    | cons q m =>
      simp only [List.map_cons, List.cons.injEq] at h1 h2
      rw [ih h1.2 h2.2, Prod.ext h1.1 h2.1]

theorem split_apart (ns : List ONode) (h : AllApart 0 ns) :
    attributesAndContents ns = (broughtAlways ns, (broughtWhen ns).map (fun p => ⟨p.1, p.2⟩), within ns) := by
  obtain ⟨s1, s2, s3⟩ := split_allShape ⟨0, 0, 0⟩ [] rfl ns ⟨fun _ => [], 1⟩
  have hc := (splitItems_ok ⟨0, 0, 0⟩ [] rfl rfl (eraseAll ns) ⟨fun _ => [], 1⟩ (by simp) rfl (apart_eraseAll 0 ns h)
    (Or.inl (Or.inl rfl))).attrs
  rw [split_eraseAll, declares_eraseAll] at hc
  have hc := congrArg (List.map (·.2)) hc
  simp only [eraseSplit, List.map_map, List.filter_map] at hc
  have : (splitItems ⟨0, 0, 0⟩ ns ⟨fun _ => [], 1⟩).1.condAttrs.map
      (fun p => (p.1, (splitItems ⟨0, 0, 0⟩ ns ⟨fun _ => [], 1⟩).2.read p.2)) = broughtWhen ns := by
    refine pairs_eq ?_ ?_
    · rw [List.map_map]; exact s2
    · rw [List.map_map]; exact hc
  rw [← this]
  simp only [attributesAndContents, s1, s3, List.map_map]
  rfl

theorem keys_add (as : List OAttr) : ∀ (ps : List OAttr) (e : OHead) (dl : Nat → List Value),
    e.attIndices.map (·.1) = distinct (namesOf ps) →
      (addAttributes as e dl).1.attIndices.map (·.1) = distinct (namesOf (ps ++ as)) := by
  induction as with
  | nil => intro ps e dl h; simpa [addAttributes] using h
  | cons a as ih =>
    intro ps e dl h
    have hm : a.name ∈ namesOf ps ↔ a.name ∈ e.attIndices.map (·.1) := by rw [h, mem_distinct]
    have hsnoc : distinct (namesOf (ps ++ [a])) =
        if a.name ∈ namesOf ps then distinct (namesOf ps) else distinct (namesOf ps) ++ [a.name] := by
      simp only [namesOf, List.map_append, List.map_singleton]
      rw [distinct_snoc]
      congr
    rw [← List.singleton_append, ← List.append_assoc, List.singleton_append]
    cases hl : e.attIndices.lookup a.name with
    | none =>
      have hnot : a.name ∉ namesOf ps := by
        rw [hm]
        intro hc
        obtain ⟨p, hp, hq⟩ := List.mem_map.mp hc
        have := List.lookup_eq_none_iff.mp hl p hp
        simp [hq] at this
      simp only [addAttributes, hl]
      exact ih _ _ _ (by rw [hsnoc, if_neg hnot]; simp [h])
    | some i =>
      have hin : a.name ∈ namesOf ps := by
        rw [hm]
        exact List.mem_map.mpr ⟨_, mem_lookup hl, rfl⟩
      simp only [addAttributes, hl]
      split
      · exact ih _ _ _ (by rw [hsnoc, if_pos hin]; exact h)
      · exact ih _ _ _ (by rw [hsnoc, if_pos hin]; exact h)

/-! ### Evaluation -/

/-- The map of the attributes in effect. -/
def grouped (held : List OAttr) (es : List (Bytes × List OAttr)) : List (Bytes × List OAttr) :=
  held.foldl (fun es a => addEvaluated a.name a es) es

theorem evalConds_allHold (cs : List Cond) : evalConds cs = allHold cs := by
  induction cs with
  | nil => rfl
  | cons c cs ih => simp only [evalConds, allHold, ih]

theorem evaluate_holding {β : Type} (ws : List (OAttr × List Cond)) : ∀ (es : List (Bytes × List OAttr))
    (k : List (Bytes × List OAttr) → Prog β) (k' : List OAttr → Prog β),
    (∀ held, (∀ a ∈ held, a ∈ ws.map (·.1)) → k (grouped held es) = k' held) →
      (evaluate (ws.map fun p => ⟨p.1, p.2⟩) es).bind k = (holding ws).bind k' := by
  induction ws with
  | nil => intro es k k' h; exact h [] (by simp)
  | cons p ws ih =>
    intro es k k' h
    show ((evalConds p.2).bind fun b => _).bind k = ((allHold p.2).bind fun b => (holding ws).bind fun held => _).bind k'
    rw [bind_bind, bind_bind]
    rw [evalConds_allHold]
    refine bind_congr _ fun b => ?_
    rw [bind_bind]
    show (evaluate _ _).bind k = _
    cases b with
    | true =>
      exact ih _ _ _ fun held hh => h (p.1 :: held) (by
        intro a ha
        rcases List.mem_cons.mp ha with ha | ha
        · simp [ha]
        · exact List.mem_cons_of_mem _ (hh a ha))
    | false => exact ih _ _ _ fun held hh => h held fun a ha => List.mem_cons_of_mem _ (hh a ha)

theorem lookup_add (m : Bytes) (a : OAttr) (es : List (Bytes × List OAttr)) (n : Bytes) :
    (addEvaluated m a es).lookup n = if n = m then some ((es.lookup n).getD [] ++ [a]) else es.lookup n := by
  induction es with
  | nil => by_cases h : n = m <;> simp [addEvaluated, List.lookup_cons, h, beq_false_of_ne]
  | cons e es ih =>
    obtain ⟨x, l⟩ := e
    by_cases hx : x = m
    · subst hx
      by_cases h : n = x
      · simp [addEvaluated, h]
      · simp [addEvaluated, List.lookup_cons, h, beq_false_of_ne]
    · by_cases h : n = x
      · subst h; simp [addEvaluated, hx]
      · simp only [addEvaluated, hx, if_false, List.lookup_cons, beq_eq_false_iff_ne.mpr h, ih]

theorem keys_addEvaluated (m : Bytes) (a : OAttr) (es : List (Bytes × List OAttr)) :
    (addEvaluated m a es).map (·.1) = if m ∈ es.map (·.1) then es.map (·.1) else es.map (·.1) ++ [m] := by
  induction es with
  | nil => simp [addEvaluated]
  | cons e es ih =>
    obtain ⟨x, l⟩ := e
    by_cases hx : x = m
    · simp [addEvaluated, hx]
    · have : m ≠ x := fun h => hx h.symm
      simp only [addEvaluated, hx, if_false, List.map_cons, ih, List.mem_cons, this, false_or]
      split <;> simp

theorem lookup_grouped (held : List OAttr) (n : Bytes) : ∀ es : List (Bytes × List OAttr),
    (grouped held es).lookup n =
      if held.filter (fun a => a.name = n) = [] then es.lookup n
      else some ((es.lookup n).getD [] ++ held.filter fun a => a.name = n) := by
  induction held with
  | nil => intro es; simp [grouped]
  | cons a held ih =>
    intro es
    show (grouped held (addEvaluated a.name a es)).lookup n = _
    rw [ih, lookup_add]
    by_cases h : a.name = n
    · subst h
      simp
    · have h' : n ≠ a.name := fun k => h k.symm
      simp [h, h']

theorem keys_grouped (held : List OAttr) : ∀ (es : List (Bytes × List OAttr)) (l : List Bytes),
    es.map (·.1) = distinct l → (grouped held es).map (·.1) = distinct (l ++ namesOf held) := by
  induction held with
  | nil => intro es l h; simpa [grouped, namesOf] using h
  | cons a held ih =>
    intro es l h
    have := ih (addEvaluated a.name a es) (l ++ [a.name]) (by
      rw [keys_addEvaluated, h, distinct_snoc]
      simp only [mem_distinct])
    rw [List.append_assoc] at this
    exact this

/-! ### Rendering -/

theorem chosen_plain {x : OAttr} (hx : ∀ n d r, x ≠ .std (.delim n d r)) (ys : List OAttr) (l : OAttr) :
    renderChosen x ys l = renderAttr l := by
  cases x with
  | own n p => rfl
  | std a =>
    cases a with
    | delim n d r => exact absurd rfl (hx n d r)
    | _ => rfl

theorem statics_each {as held : List OAttr} {e : OHead} (K : Kept as e) (hd : ∀ n d r, OAttr.std (.delim n d r) ∉ as)
    (names : List Bytes) : renderStatics e (grouped held []) names =
      each (names.filterMap fun n => if n ∈ namesOf as then lastNamed n (as ++ held) else none) := by
  induction names with
  | nil => rfl
  | cons n names ih =>
    have hmem : n ∈ namesOf as ↔ n ∈ e.attributes.map OAttr.name := by rw [K.names, mem_distinct]; rfl
    rw [renderStatics, ih, List.filterMap_cons]
    unfold renderStatic
    cases hl : e.attIndices.lookup n with
    | none =>
      have : n ∉ namesOf as := fun h => K.missing n hl (hmem.mp h)
      rw [if_neg this]
      rfl
    | some i =>
      obtain ⟨x, hx1, hx2⟩ := K.found n i hl
      have hx := List.mem_of_getElem? hx1
      have hin : n ∈ namesOf as := hmem.mpr (List.mem_map.mpr ⟨x, hx, hx2⟩)
      have hlast := K.last x hx
      rw [hx2] at hlast
      have hxa : x ∈ as := List.mem_of_mem_filter (List.mem_of_getLast? hlast)
      rw [if_pos hin]
      simp only [hx1, lookup_grouped, lastNamed, List.filter_append, List.getLast?_append, hlast]
      by_cases hf : held.filter (fun a => a.name = n) = []
      · simp only [hf, if_true, List.lookup_nil, List.getLast?_nil, Option.none_or]
        rfl
      · simp only [if_neg hf, List.lookup_nil, Option.getD_none, List.nil_append]
        obtain ⟨y, hy⟩ : ∃ y, (held.filter fun a => a.name = n).getLast? = some y := by
          cases h : (held.filter fun a => a.name = n).getLast? with
          | none => exact absurd (List.getLast?_eq_none_iff.mp h) hf
          | some y => exact ⟨y, rfl⟩
        rw [chosen_plain (fun m d r h => hd m d r (h ▸ hxa)), hy]
        rfl

theorem extras_each {as held : List OAttr} {e : OHead} (K : Kept as e) (hd : ∀ n d r, OAttr.std (.delim n d r) ∉ held)
    (names : List Bytes) : renderExtras e (grouped held []) names =
      each (names.filterMap fun n => if n ∈ namesOf as then none else lastNamed n held) := by
  induction names with
  | nil => rfl
  | cons n names ih =>
    have hmem : n ∈ namesOf as ↔ n ∈ e.attributes.map OAttr.name := by rw [K.names, mem_distinct]; rfl
    rw [renderExtras, ih, List.filterMap_cons]
    unfold renderExtra
    cases hl : e.attIndices.lookup n with
    | some i =>
      obtain ⟨x, hx1, hx2⟩ := K.found n i hl
      have hin : n ∈ namesOf as := hmem.mpr (List.mem_map.mpr ⟨x, List.mem_of_getElem? hx1, hx2⟩)
      rw [if_pos hin]
      rfl
    | none =>
      have hnot : n ∉ namesOf as := fun h => K.missing n hl (hmem.mp h)
      rw [if_neg hnot, lookup_grouped]
      cases hf : held.filter (fun a => a.name = n) with
      | nil => simp only [lastNamed, hf, if_true]; rfl
      | cons y ys =>
        have hy : y ∈ held := List.mem_of_mem_filter (hf ▸ List.mem_cons_self)
        simp only [lastNamed, hf, reduceCtorEq, if_false, List.lookup_nil, Option.getD_none, List.nil_append]
        rw [chosen_plain (fun m d r h => hd m d r (h ▸ hy))]
        obtain ⟨z, hz⟩ : ∃ z, (y :: ys).getLast? = some z := ⟨_, List.getLast?_eq_some_getLast (by simp)⟩
        rw [hz]
        rfl

theorem renderAttributes_any {as : List OAttr} {ws : List (OAttr × List Cond)} {e : OHead} (K : Kept as e)
    (hk : e.attIndices.map (·.1) = distinct (namesOf as)) (hc : e.conditionals = ws.map fun p => ⟨p.1, p.2⟩)
    (hd : ∀ n d r, OAttr.std (.delim n d r) ∉ as) (hw : ∀ n d r, OAttr.std (.delim n d r) ∉ ws.map (·.1)) :
    renderAttributes e = attributesOf as ws := by
  have hs : renderAttrs e.attributes = each (lastDeclared as) := by rw [lastDeclared_of_kept K, renderAttrs_each]
  unfold renderAttributes attributesOf
  rw [hc]
  cases ws with
  | nil => exact hs
  | cons p ws =>
    rw [if_pos (by simp)]
    refine evaluate_holding (p :: ws) [] _ _ fun held hh => ?_
    have hd' : ∀ n d r, OAttr.std (.delim n d r) ∉ held := fun n d r h => hw n d r (hh _ h)
    have hkeys := keys_grouped held [] [] rfl
    rw [List.nil_append] at hkeys
    cases held with
    | nil => exact hs
    | cons a held =>
      have hl : (grouped (a :: held) []).length > 0 := by
        have : ((grouped (a :: held) []).map (·.1)).length > 0 := by rw [hkeys]; simp [namesOf, distinct]
        simpa using this
      simp only [if_pos hl, hk, hkeys, statics_each K hd, extras_each K hd']

theorem element_when (name : Bytes) (cs : List ONode) (hc : AllApart 0 cs)
    (hd : ∀ n d r, OAttr.std (.delim n d r) ∉ broughtAlways cs)
    (hw : ∀ n d r, OAttr.std (.delim n d r) ∉ (broughtWhen cs).map (·.1)) (h : Heap) (fuel : Nat) :
    renderProg (fuel + 1) (NewElement name cs h).1 = (do
      tagWhen name (broughtAlways cs) (broughtWhen cs)
      contentLoop (renderProg fuel) (within cs)
      endTag name) ∧
    renderProg (fuel + 1) (NewVoidElement name cs h).1 = (do
      tagWhen name (broughtAlways cs) (broughtWhen cs)
      retErr) := by
  obtain ⟨K, k2, k3, k4⟩ := kept_add (broughtAlways cs) hd []
    ⟨name, [], [], (broughtWhen cs).map fun p => ⟨p.1, p.2⟩⟩ h.dl ⟨rfl, by simp, by simp, by simp⟩
  have hk := keys_add (broughtAlways cs) [] ⟨name, [], [], (broughtWhen cs).map fun p => ⟨p.1, p.2⟩⟩ h.dl rfl
  rw [List.nil_append] at K hk
  simp only [NewElement, NewVoidElement, split_apart cs hc]
  simp only [renderProg, renderStartTag, k3, renderAttributes_any K hk k4 hd hw]
  exact ⟨rfl, rfl⟩

end Aitch.Own

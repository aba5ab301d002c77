import Verif.Proofs.Order
/-
For functions that only compute, playing a template is what `Out` says.
-/
namespace Aitch
open Spec

section
variable (P : Fns)

theorem within_self (c : Ctx) : within c c = c := rfl

theorem pure_dyn (c : Ctx) (d : Dyn) : playDyn P.effects c d = (dynBytes P c d, c) := by
  cases d <;> rfl

mutual
theorem pure_value : (v : Value) → (c : Ctx) → playValue P.effects v c = (valueBytes P c v, c)
  | .mk _ (some d) _, c => by simp only [playValue, valueBytes]; exact pure_dyn P c d
  | .mk v none [], c => by simp only [playValue, valueBytes]
  | .mk _ none (x :: xs), c => by simp only [playValue, valueBytes, pure_value x c, pure_values xs c]
theorem pure_values : (vs : List Value) → (c : Ctx) → playValues P.effects vs c = (valuesBytes P c vs, c)
  | [], c => by simp only [playValues, valuesBytes]
  | x :: xs, c => by simp only [playValues, valuesBytes, pure_value x c, pure_values xs c]
end

theorem pure_delim (d : Bytes) : (vs : List Value) → (c : Ctx) →
    playDelim P.effects d vs c = (delimJoin d (vs.map (valueBytes P c)), c)
  | [], c => rfl
  | [v], c => by simp only [playDelim, pure_value, List.map_cons, List.map_nil, delimJoin]
  | v :: v' :: vs, c => by
    simp only [playDelim, pure_value, pure_delim d (v' :: vs) c, List.map_cons, delimJoin]

theorem pure_attr (a : Attr) (c : Ctx) : playAttr P.effects a c = (Shown.bytes (shown P c a), c) := by
  cases a <;> simp [playAttr, shown, Spec.valued, pure_values, pure_delim]

theorem pure_merged (a e : Attr) (es : List Attr) (c : Ctx) : playMerged P.effects (a, e :: es) c =
    (Shown.bytes (shownMerged P c a (e :: es) ((e :: es).getLast (by simp))), c) := by
  cases a <;> simp [playMerged, shownMerged, Spec.valued, pure_delim, pure_attr]

theorem pure_alone (a : Attr) (c : Ctx) : playMerged P.effects (a, []) c = (Shown.bytes (shown P c a), c) := by
  simp [playMerged, pure_attr]

/-- What an attribute with its further declarations shows. -/
def shownOf (P : Fns) (c : Ctx) (p : Attr × List Attr) : Shown := shownMerged P c p.1 p.2 ((p.1 :: p.2).getLast (by simp))

theorem shownMerged_nil (c : Ctx) (a : Attr) : shownMerged P c a [] a = shown P c a := by
  cases a <;> simp [shownMerged, shown]

theorem pure_shownOf (p : Attr × List Attr) (c : Ctx) :
    playMerged P.effects p c = (Shown.bytes (shownOf P c p), c) := by
  obtain ⟨a, es⟩ := p
  cases es with
  | nil => rw [pure_alone]; simp [shownOf, shownMerged_nil]
  | cons e es => rw [pure_merged]; simp [shownOf]

theorem pure_list {α} (f : α → Ctx → Bytes × Ctx) (g : α → Shown) (c : Ctx) (h : ∀ x, f x c = (Shown.bytes (g x), c))
    (l : List α) : playList f l c = ((l.map g).flatMap Shown.bytes, c) := by
  induction l with
  | nil => rfl
  | cons x xs ih => simp only [playList, h, ih, List.map_cons, List.flatMap_cons]

theorem pure_cond (k : Cond) (c : Ctx) : playCond P.effects k c = (holds P c k, c) := by
  cases k <;> rfl

theorem pure_conds (ks : List Cond) (c : Ctx) : playConds P.effects ks c = (ks.all (holds P c), c) := by
  induction ks with
  | nil => rfl
  | cons k ks ih =>
    simp only [playConds, pure_cond, ih, List.all_cons]
    cases holds P c k <;> simp

theorem pure_active (as : List CondAttr) (c : Ctx) : playActive P.effects as c = (active P c as, c) := by
  induction as with
  | nil => rfl
  | cons a as ih =>
    simp only [playActive, pure_conds, ih, active, List.filter_cons]
    cases a.conditions.all (holds P c) <;> simp

theorem shownStatics_of (c : Ctx) (as act : List Attr) :
    (as.map fun a => (a, named a.name act)).map (shownOf P c) = shownStatics P c as act := by
  unfold shownStatics
  rw [List.map_map]
  apply List.map_congr_left
  intro a _
  simp only [Function.comp_apply, shownOf]
  cases named a.name act with
  | nil => simp [shownMerged_nil]
  | cons e es => simp

theorem shownExtras_of (c : Ctx) (as act : List Attr) :
    (extraDeclarations as act).map (shownOf P c) = shownExtras P c as act := by
  unfold shownExtras extraDeclarations
  rw [List.map_filterMap]
  congr 1
  funext n
  cases named n act with
  | nil => rfl
  | cons e es => rfl

theorem pure_tag (h : ElemHead) (c c' : Ctx) (w : Bytes) :
    PlaysTag P.effects h c w c' ↔ c' = c ∧ ∃ l, TagShows P c h l ∧ w = tagBytes h.name l := by
  unfold PlaysTag TagShows tagBytes
  rw [pure_active]
  simp only
  by_cases ha : active P c h.conditionals = []
  · simp only [ha, if_true, pure_list (playAttr P.effects) (shown P c) c (fun a => pure_attr P a c)]
    constructor
    · rintro ⟨rfl, rfl⟩; exact ⟨rfl, _, rfl, rfl⟩
    · rintro ⟨rfl, l, rfl, rfl⟩; exact ⟨rfl, rfl⟩
  · simp only [ha, if_false, pure_list (playMerged P.effects) (shownOf P c) c (fun a => pure_shownOf P a c)]
    constructor
    · rintro ⟨l₁, l₂, h1, h2, rfl, rfl⟩
      refine ⟨rfl, _, ⟨l₁.map (shownOf P c'), l₂.map (shownOf P c'), ?_, ?_, rfl⟩, by simp⟩
      · rw [← shownStatics_of]; exact h1.map _
      · rw [← shownExtras_of]; exact h2.map _
    · rintro ⟨rfl, _, ⟨l₁, l₂, h1, h2, rfl⟩, rfl⟩
      rw [← shownStatics_of] at h1
      rw [← shownExtras_of] at h2
      obtain ⟨k₁, p1, rfl⟩ := exists_perm_map _ _ _ h1
      obtain ⟨k₂, p2, rfl⟩ := exists_perm_map _ _ _ h2
      exact ⟨k₁, k₂, p1, p2, by simp⟩

theorem pure_items (fn : ItemSrc) (c : Ctx) : playItems P.effects fn c = (srcItems P c fn, c) := by
  cases fn <;> rfl

theorem pure_start (n : Bytes) (attrs : List (Option Node)) (c : Ctx) : playStart P.effects n attrs c =
    (tagBytes n ((startCollect c.dl attrs []).map fun (n, vs) => (n, vs.map (valuesBytes P c))), c) := by
  have h : ∀ p, playStarted P.effects p c = (Shown.bytes (p.1, p.2.map (valuesBytes P c)), c) := by
    rintro ⟨n, _ | vs⟩
    · rfl
    · simp [playStarted, Spec.valued, pure_values]
  simp only [playStart, pure_list (playStarted P.effects) _ c h, tagBytes]

theorem itemCtx_child (c : Ctx) {fr : Frame} (he : fr.err = none) (it : Any) (d : Option MapId) :
    itemCtx c fr it d = childCtx c it d := by
  unfold itemCtx childCtx; simp [he]

theorem backTo_child (c : Ctx) (it : Any) (d : Option MapId) : backTo c (childCtx c it d) = c := rfl

variable {P}

mutual
theorem out_of_plays : {n : Node} → {c c' : Ctx} → {w : Bytes} → Plays P.effects n c w c' → c' = c ∧ Out P c n w
  | _, _, _, _, .element ht ho => by
    obtain ⟨rfl, l, hl, rfl⟩ := (pure_tag P _ _ _ _).1 ht
    obtain ⟨rfl, h⟩ := outAll_of_plays ho
    exact ⟨rfl, .element hl h⟩
  | _, _, _, _, .voidElement ht => by
    obtain ⟨rfl, l, hl, rfl⟩ := (pure_tag P _ _ _ _).1 ht
    exact ⟨rfl, .voidElement hl⟩
  | _, _, _, _, .attr => by rw [pure_attr]; exact ⟨rfl, .attr⟩
  | _, _, _, _, .text => by rw [pure_values]; exact ⟨rfl, .text⟩
  | _, _, _, _, .comment => by rw [pure_values]; exact ⟨rfl, .comment⟩
  | _, _, _, _, .fragment => by rw [pure_values]; exact ⟨rfl, .fragment⟩
  | _, _, _, _, .pi => by rw [pure_values]; exact ⟨rfl, .pi⟩
  | _, _, _, _, .collection ho => by
    obtain ⟨rfl, h⟩ := outAll_of_plays ho
    exact ⟨rfl, .collection h⟩
  | _, _, _, _, .conditionalOn hb ho => by
    obtain ⟨hc, h⟩ := outAll_of_plays ho
    rw [pure_cond] at hb h hc
    subst hc
    exact ⟨rfl, .conditionalOn hb h⟩
  | _, _, _, _, .conditionalOff hb => by
    rw [pure_cond] at hb ⊢
    exact ⟨rfl, .conditionalOff hb⟩
  | _, _, _, _, .collector ho => by
    obtain ⟨rfl, h⟩ := outAll_of_plays ho
    exact ⟨rfl, .collector h⟩
  | _, _, _, _, .imperativeNil => ⟨rfl, .imperativeNil⟩
  | _, _, _, _, .imperative ho => by
    obtain ⟨rfl, h⟩ := outOps_of_plays ho _ rfl
    exact ⟨rfl, .imperative h⟩
  | _, _, _, _, .iterator ho => by
    obtain ⟨hc, h⟩ := outItems_of_plays ho rfl rfl
    rw [pure_items] at h hc
    subst hc
    exact ⟨rfl, .iterator h⟩
  | _, _, _, _, .yieldIterator ho => by
    obtain ⟨rfl, h⟩ := outYields_of_plays ho _ rfl rfl
    exact ⟨rfl, .yieldIterator h⟩
  | _, _, _, _, .document ho => by
    obtain ⟨rfl, h⟩ := outAll_of_plays ho
    exact ⟨rfl, .document h⟩
termination_by structural _ _ _ _ h => h
theorem outAll_of_plays : {ns : List Node} → {c c' : Ctx} → {w : Bytes} → PlaysAll P.effects ns c w c' →
    c' = c ∧ OutAll P c ns w
  | _, _, _, _, .nil => ⟨rfl, .nil⟩
  | _, _, _, _, .cons ho hos => by
    obtain ⟨rfl, h⟩ := out_of_plays ho
    obtain ⟨rfl, hs⟩ := outAll_of_plays hos
    exact ⟨rfl, .cons h hs⟩
termination_by structural _ _ _ _ h => h
theorem outItems_of_plays : {ns : List Node} → {d : Option MapId} → {its : List Any} → {c c' : Ctx} →
    {fr fr' : Frame} → {w : Bytes} → PlaysItems P.effects ns d its c fr w c' fr' → d = c.frame.data → fr.err = none →
    c' = c ∧ OutItems P c ns its w
  | _, _, _, _, _, _, _, _, .nil, _, _ => ⟨rfl, .nil⟩
  | _, _, _, c, _, _, _, _, .cons ho hos, hd, he => by
    obtain ⟨h1, h⟩ := outAll_of_plays ho
    rw [itemCtx_child c he] at h h1
    obtain ⟨h2, hs⟩ := outItems_of_plays hos hd (by rw [h1]; rfl)
    rw [h1, backTo_child] at hs h2
    subst hd
    exact ⟨h2, .cons h hs⟩
termination_by structural _ _ _ _ _ _ _ _ h => h
theorem outYields_of_plays : {ns : List Node} → {y : Yielding} → {c c' : Ctx} → {fr : Frame} → {w : Bytes} →
    PlaysYields P.effects ns y c fr w c' → (its : List Any) → y = yieldingOf its → fr.err = none →
    c' = c ∧ OutYields P c ns fr.data its w
  | _, _, _, _, _, _, .done, its, hy, _ => by
    cases its with
    | nil => exact ⟨rfl, .nil⟩
    | cons it its => simp [yieldingOf] at hy
  | _, _, c, _, _, _, .yield ho hos, its, hy, he => by
    cases its with
    | nil => simp [yieldingOf] at hy
    | cons it its =>
      simp only [yieldingOf, Yielding.yield.injEq] at hy
      obtain ⟨h1, h⟩ := outAll_of_plays ho
      rw [itemCtx_child c he] at h h1
      obtain ⟨h2, hs⟩ := outYields_of_plays hos its (by rw [hy.2]) (by rw [h1]; rfl)
      rw [h1, backTo_child] at hs h2
      rw [hy.1] at h hs
      exact ⟨h2, .cons h hs⟩
  | _, _, _, _, _, _, .act _, its, hy, _ => by cases its <;> simp [yieldingOf] at hy
  | _, _, _, _, _, _, .write _, its, hy, _ => by cases its <;> simp [yieldingOf] at hy
termination_by structural _ _ _ _ _ _ h => h
theorem outOps_of_plays : {p : Doing} → {stack : List Bytes} → {c c' : Ctx} → {w : Bytes} →
    PlaysDoing P.effects p stack c w c' → (ops : List ImpOp) → p = doingOf ops → c' = c ∧ OutOps P c ops stack w
  | _, _, _, _, _, .done, ops, h => by
    cases ops with
    | nil => exact ⟨rfl, .nil⟩
    | cons op ops => simp [doingOf] at h
  | _, _, _, _, _, .act _, ops, h => by cases ops <;> simp [doingOf] at h
  | _, _, _, _, _, .writeString ho, ops, h => by
    cases ops with
    | nil => simp [doingOf] at h
    | cons op ops =>
      simp only [doingOf, Doing.call.injEq] at h
      obtain ⟨hc, hr⟩ := outOps_of_plays ho ops (by rw [h.2])
      rw [← h.1]
      exact ⟨hc, .writeString hr⟩
  | _, _, _, _, _, .writeRaw ho, ops, h => by
    cases ops with
    | nil => simp [doingOf] at h
    | cons op ops =>
      simp only [doingOf, Doing.call.injEq] at h
      obtain ⟨hc, hr⟩ := outOps_of_plays ho ops (by rw [h.2])
      rw [← h.1]
      exact ⟨hc, .writeRaw hr⟩
  | _, _, _, _, _, .endNone ho, ops, h => by
    cases ops with
    | nil => simp [doingOf] at h
    | cons op ops =>
      simp only [doingOf, Doing.call.injEq] at h
      obtain ⟨hc, hr⟩ := outOps_of_plays ho ops (by rw [h.2])
      rw [← h.1]
      exact ⟨hc, .endNone hr⟩
  | _, _, _, _, _, .endSome ho, ops, h => by
    cases ops with
    | nil => simp [doingOf] at h
    | cons op ops =>
      simp only [doingOf, Doing.call.injEq] at h
      obtain ⟨hc, hr⟩ := outOps_of_plays ho ops (by rw [h.2])
      rw [← h.1]
      exact ⟨hc, .endSome hr⟩
  | _, _, _, _, _, .endAll ho, ops, h => by
    cases ops with
    | nil => simp [doingOf] at h
    | cons op ops =>
      simp only [doingOf, Doing.call.injEq] at h
      obtain ⟨hc, hr⟩ := outOps_of_plays ho ops (by rw [h.2])
      rw [← h.1]
      exact ⟨hc, .endAll hr⟩
  | _, _, _, _, _, .writeNodes hn ho, ops, h => by
    cases ops with
    | nil => simp [doingOf] at h
    | cons op ops =>
      simp only [doingOf, Doing.call.injEq] at h
      obtain ⟨hc, hr⟩ := outOps_of_plays ho ops (by rw [h.2])
      obtain ⟨h1, hn⟩ := outAll_of_plays hn
      rw [h1] at hr hc
      rw [← h.1]
      exact ⟨hc, .writeNodes hn hr⟩
  | _, _, _, _, _, .startVoid ho, ops, h => by
    cases ops with
    | nil => simp [doingOf] at h
    | cons op ops =>
      simp only [doingOf, Doing.call.injEq] at h
      obtain ⟨hc, hr⟩ := outOps_of_plays ho ops (by rw [h.2])
      rw [pure_start] at hr hc ⊢
      rw [← h.1]
      exact ⟨hc, .startVoid hr⟩
  | _, _, _, _, _, .start ho, ops, h => by
    cases ops with
    | nil => simp [doingOf] at h
    | cons op ops =>
      simp only [doingOf, Doing.call.injEq] at h
      obtain ⟨hc, hr⟩ := outOps_of_plays ho ops (by rw [h.2])
      rw [pure_start] at hr hc ⊢
      rw [← h.1]
      exact ⟨hc, .start hr⟩
termination_by structural _ _ _ _ _ h => h
end

mutual
theorem plays_of_out : {n : Node} → {c : Ctx} → {w : Bytes} → Out P c n w → Plays P.effects n c w c
  | _, _, _, .element hl ho => .element ((pure_tag P _ _ _ _).2 ⟨rfl, _, hl, rfl⟩) (playsAll_of_out ho)
  | _, _, _, .voidElement hl => .voidElement ((pure_tag P _ _ _ _).2 ⟨rfl, _, hl, rfl⟩)
  | .attr a, c, _, .attr => by have := @Plays.attr P.effects a c; rwa [pure_attr] at this
  | .text vs, c, _, .text => by have := @Plays.text P.effects vs c; rwa [pure_values] at this
  | .comment vs, c, _, .comment => by have := @Plays.comment P.effects vs c; rwa [pure_values] at this
  | .fragment vs, c, _, .fragment => by have := @Plays.fragment P.effects vs c; rwa [pure_values] at this
  | .pi n vs, c, _, .pi => by have := @Plays.pi P.effects n vs c; rwa [pure_values] at this
  | _, _, _, .collection ho => .collection (playsAll_of_out ho)
  | _, _, _, .conditionalOn hb ho =>
    .conditionalOn (by rw [pure_cond]; exact hb) (by rw [pure_cond]; exact playsAll_of_out ho)
  | .conditional ns as fn, c, _, .conditionalOff hb => by
    have := @Plays.conditionalOff P.effects ns as fn c (by rw [pure_cond]; exact hb)
    rwa [pure_cond] at this
  | _, _, _, .collector ho => .collector (playsAll_of_out ho)
  | _, _, _, .imperativeNil => .imperativeNil
  | _, _, _, .imperative ho => .imperative (playsDoing_of_out ho)
  | _, c, _, .iterator ho => by
    obtain ⟨fr', h⟩ := playsItems_of_out ho { err := none, data := none, cargo := .nil } rfl
    exact .iterator (fr := fr') (by rw [pure_items]; exact h)
  | _, _, _, .yieldIterator ho => .yieldIterator (playsYields_of_out ho _ rfl rfl)
  | _, _, _, .document ho => .document (playsAll_of_out ho)
termination_by structural _ _ _ h => h
theorem playsAll_of_out : {ns : List Node} → {c : Ctx} → {w : Bytes} → OutAll P c ns w → PlaysAll P.effects ns c w c
  | _, _, _, .nil => .nil
  | _, _, _, .cons ho hos => .cons (plays_of_out ho) (playsAll_of_out hos)
termination_by structural _ _ _ h => h
theorem playsItems_of_out : {ns : List Node} → {its : List Any} → {c : Ctx} → {w : Bytes} → OutItems P c ns its w →
    (fr : Frame) → fr.err = none → ∃ fr', PlaysItems P.effects ns c.frame.data its c fr w c fr'
  | _, _, _, _, .nil, fr, _ => ⟨fr, .nil⟩
  | _, _, c, _, .cons ho hos, fr, he => by
    have h := playsAll_of_out ho
    rw [← itemCtx_child c he] at h
    obtain ⟨fr', hs⟩ := playsItems_of_out hos (itemCtx c fr _ (itemData c.frame.data _)).frame he
    exact ⟨fr', .cons h hs⟩
termination_by structural _ _ _ _ h => h
theorem playsYields_of_out : {ns : List Node} → {d : Option MapId} → {its : List Any} → {c : Ctx} → {w : Bytes} →
    OutYields P c ns d its w → (fr : Frame) → fr.err = none → fr.data = d →
    PlaysYields P.effects ns (yieldingOf its) c fr w c
  | _, _, _, _, _, .nil, fr, _, _ => .done
  | _, d, it :: _, c, _, .cons ho hos, fr, he, hd => by
    have h := playsAll_of_out ho
    rw [← itemCtx_child c he] at h
    have hs := playsYields_of_out hos (itemCtx c fr it (itemData d it)).frame he rfl
    subst hd
    exact .yield h hs
termination_by structural _ _ _ _ _ h => h
theorem playsDoing_of_out : {ops : List ImpOp} → {stack : List Bytes} → {c : Ctx} → {w : Bytes} →
    OutOps P c ops stack w → PlaysDoing P.effects (doingOf ops) stack c w c
  | _, _, _, _, .nil => .done
  | _, _, _, _, .writeString ho => .writeString (playsDoing_of_out ho)
  | _, _, _, _, .writeRaw ho => .writeRaw (playsDoing_of_out ho)
  | _, _, _, _, .writeNodes hn ho => .writeNodes (playsAll_of_out hn) (playsDoing_of_out ho)
  | .start n true attrs :: ops, stack, c, _, .startVoid ho => by
    have h := playsDoing_of_out ho
    have := @PlaysDoing.startVoid P.effects n attrs (fun _ => doingOf ops) stack c _ _ (by rw [pure_start]; exact h)
    rw [pure_start] at this
    exact this
  | .start n false attrs :: ops, stack, c, _, .start ho => by
    have h := playsDoing_of_out ho
    have := @PlaysDoing.start P.effects n attrs (fun _ => doingOf ops) stack c _ _ (by rw [pure_start]; exact h)
    rw [pure_start] at this
    exact this
  | _, _, _, _, .endNone ho => .endNone (playsDoing_of_out ho)
  | _, _, _, _, .endSome ho => .endSome (playsDoing_of_out ho)
  | _, _, _, _, .endAll ho => .endAll (playsDoing_of_out ho)
termination_by structural _ _ _ _ h => h
end

end

end Aitch

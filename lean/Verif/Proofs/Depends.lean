import Verif.Spec.Depends
import Verif.Proofs.Blind
/-
What a node writes depends only on what it refers to.
-/
namespace Aitch
open Spec

section
variable {P : Fns} {R : List Ref} {c c' : Ctx}

/-- Everything that `n` refers to is in `R`. -/
abbrev Sub (l R : List Ref) : Prop := ∀ d ∈ l, d ∈ R

theorem Sub.left {a b R : List Ref} (h : Sub (a ++ b) R) : Sub a R := fun d hd => h d (List.mem_append_left _ hd)
theorem Sub.right {a b R : List Ref} (h : Sub (a ++ b) R) : Sub b R := fun d hd => h d (List.mem_append_right _ hd)
theorem Sub.flatMap {α : Type} {l : List α} {f : α → List Ref} {R : List Ref} (h : Sub (l.flatMap f) R) {a : α}
    (ha : a ∈ l) : Sub (f a) R := fun d hd => h d (List.mem_flatMap.2 ⟨a, ha, hd⟩)

theorem valuesRefs_append {vs ws : List Value} : valuesRefs (vs ++ ws) = valuesRefs vs ++ valuesRefs ws := by
  induction vs with
  | nil => rfl
  | cons v vs ih => simp [valuesRefs, ih]

theorem nodesRefs_mem {dl : Nat → List Value} {ns : List Node} (h : Sub (nodesRefs dl ns) R) {n : Node} (hn : n ∈ ns) :
    Sub (nodeRefs dl n) R := by
  induction ns with
  | nil => cases hn
  | cons m ns ih =>
    simp only [nodesRefs] at h
    cases hn with
    | head => exact h.left
    | tail _ hn => exact ih h.right hn

theorem nodesRefs_filter {dl : Nat → List Value} {ns : List Node} (p : Node → Bool) (h : Sub (nodesRefs dl ns) R) :
    Sub (nodesRefs dl (ns.filter p)) R := by
  induction ns with
  | nil => exact h
  | cons m ns ih =>
    simp only [nodesRefs] at h
    rw [List.filter_cons]
    split
    · simp only [nodesRefs]
      intro d hd
      rcases List.mem_append.1 hd with hd | hd
      · exact h.left d hd
      · exact ih h.right d hd
    · exact ih h.right

variable (S : SameUnder R c c')
include S

set_option linter.unusedSectionVars false in
mutual
theorem valueBytes_under : (v : Value) → ValueUses (Heeds P R) v → Sub (valueRefs v) R →
    valueBytes P c' v = valueBytes P c v
  | .mk _ (some (.user f)) _, h, _ => h c c' S
  | .mk _ (some (.key k)) _, _, hr => by
    simp only [valueBytes, dynBytes, S.data k (hr _ (by simp [valueRefs, dynRefs]))]
  | .mk _ (some .cargo) _, _, hr => by
    simp only [valueBytes, dynBytes, S.cargo (hr _ (by simp [valueRefs, dynRefs]))]
  | .mk _ none [], _, _ => rfl
  | .mk _ none (x :: xs), h, hr => by
    simp only [valueRefs, valuesRefs] at hr
    simp only [valueBytes]
    rw [valueBytes_under x h.1 hr.left, valuesBytes_under xs h.2 hr.right]
theorem valuesBytes_under : (vs : List Value) → ValuesUse (Heeds P R) vs → Sub (valuesRefs vs) R →
    valuesBytes P c' vs = valuesBytes P c vs
  | [], _, _ => rfl
  | v :: vs, h, hr => by
    simp only [valuesRefs] at hr
    simp only [valuesBytes]
    rw [valueBytes_under v h.1 hr.left, valuesBytes_under vs h.2 hr.right]
end

theorem map_valueBytes_under {vs : List Value} (h : ValuesUse (Heeds P R) vs) (hr : Sub (valuesRefs vs) R) :
    vs.map (valueBytes P c') = vs.map (valueBytes P c) := by
  induction vs with
  | nil => rfl
  | cons v vs ih =>
    simp only [valuesRefs] at hr
    rw [List.map_cons, List.map_cons, valueBytes_under S v h.1 hr.left, ih h.2 hr.right]

theorem holds_under {k : Cond} (h : CondUses (Heeds P R) k) (hr : Sub (condRefs k) R) : holds P c' k = holds P c k := by
  cases k with
  | user f => exact h c c' S
  | has k => simp only [holds, S.data k (hr _ (by simp [condRefs]))]
  | hasNot k => simp only [holds, S.data k (hr _ (by simp [condRefs]))]

/-- The delimited attributes in use hold such functions only. -/
abbrev UsesAt (P : Fns) (R : List Ref) (c : Ctx) : Nat → Prop := fun r => ValuesUse (Heeds P R) (c.dl r)

theorem shown_under {a : Attr} (h : AttrUses (Heeds P R) (UsesAt P R c) a) (hr : Sub (attrRefs c.dl a) R) :
    shown P c' a = shown P c a := by
  cases a with
  | plain n vs => simp only [shown, valuesBytes_under S vs h hr]
  | bool n => rfl
  | delim n d r => simp only [shown, S.attributes, map_valueBytes_under S h hr]

omit S in
theorem values_under {a : Attr} (h : AttrUses (Heeds P R) (UsesAt P R c) a) (hr : Sub (attrRefs c.dl a) R) :
    ValuesUse (Heeds P R) (Attr.values c.dl a) ∧ Sub (valuesRefs (Attr.values c.dl a)) R := by
  cases a with
  | plain n vs => exact ⟨h, hr⟩
  | bool n => exact ⟨trivial, hr⟩
  | delim n d r => exact ⟨h, hr⟩

omit S in
theorem flatMap_values_under {as : List Attr}
    (h : ∀ a ∈ as, AttrUses (Heeds P R) (UsesAt P R c) a ∧ Sub (attrRefs c.dl a) R) :
    ValuesUse (Heeds P R) (as.flatMap (Attr.values c.dl)) ∧ Sub (valuesRefs (as.flatMap (Attr.values c.dl))) R := by
  induction as with
  | nil => exact ⟨trivial, by simp [Sub, valuesRefs]⟩
  | cons a as ih =>
    have h1 := values_under (h a (.head _)).1 (h a (.head _)).2
    have h2 := ih fun b hb => h b (.tail _ hb)
    rw [List.flatMap_cons, valuesUse_append, valuesRefs_append]
    refine ⟨⟨h1.1, h2.1⟩, fun d hd => ?_⟩
    rcases List.mem_append.1 hd with hd | hd
    · exact h1.2 d hd
    · exact h2.2 d hd

theorem shownMerged_under {a : Attr} {more : List Attr} {last : Attr}
    (ha : AttrUses (Heeds P R) (UsesAt P R c) a ∧ Sub (attrRefs c.dl a) R)
    (hm : ∀ b ∈ more, AttrUses (Heeds P R) (UsesAt P R c) b ∧ Sub (attrRefs c.dl b) R)
    (hl : AttrUses (Heeds P R) (UsesAt P R c) last ∧ Sub (attrRefs c.dl last) R) :
    shownMerged P c' a more last = shownMerged P c a more last := by
  cases a with
  | delim n d r =>
    have h2 := flatMap_values_under hm
    have h3 : ValuesUse (Heeds P R) (c.dl r ++ more.flatMap (Attr.values c.dl)) := valuesUse_append.2 ⟨ha.1, h2.1⟩
    have h4 : Sub (valuesRefs (c.dl r ++ more.flatMap (Attr.values c.dl))) R := by
      rw [valuesRefs_append]
      intro d hd
      rcases List.mem_append.1 hd with hd | hd
      · exact ha.2 d hd
      · exact h2.2 d hd
    simp only [shownMerged, S.attributes, map_valueBytes_under S h3 h4]
  | plain n vs => exact shown_under S hl.1 hl.2
  | bool n => exact shown_under S hl.1 hl.2

theorem active_under {cas : List CondAttr}
    (h : ∀ ca ∈ cas, ∀ k ∈ ca.conditions, CondUses (Heeds P R) k ∧ Sub (condRefs k) R) :
    active P c' cas = active P c cas := by
  unfold active
  congr 1
  apply List.filter_congr
  intro ca hca
  rw [Bool.eq_iff_iff]
  simp only [List.all_eq_true]
  exact forall_congr' fun k => forall_congr' fun hk => by rw [holds_under S (h ca hca k hk).1 (h ca hca k hk).2]

theorem tagShows_under {h : ElemHead} (hu : HeadUses (Heeds P R) (UsesAt P R c) h) (hr : Sub (headRefs c.dl h) R)
    {l : List Shown} : TagShows P c' h l ↔ TagShows P c h l := by
  have hs : ∀ a ∈ h.attributes, AttrUses (Heeds P R) (UsesAt P R c) a ∧ Sub (attrRefs c.dl a) R :=
    fun a ha => ⟨hu.1 a ha, hr.left.flatMap ha⟩
  have hc : ∀ ca ∈ h.conditionals, AttrUses (Heeds P R) (UsesAt P R c) ca.att ∧ Sub (attrRefs c.dl ca.att) R :=
    fun ca ha => ⟨(hu.2 ca ha).1, (hr.right.flatMap ha).left⟩
  have ha : active P c' h.conditionals = active P c h.conditionals :=
    active_under S fun ca hca k hk => ⟨(hu.2 ca hca).2 k hk, (hr.right.flatMap hca).right.flatMap hk⟩
  have hact : ∀ a ∈ active P c h.conditionals, AttrUses (Heeds P R) (UsesAt P R c) a ∧ Sub (attrRefs c.dl a) R := by
    intro a ha
    obtain ⟨ca, hca, rfl⟩ := active_mem ha
    exact hc ca hca
  have hnamed : ∀ n, ∀ a ∈ named n (active P c h.conditionals),
      AttrUses (Heeds P R) (UsesAt P R c) a ∧ Sub (attrRefs c.dl a) R :=
    fun n a ha => hact a (List.mem_filter.1 ha).1
  have h1 : h.attributes.map (shown P c') = h.attributes.map (shown P c) :=
    List.map_congr_left fun a ha => shown_under S (hs a ha).1 (hs a ha).2
  have h2 : shownStatics P c' h.attributes (active P c h.conditionals) =
      shownStatics P c h.attributes (active P c h.conditionals) := by
    unfold shownStatics
    apply List.map_congr_left
    intro a ha
    have hn := hnamed a.name
    revert hn
    cases named a.name (active P c h.conditionals) with
    | nil => intro _; exact shown_under S (hs a ha).1 (hs a ha).2
    | cons e es => intro hn; exact shownMerged_under S (hs a ha) hn (hn _ (List.getLast_mem _))
  have h3 : shownExtras P c' h.attributes (active P c h.conditionals) =
      shownExtras P c h.attributes (active P c h.conditionals) := by
    unfold shownExtras
    congr 1
    funext n
    have hn := hnamed n
    revert hn
    cases named n (active P c h.conditionals) with
    | nil => intro _; rfl
    | cons e es =>
      intro hn
      simp only [Option.some.injEq]
      exact shownMerged_under S (hn e (.head _)) (fun b hb => hn b (.tail _ hb)) (hn _ (List.getLast_mem _))
  unfold TagShows
  simp only [ha, h1, h2, h3]

omit S in
theorem Spec.SameUnder.symm (S : SameUnder R c c') : SameUnder R c' c :=
  ⟨fun k hk => (S.data k hk).symm, fun k hk m => (S.maps k hk m).symm, fun h => (S.cargo h).symm, S.attributes.symm⟩

theorem Spec.SameUnder.child (it : Any) (d d' : Option MapId)
    (hd : ∀ k, .key k ∈ R → (childCtx c' it d').lookup k = (childCtx c it d).lookup k) :
    SameUnder R (childCtx c it d) (childCtx c' it d') :=
  ⟨hd, S.maps, fun _ => rfl, S.attributes⟩

theorem Spec.SameUnder.item (it : Any) :
    SameUnder R (childCtx c it (itemData c.frame.data it)) (childCtx c' it (itemData c'.frame.data it)) := by
  refine S.child it _ _ fun k hk => ?_
  have h1 : ∀ m, (childCtx c' it (some m)).lookup k = (childCtx c it (some m)).lookup k := fun m => S.maps k hk m
  cases it with
  | map m => exact h1 m
  | _ => exact S.data k hk

theorem Spec.SameUnder.yielded (it : Any) (d : Option MapId) :
    SameUnder R (childCtx c it (itemData d it)) (childCtx c' it (itemData d it)) := by
  refine S.child it _ _ fun k hk => ?_
  cases h : itemData d it with
  | none => rfl
  | some m => exact S.maps k hk m

end

section
variable {P : Fns} {R : List Ref}

mutual
theorem out_under : {c : Ctx} → {n : Node} → {w : Bytes} → Out P c n w → {c' : Ctx} → SameUnder R c c' →
    NodeUses (Heeds P R) (UsesAt P R c) n → Sub (nodeRefs c.dl n) R → Out P c' n w
  | _, _, _, .element h1 h2, _, S, hu, hr =>
    .element ((tagShows_under S hu.1 (by simp only [nodeRefs] at hr; exact hr.left)).2 h1)
      (outAll_under h2 S hu.2 (by simp only [nodeRefs] at hr; exact hr.right))
  | _, _, _, .voidElement h1, _, S, hu, hr => .voidElement ((tagShows_under S hu hr).2 h1)
  | _, _, _, .attr, _, S, hu, hr => by rw [← shown_under S hu hr]; exact .attr
  | _, _, _, .text, _, S, hu, hr => by rw [← valuesBytes_under S _ hu hr]; exact .text
  | _, _, _, .comment, _, S, hu, hr => by rw [← valuesBytes_under S _ hu hr]; exact .comment
  | _, _, _, .fragment, _, S, hu, hr => by rw [← valuesBytes_under S _ hu hr]; exact .fragment
  | _, _, _, .pi, _, S, hu, hr => by rw [← valuesBytes_under S _ hu hr]; exact .pi
  | _, _, _, .collection h1, _, S, hu, hr =>
    .collection (outAll_under h1 S (nodesUse_filter _ hu) (nodesRefs_filter _ hr))
  | _, _, _, .conditionalOn h1 h2, _, S, hu, hr =>
    .conditionalOn ((holds_under S hu.1 (by simp only [nodeRefs] at hr; exact hr.left)).trans h1)
      (outAll_under h2 S hu.2 (by simp only [nodeRefs] at hr; exact hr.right))
  | _, _, _, .conditionalOff h1, _, S, hu, hr =>
    .conditionalOff ((holds_under S hu.1 (by simp only [nodeRefs] at hr; exact hr.left)).trans h1)
  | _, _, _, .collector _, _, _, hu, _ => hu.elim
  | _, _, _, .imperativeNil, _, _, _, _ => .imperativeNil
  | _, _, _, .imperative _, _, _, hu, _ => by cases hu
  | c, _, _, .iterator (fn := src) h1, c', S, hu, hr => by
    simp only [nodeRefs] at hr
    have ih := outItems_under h1 S hu.2 hr.right
    clear h1
    refine .iterator ?_
    have : srcItems P c' src = srcItems P c src := by
      cases src with
      | user f => exact hu.1 c c' S
      | key k =>
        have := S.data k (hr _ (by simp [srcRefs]))
        simp only [srcItems, keyItems, this]
    rw [this]; exact ih
  | c, _, _, .yieldIterator (f := f) h1, c', S, hu, hr => by
    have ih := outYields_under h1 S hu.2 hr
    clear h1
    refine .yieldIterator ?_
    have : P.yields f c' = P.yields f c := hu.1 c c' S
    rw [this]; exact ih
  | _, _, _, .document (prologue := none) h1, _, S, hu, hr => .document (outAll_under h1 S hu hr)
  | _, _, _, .document (prologue := some _) h1, _, S, hu, hr => .document (outAll_under h1 S ⟨hu.1, hu.2⟩ hr)
theorem outAll_under : {c : Ctx} → {ns : List Node} → {w : Bytes} → OutAll P c ns w → {c' : Ctx} → SameUnder R c c' →
    NodesUse (Heeds P R) (UsesAt P R c) ns → Sub (nodesRefs c.dl ns) R → OutAll P c' ns w
  | _, _, _, .nil, _, _, _, _ => .nil
  | _, _, _, .cons h1 h2, _, S, hu, hr =>
    .cons (out_under h1 S hu.1 (by simp only [nodesRefs] at hr; exact hr.left))
      (outAll_under h2 S hu.2 (by simp only [nodesRefs] at hr; exact hr.right))
theorem outItems_under : {c : Ctx} → {ns : List Node} → {its : List Any} → {w : Bytes} → OutItems P c ns its w →
    {c' : Ctx} → SameUnder R c c' → NodesUse (Heeds P R) (UsesAt P R c) ns → Sub (nodesRefs c.dl ns) R →
    OutItems P c' ns its w
  | _, _, _, _, .nil, _, _, _, _ => .nil
  | _, _, _, _, .cons h1 h2, _, S, hu, hr => .cons (outAll_under h1 (S.item _) hu hr) (outItems_under h2 S hu hr)
theorem outYields_under : {c : Ctx} → {ns : List Node} → {d : Option MapId} → {its : List Any} → {w : Bytes} →
    OutYields P c ns d its w → {c' : Ctx} → SameUnder R c c' → NodesUse (Heeds P R) (UsesAt P R c) ns →
    Sub (nodesRefs c.dl ns) R → OutYields P c' ns d its w
  | _, _, _, _, _, .nil, _, _, _, _ => .nil
  | _, _, _, _, _, .cons h1 h2, _, S, hu, hr =>
    .cons (outAll_under h1 (S.yielded _ _) hu hr) (outYields_under h2 S hu hr)
end

end

theorem out_sameUnder {P : Fns} {R : List Ref} {c c' : Ctx} (S : SameUnder R c c') {n : Node}
    (hu : HeedsOnly P R c.dl n) (hr : Sub (nodeRefs c.dl n) R) {w : Bytes} : Out P c n w ↔ Out P c' n w := by
  refine ⟨fun h => out_under h S hu hr, fun h => out_under h S.symm ?_ ?_⟩
  · have : UsesAt P R c' = fun r => ValuesUse (Heeds P R) (c.dl r) := by funext r; rw [UsesAt, S.attributes]
    rw [this]; exact hu
  · rw [S.attributes]; exact hr

/-! ### Monotonicity of `NodeUses` -/

section
variable {q q' : Action → Prop} {ρ ρ' : Nat → Prop} (hq : ∀ a, q a → q' a) (hρ : ∀ r, ρ r → ρ' r)
include hq

set_option linter.unusedSectionVars false in
mutual
theorem valueUses_mono : (v : Value) → ValueUses q v → ValueUses q' v
  | .mk _ (some (.user _)) _, h => hq _ h
  | .mk _ (some (.key _)) _, _ => trivial
  | .mk _ (some .cargo) _, _ => trivial
  | .mk _ none cs, h => by simp only [ValueUses] at h ⊢; exact valuesUse_mono cs h
theorem valuesUse_mono : (vs : List Value) → ValuesUse q vs → ValuesUse q' vs
  | [], _ => trivial
  | v :: vs, h => ⟨valueUses_mono v h.1, valuesUse_mono vs h.2⟩
end

theorem condUses_mono {k : Cond} (h : CondUses q k) : CondUses q' k := by
  cases k with
  | user f => exact hq _ h
  | has _ => trivial
  | hasNot _ => trivial

include hρ

theorem attrUses_mono {a : Attr} (h : AttrUses q ρ a) : AttrUses q' ρ' a := by
  cases a with
  | plain n vs => exact valuesUse_mono hq vs h
  | bool n => trivial
  | delim n d r => exact hρ r h

theorem headUses_mono {h : ElemHead} (hu : HeadUses q ρ h) : HeadUses q' ρ' h :=
  ⟨fun a ha => attrUses_mono hq hρ (hu.1 a ha), fun ca hca => ⟨attrUses_mono hq hρ (hu.2 ca hca).1,
    fun k hk => condUses_mono hq ((hu.2 ca hca).2 k hk)⟩⟩

set_option linter.unusedSectionVars false in
mutual
theorem nodeUses_mono : (n : Node) → NodeUses q ρ n → NodeUses q' ρ' n
  | .element _ ns, hu => ⟨headUses_mono hq hρ hu.1, nodesUse_mono ns hu.2⟩
  | .voidElement h, hu => headUses_mono (h := h) hq hρ hu
  | .attr a, hu => attrUses_mono (a := a) hq hρ hu
  | .text vs, hu => valuesUse_mono hq vs hu
  | .comment vs, hu => valuesUse_mono hq vs hu
  | .fragment vs, hu => valuesUse_mono hq vs hu
  | .pi _ vs, hu => valuesUse_mono hq vs hu
  | .collection ns, hu => nodesUse_mono ns hu
  | .conditional ns _ _, hu => ⟨condUses_mono hq hu.1, nodesUse_mono ns hu.2⟩
  | .iterator ns (.user _), hu => ⟨hq _ hu.1, nodesUse_mono ns hu.2⟩
  | .iterator ns (.key _), hu => ⟨trivial, nodesUse_mono ns hu.2⟩
  | .yieldIterator ns _, hu => ⟨hq _ hu.1, nodesUse_mono ns hu.2⟩
  | .document none ns, hu => nodesUse_mono ns hu
  | .document (some p) ns, hu => ⟨nodeUses_mono p hu.1, nodesUse_mono ns hu.2⟩
  | .collector _, hu => hu
  | .imperative _, hu => hu
theorem nodesUse_mono : (ns : List Node) → NodesUse q ρ ns → NodesUse q' ρ' ns
  | [], _ => trivial
  | n :: ns, hu => ⟨nodeUses_mono n hu.1, nodesUse_mono ns hu.2⟩
end

end

theorem heedsOnly_of_callbackFree {P : Fns} {R : List Ref} {dl : Nat → List Value} {n : Node} (h : CallbackFree dl n) :
    HeedsOnly P R dl n :=
  nodeUses_mono (fun _ h => h.elim) (fun _ h => valuesUse_mono (fun _ h => h.elim) _ h) n h

end Aitch

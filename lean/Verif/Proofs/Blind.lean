import Verif.Spec.Memory
import Verif.Proofs.Element
/-
What a node writes depends only on the delimited attributes that occur in it.
-/
namespace Aitch
open Spec

section
variable {P : Fns} {c : Ctx} {dl : Nat → List Value} {ρ : Nat → Prop}

mutual
theorem valueBytes_blind : (v : Value) → ValueUses (Blind P) v → valueBytes P (withDl c dl) v = valueBytes P c v
  | .mk _ (some (.user f)) _, h => h c dl
  | .mk _ (some (.key _)) _, _ => rfl
  | .mk _ (some .cargo) _, _ => rfl
  | .mk _ none [], _ => rfl
  | .mk _ none (x :: xs), h => by
    simp only [valueBytes]
    rw [valueBytes_blind x h.1, valuesBytes_blind xs h.2]
theorem valuesBytes_blind : (vs : List Value) → ValuesUse (Blind P) vs →
    valuesBytes P (withDl c dl) vs = valuesBytes P c vs
  | [], _ => rfl
  | v :: vs, h => by
    simp only [valuesBytes]
    rw [valueBytes_blind v h.1, valuesBytes_blind vs h.2]
end

theorem map_valueBytes_blind {vs : List Value} (h : ValuesUse (Blind P) vs) :
    vs.map (valueBytes P (withDl c dl)) = vs.map (valueBytes P c) := by
  induction vs with
  | nil => rfl
  | cons v vs ih => rw [List.map_cons, List.map_cons, valueBytes_blind v h.1, ih h.2]

theorem holds_blind {k : Cond} (h : CondUses (Blind P) k) : holds P (withDl c dl) k = holds P c k := by
  cases k with
  | user f => exact h c dl
  | has _ => rfl
  | hasNot _ => rfl

/-- The two memories agree on the attributes `ρ`, which hold blind functions only. -/
structure Agree (P : Fns) (c : Ctx) (dl : Nat → List Value) (ρ : Nat → Prop) : Prop where
  same : ∀ r, ρ r → dl r = c.dl r
  uses : HeapUses (Blind P) ρ c.dl

variable (A : Agree P c dl ρ)
include A

theorem shown_blind {a : Attr} (h : AttrUses (Blind P) ρ a) : shown P (withDl c dl) a = shown P c a := by
  cases a with
  | plain n vs => simp only [shown, valuesBytes_blind vs h]
  | bool n => rfl
  | delim n d r =>
    simp only [shown]
    have : (withDl c dl).dl r = c.dl r := A.same r h
    rw [this, map_valueBytes_blind (A.uses r h)]

theorem values_blind {a : Attr} (h : AttrUses (Blind P) ρ a) :
    Attr.values (withDl c dl).dl a = Attr.values c.dl a ∧ ValuesUse (Blind P) (Attr.values c.dl a) := by
  cases a with
  | plain n vs => exact ⟨rfl, h⟩
  | bool n => exact ⟨rfl, trivial⟩
  | delim n d r => exact ⟨A.same r h, A.uses r h⟩

theorem flatMap_values_blind {as : List Attr} (h : ∀ a ∈ as, AttrUses (Blind P) ρ a) :
    as.flatMap (Attr.values (withDl c dl).dl) = as.flatMap (Attr.values c.dl) ∧
      ValuesUse (Blind P) (as.flatMap (Attr.values c.dl)) := by
  induction as with
  | nil => exact ⟨rfl, trivial⟩
  | cons a as ih =>
    have h1 := values_blind A (h a (.head _))
    have h2 := ih fun b hb => h b (.tail _ hb)
    refine ⟨?_, ?_⟩
    · rw [List.flatMap_cons, List.flatMap_cons, h1.1, h2.1]
    · rw [List.flatMap_cons, valuesUse_append]; exact ⟨h1.2, h2.2⟩

theorem shownMerged_blind {a : Attr} {more : List Attr} {last : Attr} (ha : AttrUses (Blind P) ρ a)
    (hm : ∀ b ∈ more, AttrUses (Blind P) ρ b) (hl : AttrUses (Blind P) ρ last) :
    shownMerged P (withDl c dl) a more last = shownMerged P c a more last := by
  cases a with
  | delim n d r =>
    have h1 := values_blind A (a := .delim n d r) ha
    have h2 := flatMap_values_blind A hm
    simp only [shownMerged]
    rw [h2.1]
    have : (withDl c dl).dl r = c.dl r := A.same r ha
    rw [this, map_valueBytes_blind (vs := c.dl r ++ _) (valuesUse_append.2 ⟨h1.2, h2.2⟩)]
  | plain n vs => exact shown_blind A hl
  | bool n => exact shown_blind A hl

omit A in
theorem active_blind {cas : List CondAttr} (h : ∀ ca ∈ cas, ∀ k ∈ ca.conditions, CondUses (Blind P) k) :
    active P (withDl c dl) cas = active P c cas := by
  unfold active
  congr 1
  apply List.filter_congr
  intro ca hca
  rw [Bool.eq_iff_iff]
  simp only [List.all_eq_true]
  exact forall_congr' fun k => forall_congr' fun hk => by rw [holds_blind (h ca hca k hk)]

theorem tagShows_blind {h : ElemHead} (hu : HeadUses (Blind P) ρ h) {l : List Shown} :
    TagShows P (withDl c dl) h l ↔ TagShows P c h l := by
  have ha : active P (withDl c dl) h.conditionals = active P c h.conditionals :=
    active_blind fun ca hca => (hu.2 ca hca).2
  have hact : ∀ a ∈ active P c h.conditionals, AttrUses (Blind P) ρ a := by
    intro a ha
    obtain ⟨ca, hca, rfl⟩ := active_mem ha
    exact (hu.2 ca hca).1
  have hnamed : ∀ n, ∀ a ∈ named n (active P c h.conditionals), AttrUses (Blind P) ρ a :=
    fun n a ha => hact a (List.mem_filter.1 ha).1
  have h1 : h.attributes.map (shown P (withDl c dl)) = h.attributes.map (shown P c) :=
    List.map_congr_left fun a ha => shown_blind A (hu.1 a ha)
  have h2 : shownStatics P (withDl c dl) h.attributes (active P c h.conditionals) =
      shownStatics P c h.attributes (active P c h.conditionals) := by
    unfold shownStatics
    apply List.map_congr_left
    intro a ha
    have hn := hnamed a.name
    revert hn
    cases named a.name (active P c h.conditionals) with
    | nil => intro _; exact shown_blind A (hu.1 a ha)
    | cons e es => intro hn; exact shownMerged_blind A (hu.1 a ha) hn (hn _ (List.getLast_mem _))
  have h3 : shownExtras P (withDl c dl) h.attributes (active P c h.conditionals) =
      shownExtras P c h.attributes (active P c h.conditionals) := by
    unfold shownExtras
    congr 1
    funext n
    have hn := hnamed n
    revert hn
    cases named n (active P c h.conditionals) with
    | nil => intro _; rfl
    | cons e es =>
      intro hn
      simp only [Option.some.injEq]
      exact shownMerged_blind A (hn e (.head _)) (fun b hb => hn b (.tail _ hb)) (hn _ (List.getLast_mem _))
  unfold TagShows
  simp only [ha, h1, h2, h3]

omit A in
theorem Agree.child (A : Agree P c dl ρ) (it : Any) (d : Option MapId) : Agree P (childCtx c it d) dl ρ :=
  ⟨A.same, A.uses⟩

end

theorem Agree.symm {P : Fns} {c : Ctx} {dl : Nat → List Value} {ρ : Nat → Prop} (A : Agree P c dl ρ) :
    Agree P (withDl c dl) c.dl ρ :=
  ⟨fun r hr => (A.same r hr).symm, fun r hr => by
    have := A.uses r hr
    rw [← A.same r hr] at this
    exact this⟩

theorem nodesUse_filter {q : Action → Prop} {ρ : Nat → Prop} {ns : List Node} (p : Node → Bool) (h : NodesUse q ρ ns) :
    NodesUse q ρ (ns.filter p) :=
  (nodesUse_iff _).2 fun m hm => (nodesUse_iff ns).1 h m (List.mem_filter.1 hm).1

section
variable {P : Fns} {ρ : Nat → Prop} {dl : Nat → List Value}

mutual
theorem out_blind : {c : Ctx} → {n : Node} → {w : Bytes} → Out P c n w → Agree P c dl ρ → NodeUses (Blind P) ρ n →
    Out P (withDl c dl) n w
  | _, _, _, .element h1 h2, A, hu => .element ((tagShows_blind A hu.1).2 h1) (outAll_blind h2 A hu.2)
  | _, _, _, .voidElement h1, A, hu => .voidElement ((tagShows_blind A hu).2 h1)
  | _, _, _, .attr, A, hu => by rw [← shown_blind A hu]; exact .attr
  | c, _, _, .text, _, hu => by rw [← valuesBytes_blind (c := c) (dl := dl) _ hu]; exact .text
  | c, _, _, .comment, _, hu => by rw [← valuesBytes_blind (c := c) (dl := dl) _ hu]; exact .comment
  | c, _, _, .fragment, _, hu => by rw [← valuesBytes_blind (c := c) (dl := dl) _ hu]; exact .fragment
  | c, _, _, .pi, _, hu => by rw [← valuesBytes_blind (c := c) (dl := dl) _ hu]; exact .pi
  | _, _, _, .collection h1, A, hu => .collection (outAll_blind h1 A (nodesUse_filter _ hu))
  | _, _, _, .conditionalOn h1 h2, A, hu => .conditionalOn ((holds_blind hu.1).trans h1) (outAll_blind h2 A hu.2)
  | _, _, _, .conditionalOff h1, _, hu => .conditionalOff ((holds_blind hu.1).trans h1)
  | _, _, _, .collector _, _, hu => hu.elim
  | _, _, _, .imperativeNil, _, _ => .imperativeNil
  | _, _, _, .imperative _, _, hu => by cases hu
  | c, _, _, .iterator (fn := src) h1, A, hu => by
    have ih := outItems_blind h1 A hu.2
    clear h1
    refine .iterator ?_
    have : srcItems P (withDl c dl) src = srcItems P c src := by
      cases src with
      | user f => exact hu.1 c dl
      | key k => rfl
    rw [this]; exact ih
  | c, _, _, .yieldIterator (f := f) h1, A, hu => by
    have ih := outYields_blind h1 A hu.2
    clear h1
    refine .yieldIterator ?_
    have : P.yields f (withDl c dl) = P.yields f c := hu.1 c dl
    rw [this]; exact ih
  | _, _, _, .document (prologue := none) h1, A, hu => .document (outAll_blind h1 A hu)
  | _, _, _, .document (prologue := some _) h1, A, hu => .document (outAll_blind h1 A ⟨hu.1, hu.2⟩)
theorem outAll_blind : {c : Ctx} → {ns : List Node} → {w : Bytes} → OutAll P c ns w → Agree P c dl ρ →
    NodesUse (Blind P) ρ ns → OutAll P (withDl c dl) ns w
  | _, _, _, .nil, _, _ => .nil
  | _, _, _, .cons h1 h2, A, hu => .cons (out_blind h1 A hu.1) (outAll_blind h2 A hu.2)
theorem outItems_blind : {c : Ctx} → {ns : List Node} → {its : List Any} → {w : Bytes} → OutItems P c ns its w →
    Agree P c dl ρ → NodesUse (Blind P) ρ ns → OutItems P (withDl c dl) ns its w
  | _, _, _, _, .nil, _, _ => .nil
  | _, _, _, _, .cons h1 h2, A, hu => .cons (outAll_blind h1 (A.child _ _) hu) (outItems_blind h2 A hu)
theorem outYields_blind : {c : Ctx} → {ns : List Node} → {d : Option MapId} → {its : List Any} → {w : Bytes} →
    OutYields P c ns d its w → Agree P c dl ρ → NodesUse (Blind P) ρ ns → OutYields P (withDl c dl) ns d its w
  | _, _, _, _, _, .nil, _, _ => .nil
  | _, _, _, _, _, .cons h1 h2, A, hu => .cons (outAll_blind h1 (A.child _ _) hu) (outYields_blind h2 A hu)
end

end

/-- Memory of attributes that do not occur in the node is irrelevant. -/
theorem out_withDl {P : Fns} {ρ : Nat → Prop} {c : Ctx} {dl : Nat → List Value} {n : Node} {w : Bytes}
    (A : Agree P c dl ρ) (hu : NodeUses (Blind P) ρ n) : Out P (withDl c dl) n w ↔ Out P c n w :=
  ⟨fun h => out_blind (c := withDl c dl) (dl := c.dl) h A.symm hu, fun h => out_blind h A hu⟩

end Aitch

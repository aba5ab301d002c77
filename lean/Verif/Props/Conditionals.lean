import Verif.Proofs.Laws
import Verif.Proofs.Element
import Verif.Proofs.Leaf
import Verif.Proofs.Unique
import Verif.Spec.Sample
/-
C16, C18, C20: conditional content, When, determinism.
-/
namespace Aitch.Props
open Spec

theorem out_conditional {P : Fns} {c : Ctx} {ns : List Node} {as : List Attr} {fn : Cond} {w : Bytes} :
    Out P c (.conditional ns as fn) w ↔ if holds P c fn then OutAll P c ns w else w = [] := by
  constructor
  · intro h
    cases h with
    | conditionalOn h1 h2 => rw [if_pos h1]; exact h2
    | conditionalOff h1 => rw [if_neg (by simp [h1])]
  · intro h
    split at h
    · rename_i h1; exact .conditionalOn h1 h
    · rename_i h1; subst h; exact .conditionalOff (by simpa using h1)

section
variable {P : Fns} (F : BuiltFns P) (c : Ctx) (he : c.frame.err = none) (nodes : List Node) (hb : ∀ n ∈ nodes, Built n)
include F he hb

theorem renders_mkConditional {fn : Cond} {n : Node} (hn : mkConditional fn (nodes.map some) = .val n) (b : Built n)
    (w : Bytes) : Renders P c n w ↔ if holds P c fn then RendersAll P c (nonAttrs nodes) w else w = [] := by
  simp only [mkConditional, condSplit_some, Result.val.injEq] at hn
  subst hn
  rw [b.renders_iff F he, out_conditional, rendersAll_iff F he fun n hn => hb n (nonAttrs_mem hn)]

/-! ### C16 — conditional content is rendered iff its condition holds -/

/-- `Conditional(fn, nodes...)` never panics on non-nil nodes, and renders the nodes that are no attributes, in order, if
`fn` returns true, and nothing otherwise. -/
theorem C16_conditional (f : FnId) : ∃ n, Conditional (some f) (nodes.map some) = .val n ∧
    ∀ w, Renders P c n w ↔ if P.cond f c then RendersAll P c (nonAttrs nodes) w else w = [] := by
  have hn : Conditional (some f) (nodes.map some) = .val (.conditional (nonAttrs nodes)
      (attrsIn nodes) (.user f)) := by
    simp only [Conditional, mkConditional, condSplit_some]
  exact ⟨_, hn, renders_mkConditional F c he nodes hb hn
    (.conditional (some f) (nodes.map some) _ (fun n hn => hb n (by simpa using hn)) hn)⟩

omit F he hb in
example := C16_conditional Sample.built Sample.ctx rfl [Text (fun _ => []) [.str b%"a"], NewBooleanAttribute b%"x"]
  (by simpa using ⟨.text _ _, .newBooleanAttribute _⟩) 0

/-- A collection renders its nodes that are no attributes, in order. -/
theorem C16_collection (w : Bytes) :
    Renders P c (Collection (nodes.map some)) w ↔ RendersAll P c (nonAttrs nodes) w := by
  rw [(Built.collection (nodes.map some) (fun n hn => hb n (by simpa using hn))).renders_iff F he,
    rendersAll_iff F he fun n hn => hb n (nonAttrs_mem hn)]
  have : Collection (nodes.map some) = .collection nodes := by simp [Collection, List.filterMap_map]
  rw [this]
  constructor
  · intro h; cases h; assumption
  · exact .collection

omit F he hb in
example := (C16_collection Sample.built Sample.ctx rfl [Text (fun _ => []) [.str b%"a"], NewBooleanAttribute b%"x"]
  (by simpa using ⟨.text _ _, .newBooleanAttribute _⟩) b%"a").1
  ⟨Sample.env, Sample.healthy, Sample.computes, Sample.st, _, rfl, ⟨2, rfl⟩, rfl⟩

/-! ### C18 — When truth table and complement -/

/-- The data has key `k` and its value is not the boolean `false`. -/
def Truthy (c : Ctx) (k : Bytes) : Prop :=
  ∃ m v, c.frame.data = some m ∧ (c.maps m).lookup k = some v ∧ v ≠ .bool false

omit F he hb nodes in
theorem holds_has (k : Bytes) : holds P c (.has k) = true ↔ Truthy c k := by
  have : holds P c (.has k) = true ↔ ∃ v, c.lookup k = some v ∧ v ≠ .bool false := by
    unfold holds
    simp only
    split
    · rename_i h; simp [h]
    · rename_i h; simp [h]
    · rename_i v hne h
      refine ⟨fun _ => ⟨v, h, ?_⟩, fun _ => rfl⟩
      rintro rfl
      exact hne rfl
  rw [this]
  unfold Truthy Ctx.lookup
  cases c.frame.data <;> simp

omit F he hb nodes in
theorem holds_hasNot (k : Bytes) : holds P c (.hasNot k) = true ↔ ¬ Truthy c k := by
  rw [← holds_has (P := P)]
  unfold holds
  simp only
  split <;> simp

/-- `When(k, nodes...)`, `k` not starting with `!`: the nodes iff `k` is truthy. -/
theorem C18_when (k : Bytes) (hk : k.head? ≠ some c%'!') : ∃ n, When k (nodes.map some) = .val n ∧
    ∀ w, Renders P c n w ↔ (Truthy c k ∧ RendersAll P c (nonAttrs nodes) w) ∨ (¬ Truthy c k ∧ w = []) := by
  have hn : When k (nodes.map some) = .val (.conditional (nonAttrs nodes)
      (attrsIn nodes) (.has k)) := by
    cases k with
    | nil => simp only [When, mkConditional, condSplit_some]
    | cons a k =>
      have : a ≠ c%'!' := by simpa using hk
      simp only [When, mkConditional, condSplit_some, if_neg this]
  refine ⟨_, hn, fun w => ?_⟩
  have hm : mkConditional (.has k) (nodes.map some) = .val (.conditional (nonAttrs nodes)
      (attrsIn nodes) (.has k)) := by
    simp only [mkConditional, condSplit_some]
  rw [renders_mkConditional F c he nodes hb hm
    (.when k (nodes.map some) _ (fun n hn => hb n (by simpa using hn)) hn)]
  by_cases ht : Truthy c k
  · rw [if_pos ((holds_has c k).2 ht)]; simp [ht]
  · rw [if_neg (fun h => ht ((holds_has c k).1 h))]; simp [ht]

omit F he hb in
example := C18_when Sample.built Sample.ctx rfl [Text (fun _ => []) [.str b%"a"]] (by simpa using .text _ _) b%"name"
  (by decide)

/-- `When("!"+k, nodes...)`: the nodes iff `k` is not truthy. -/
theorem C18_when_not (k : Bytes) : ∃ n, When (c%'!' :: k) (nodes.map some) = .val n ∧
    ∀ w, Renders P c n w ↔ (¬ Truthy c k ∧ RendersAll P c (nonAttrs nodes) w) ∨ (Truthy c k ∧ w = []) := by
  have hn : When (c%'!' :: k) (nodes.map some) = .val (.conditional (nonAttrs nodes)
      (attrsIn nodes) (.hasNot k)) := by
    simp only [When, mkConditional, condSplit_some, if_true]
  refine ⟨_, hn, fun w => ?_⟩
  have hm : mkConditional (.hasNot k) (nodes.map some) = .val (.conditional (nonAttrs nodes)
      (attrsIn nodes) (.hasNot k)) := by
    simp only [mkConditional, condSplit_some]
  rw [renders_mkConditional F c he nodes hb hm
    (.when _ (nodes.map some) _ (fun n hn => hb n (by simpa using hn)) hn)]
  by_cases ht : Truthy c k
  · rw [if_neg (fun h => (holds_hasNot c k).1 h ht)]; simp [ht]
  · rw [if_pos ((holds_hasNot c k).2 ht)]; simp [ht]

omit F he hb in
example := C18_when_not Sample.built Sample.ctx rfl [Text (fun _ => []) [.str b%"a"]] (by simpa using .text _ _) b%"off"

end

/-- `Conditional(nil, nodes...)` is `Collection(nodes...)`, also with nil nodes. -/
theorem C16_nil (nodes : List (Option Node)) : Conditional none nodes = .val (Collection nodes) := rfl

theorem mem_declared_conditional (cs : List Cond) (fn : Cond) (ns : List Node) (d : Attr × List Cond) :
    d ∈ declared cs (.conditional (nonAttrs ns) (attrsIn ns) fn) ↔ d ∈ declaredAll (cs ++ [fn]) ns := by
  rw [declared, List.mem_append]
  induction ns with
  | nil => simp [attrsIn, nonAttrs, declaredAll]
  | cons n ns ih =>
    rw [declaredAll, List.mem_append, ← ih]
    by_cases ha : n.isAttr = true
    · obtain ⟨a, rfl⟩ : ∃ a, n = .attr a := by cases n <;> first | exact ⟨_, rfl⟩ | cases ha
      have h1 : attrsIn (.attr a :: ns) = a :: attrsIn ns := rfl
      have h2 : nonAttrs (.attr a :: ns) = nonAttrs ns := rfl
      rw [h1, h2]
      simp [declared, or_assoc]
    · have h1 : attrsIn (n :: ns) = attrsIn ns := by cases n <;> first | rfl | exact absurd rfl ha
      have h2 : nonAttrs (n :: ns) = n :: nonAttrs ns := by simp [nonAttrs, ha]
      rw [h1, h2, declaredAll, List.mem_append]
      exact or_left_comm

/-- What a conditional brings to its element (the declarations that C17 speaks of): what its nodes bring, with its
condition after those around it. -/
theorem C17_declares (f : FnId) (nodes : List (Option Node)) {n : Node} (hn : Conditional (some f) nodes = .val n)
    (cs : List Cond) (d : Attr × List Cond) :
    d ∈ declared cs n ↔ d ∈ declaredAll (cs ++ [.user f]) (nodes.filterMap id) := by
  rw [mkConditional_eq (show mkConditional (.user f) nodes = .val n from hn)]
  exact mem_declared_conditional cs (.user f) (nodes.filterMap id) d

/-- The same for `When`, for a key and for a negated key. -/
theorem C17_declares_when (key : Bytes) (nodes : List (Option Node)) {n : Node} (hn : When key nodes = .val n)
    (cs : List Cond) (d : Attr × List Cond) :
    (key.head? ≠ some c%'!' → (d ∈ declared cs n ↔ d ∈ declaredAll (cs ++ [.has key]) (nodes.filterMap id))) ∧
    ∀ k, key = c%'!' :: k → (d ∈ declared cs n ↔ d ∈ declaredAll (cs ++ [.hasNot k]) (nodes.filterMap id)) := by
  refine ⟨fun hk => ?_, fun k hk => ?_⟩
  · have : mkConditional (.has key) nodes = .val n := by
      cases key with
      | nil => exact hn
      | cons a k =>
        have : a ≠ c%'!' := by simpa using hk
        simpa only [When, if_neg this] using hn
    rw [mkConditional_eq this]
    exact mem_declared_conditional cs _ (nodes.filterMap id) d
  · subst hk
    have : mkConditional (.hasNot k) nodes = .val n := hn
    rw [mkConditional_eq this]
    exact mem_declared_conditional cs _ (nodes.filterMap id) d

/-- A collection brings what its nodes bring. -/
theorem C17_declares_collection (nodes : List (Option Node)) (cs : List Cond) :
    declared cs (Collection nodes) = declaredAll cs (nodes.filterMap id) := by
  rw [Collection, declared]

example : ∃ n, Conditional (some 3) [some (NewBooleanAttribute b%"a"), some (Text (fun _ => []) [])] = .val n ∧
    (.bool b%"a", [.has b%"k", .user 3]) ∈ declared [.has b%"k"] n :=
  ⟨_, rfl, (C17_declares 3 [some (NewBooleanAttribute b%"a"), some (Text (fun _ => []) [])] rfl [.has b%"k"] _).2
    (.head _)⟩

/-- The attributes under a `When` follow the same table (C17 has the general form). -/
theorem C18_attribute {P : Fns} (F : BuiltFns P) (c : Ctx) (he : c.frame.err = none) (name k att : Bytes)
    (hk : k.head? ≠ some c%'!') (h : Heap) : ∃ n, When k [some (NewBooleanAttribute att)] = .val n ∧
    (Truthy c k → RendersExactly P c (NewVoidElement name [.node n] h).1 (tagBytes name [(att, none)])) ∧
    (¬ Truthy c k → RendersExactly P c (NewVoidElement name [.node n] h).1 (tagBytes name [])) := by
  have hn : When k [some (NewBooleanAttribute att)] = .val (.conditional [] [.bool att] (.has k)) := by
    cases k with
    | nil => rfl
    | cons a k =>
      have : a ≠ c%'!' := by simpa using hk
      simp only [When, if_neg this]; rfl
  have hb : ∀ n ∈ nodesIn [.node (.conditional [] [.bool att] (.has k))], Built n := by
    intro n hn'
    simp [nodesIn] at hn'; subst hn'
    exact .when k [some (NewBooleanAttribute att)] _ (by simp; exact .newBooleanAttribute att) hn
  have hout := fun w => (Built.newVoidElement name [.node (.conditional [] [.bool att] (.has k))] h hb).renders_iff
    (w := w) F he
  have hnode : (NewVoidElement name [.node (.conditional [] [.bool att] (.has k))] h).1 =
      .voidElement ⟨name, [], [], [⟨.bool att, [.has k]⟩]⟩ := rfl
  refine ⟨_, hn, fun ht w => ?_, fun ht w => ?_⟩
  · rw [hout, hnode]
    have hact : active P c [⟨.bool att, [.has k]⟩] = [.bool att] := by
      simp [active, (holds_has (P := P) c k).2 ht]
    constructor
    · intro ho
      cases ho with
      | voidElement hs =>
        simp only [TagShows, hact] at hs
        simp [shownStatics, shownExtras, distinct, named, Attr.name, shownMerged, shown] at hs
        rw [hs]
    · rintro rfl
      refine .voidElement (h := ⟨name, [], [], [⟨.bool att, [.has k]⟩]⟩) ?_
      simp only [TagShows, hact]
      simp [shownStatics, shownExtras, distinct, named, Attr.name, shownMerged, shown]
  · rw [hout, hnode]
    have hact : active P c [⟨.bool att, [.has k]⟩] = [] := by
      have : holds P c (.has k) = false := by
        rw [← Bool.not_eq_true]; exact fun h => ht ((holds_has c k).1 h)
      simp [active, this]
    constructor
    · intro ho
      cases ho with
      | voidElement hs =>
        simp [TagShows, hact] at hs
        rw [hs]
    · rintro rfl
      refine .voidElement (h := ⟨name, [], [], [⟨.bool att, [.has k]⟩]⟩) ?_
      simp [TagShows, hact]

example := C18_attribute Sample.built Sample.ctx rfl b%"input" b%"name" b%"checked" (by decide) .empty

example : Truthy Sample.ctx b%"name" ∧ ¬ Truthy Sample.ctx b%"off" ∧ ¬ Truthy Sample.ctx b%"none" := by
  refine ⟨⟨0, .str b%"<Bob>", rfl, rfl, by simp⟩, ?_, ?_⟩
  · rintro ⟨m, v, h1, h2, h3⟩
    simp [Sample.ctx] at h1; subst h1
    simp [Sample.ctx, Sample.maps, List.lookup] at h2
    exact h3 h2.symm
  · rintro ⟨m, v, h1, h2, h3⟩
    simp [Sample.ctx] at h1; subst h1
    simp [Sample.ctx, Sample.maps, List.lookup] at h2

/-! ### C20 — determinism (false in general) -/

/-- The full claim: a built node rendered in the same context always writes the same. -/
def C20_claim : Prop := ∀ (P : Fns) (c : Ctx) (n : Node) (w w' : Bytes), BuiltFns P → c.frame.err = none → Built n →
  Renders P c n w → Renders P c n w' → w = w'

/-- `<p a="..." b ...>` with `b` and `c` under a condition. -/
def twoConds : Node := (NewVoidElement b%"p"
  [.node (.conditional [] [.bool b%"b", .bool b%"c"] (.user 0)), .node (NewBooleanAttribute b%"a")] .empty).1

theorem built_twoConds : Built twoConds := by
  refine .newVoidElement _ _ _ fun n hn => ?_
  simp [nodesIn] at hn
  rcases hn with rfl | rfl
  · exact .conditional (some 0) [some (NewBooleanAttribute b%"b"), some (NewBooleanAttribute b%"c")] _
      (by simp; exact ⟨.newBooleanAttribute _, .newBooleanAttribute _⟩) rfl
  · exact .newBooleanAttribute _

theorem twoConds_renders : Renders Sample.fns Sample.ctx twoConds b%"<p a b c>" ∧
    Renders Sample.fns Sample.ctx twoConds b%"<p a c b>" :=
  ⟨⟨Sample.env, Sample.healthy, Sample.computes, Sample.st, _, rfl, ⟨1, rfl⟩, rfl⟩,
    ⟨{ Sample.env with order := fun _ ks => ks.reverse, order_perm := fun _ ks => List.reverse_perm ks },
      fun _ _ => rfl, ⟨fun _ _ => rfl, fun _ _ => rfl, fun _ _ => rfl, fun _ _ => rfl, fun _ _ => rfl, fun _ _ => makesCalls_impOf _⟩,
      Sample.st, _, rfl, ⟨1, rfl⟩, rfl⟩⟩

/-- The claim is false: Go's map order shows. -/
theorem C20_false : ¬ C20_claim := fun h =>
  absurd (h _ _ _ _ _ Sample.built rfl built_twoConds twoConds_renders.1 twoConds_renders.2) (by decide)

/-- What holds for all nodes: two renderings in the same context differ at most in the order of the attributes within
tags. -/
theorem C20_reordered_partial {P : Fns} (F : BuiltFns P) {c : Ctx} (he : c.frame.err = none) {n : Node} (b : Built n)
    {w w' : Bytes} (h : Renders P c n w) (h' : Renders P c n w') : Reordered w w' :=
  out_reordered ((b.renders_iff F he).1 h) ((b.renders_iff F he).1 h')

example : Reordered b%"<p a b c>" b%"<p a c b>" :=
  C20_reordered_partial Sample.built rfl built_twoConds twoConds_renders.1 twoConds_renders.2

/-- What holds for nodes without conditional attributes (other conditional content is allowed): the output is
determined. -/
theorem C20_unconditional_partial {P : Fns} (F : BuiltFns P) (F' : EveryHeadFns NoCondAttrs P) {c : Ctx}
    (he : c.frame.err = none) {n : Node} (b : Built n) (hn : EveryHead NoCondAttrs n)
    {w w' : Bytes} (h : Renders P c n w) (h' : Renders P c n w') : w = w' :=
  out_unique F' hn ((b.renders_iff F he).1 h) ((b.renders_iff F he).1 h')

example : EveryHead NoCondAttrs (NewElement b%"p" [.node (NewBooleanAttribute b%"a"),
    .node (.conditional [.text [.mk b%"t" none []]] [] (.user 0))] .empty).1 := by
  refine ⟨?_, ?_⟩
  · rfl
  · exact ⟨⟨trivial, trivial⟩, trivial⟩

example : EveryHeadFns NoCondAttrs Sample.fns := by
  refine ⟨fun f c n hn => ?_, fun f c ns n hn _ => ?_⟩
  · unfold Sample.fns at hn
    simp only at hn
    split at hn
    · simp at hn; subst hn; trivial
    · simp at hn
  · unfold Sample.fns at hn
    simp only at hn
    split at hn <;> simp at hn

end Aitch.Props

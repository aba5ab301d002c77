import Verif.Proofs.Leaf
import Verif.Proofs.Element
import Verif.Proofs.GenEval
import Verif.Spec.Swap
/-
What collections and conditionals write, by the arguments of their constructors.
-/
namespace Aitch
open Spec

theorem sameOutput_of_out {n₁ n₂ : Node} (b₁ : Built n₁) (b₂ : Built n₂)
    (h : ∀ P c w, Out P c n₁ w ↔ Out P c n₂ w) : SameOutput n₁ n₂ := by
  intro P c w F he
  rw [b₁.renders_iff F he, b₂.renders_iff F he]
  exact h P c w

theorem sameOutput_refl (n : Node) : SameOutput n n := fun _ _ _ _ _ => Iff.rfl

theorem sameOutput_symm {n₁ n₂ : Node} (h : SameOutput n₁ n₂) : SameOutput n₂ n₁ :=
  fun P c w F he => (h P c w F he).symm

theorem sameOutput_trans {n₁ n₂ n₃ : Node} (h : SameOutput n₁ n₂) (h' : SameOutput n₂ n₃) : SameOutput n₁ n₃ :=
  fun P c w F he => (h P c w F he).trans (h' P c w F he)

section
variable {P : Fns} {c : Ctx} {w : Bytes}

theorem contentNodes_append (ns ms : List (Option Node)) :
    contentNodes (ns ++ ms) = contentNodes ns ++ contentNodes ms := by
  simp [contentNodes]

theorem contentNodes_some {n : Node} (h : n.isAttr = false) (ns : List (Option Node)) :
    contentNodes (some n :: ns) = n :: contentNodes ns := by
  simp [contentNodes, h]

theorem out_collection {ns : List (Option Node)} : Out P c (Collection ns) w ↔ OutAll P c (contentNodes ns) w := by
  constructor
  · intro h
    cases h with
    | collection h => exact h
  · exact .collection

theorem condSplit_contents {nodes : List (Option Node)} {ns : List Node} {as : List Attr}
    (h : condSplit nodes = .val (ns, as)) : ns = contentNodes nodes ∧ as = attrsIn (nodes.filterMap id) := by
  induction nodes generalizing ns as with
  | nil => cases h; exact ⟨rfl, rfl⟩
  | cons n nodes ih =>
    cases n with
    | none => cases h
    | some n =>
      simp only [condSplit] at h
      cases e : condSplit nodes with
      | panic => rw [e] at h; cases h
      | val r =>
        rw [e] at h
        obtain ⟨i1, i2⟩ := ih (ns := r.1) (as := r.2) e
        cases n with
        | attr a =>
          cases h
          refine ⟨i1, ?_⟩
          show a :: r.2 = _
          rw [i2]; rfl
        | _ =>
          cases h
          refine ⟨?_, i2⟩
          rw [contentNodes_some rfl, i1]

theorem mkConditional_eq {fn : Cond} {nodes : List (Option Node)} {n : Node} (h : mkConditional fn nodes = .val n) :
    n = .conditional (contentNodes nodes) (attrsIn (nodes.filterMap id)) fn := by
  simp only [mkConditional] at h
  cases e : condSplit nodes with
  | panic => rw [e] at h; cases h
  | val r =>
    rw [e] at h
    obtain ⟨h1, h2⟩ := condSplit_contents (ns := r.1) (as := r.2) e
    cases h
    rw [h1, h2]

theorem out_mkConditional {fn : Cond} {nodes : List (Option Node)} {n : Node} (h : mkConditional fn nodes = .val n) :
    Out P c n w ↔ (holds P c fn = true ∧ OutAll P c (contentNodes nodes) w) ∨ (holds P c fn = false ∧ w = []) := by
  rw [mkConditional_eq h]
  constructor
  · intro h
    cases h with
    | conditionalOn h1 h2 => exact Or.inl ⟨h1, h2⟩
    | conditionalOff h1 => exact Or.inr ⟨h1, rfl⟩
  · rintro (⟨h1, h2⟩ | ⟨h1, rfl⟩)
    · exact .conditionalOn h1 h2
    · exact .conditionalOff h1

theorem mkConditional_isAttr {fn : Cond} {nodes : List (Option Node)} {n : Node} (h : mkConditional fn nodes = .val n) :
    n.isAttr = false := by
  rw [mkConditional_eq h]; rfl

/-- `When` makes a conditional. -/
theorem when_eq {key : Bytes} {nodes : List (Option Node)} {n : Node} (h : When key nodes = .val n) :
    ∃ fn, mkConditional fn nodes = .val n ∧ ∀ nodes', When key nodes' = mkConditional fn nodes' := by
  cases key with
  | nil => exact ⟨_, h, fun _ => rfl⟩
  | cons x key =>
    simp only [When] at h ⊢
    split at h
    · next hx => exact ⟨_, h, fun _ => by rw [if_pos hx]⟩
    · next hx => exact ⟨_, h, fun _ => by rw [if_neg hx]⟩

theorem iterSplit_contents {nodes : List (Option Node)} {ns : List Node} (h : iterSplit nodes = .val ns) :
    ns = contentNodes nodes := by
  induction nodes generalizing ns with
  | nil => cases h; rfl
  | cons n nodes ih =>
    cases n with
    | none => cases h
    | some n =>
      simp only [iterSplit] at h
      cases e : iterSplit nodes with
      | panic => rw [e] at h; cases h
      | val r =>
        rw [e] at h
        have ih := ih e
        simp only at h
        split at h
        · next ha => cases h; rw [ih]; simp [contentNodes, ha]
        · next ha => cases h; rw [ih, contentNodes_some (by simpa using ha)]

theorem outItems_congr {ns ms : List Node} (h : ∀ c w, OutAll P c ns w ↔ OutAll P c ms w) {its : List Any} :
    OutItems P c ns its w ↔ OutItems P c ms its w := by
  induction its generalizing w with
  | nil => constructor <;> (intro h; cases h; exact .nil)
  | cons it its ih =>
    constructor
    · intro ho
      cases ho with
      | cons h1 h2 => exact .cons ((h _ _).1 h1) (ih.1 h2)
    · intro ho
      cases ho with
      | cons h1 h2 => exact .cons ((h _ _).2 h1) (ih.2 h2)

theorem outYields_congr {ns ms : List Node} (h : ∀ c w, OutAll P c ns w ↔ OutAll P c ms w) {its : List Any}
    {d : Option MapId} : OutYields P c ns d its w ↔ OutYields P c ms d its w := by
  induction its generalizing w d with
  | nil => constructor <;> (intro h; cases h; exact .nil)
  | cons it its ih =>
    constructor
    · intro ho
      cases ho with
      | cons h1 h2 => exact .cons ((h _ _).1 h1) (ih.1 h2)
    · intro ho
      cases ho with
      | cons h1 h2 => exact .cons ((h _ _).2 h1) (ih.2 h2)

theorem outAll_collection {ns : List (Option Node)} (c : Ctx) (w : Bytes) :
    OutAll P c (contentNodes [some (Collection ns)]) w ↔ OutAll P c (contentNodes ns) w := by
  rw [contentNodes_some rfl]
  show OutAll P c [Collection ns] w ↔ _
  rw [outAll_one, out_collection]

end


theorem built_append {xs ys : List (Option Node)} (bx : ∀ n, some n ∈ xs → Built n) (by' : ∀ n, some n ∈ ys → Built n) :
    ∀ n, some n ∈ xs ++ ys → Built n := by
  intro n hn
  rcases List.mem_append.1 hn with h | h
  · exact bx n h
  · exact by' n h

theorem built_one {a : Node} (ha : Built a) : ∀ n, some n ∈ [some a] → Built n := by
  intro n hn
  simp only [List.mem_cons, Option.some.injEq, List.not_mem_nil, or_false] at hn
  exact hn ▸ ha

theorem built_two {a b : Node} (ha : Built a) (hb : Built b) : ∀ n, some n ∈ [some a, some b] → Built n := by
  intro n hn
  simp only [List.mem_cons, Option.some.injEq, List.not_mem_nil, or_false] at hn
  rcases hn with rfl | rfl
  · exact ha
  · exact hb

section
variable {P : Fns} {c : Ctx} {w : Bytes}

theorem out_collection_two {a b : Node} (ha : a.isAttr = false) (hb : b.isAttr = false) :
    Out P c (Collection [some a, some b]) w ↔ ∃ w₁ w₂, Out P c a w₁ ∧ Out P c b w₂ ∧ w = w₁ ++ w₂ := by
  rw [out_collection, contentNodes_some ha, contentNodes_some hb]
  show OutAll P c ([a] ++ [b]) w ↔ _
  rw [outAll_append]
  simp only [outAll_one]

theorem out_cond_split {fn : Cond} {xs ys : List (Option Node)} {n a b : Node}
    (hn : mkConditional fn (xs ++ ys) = .val n) (ha : mkConditional fn xs = .val a) (hb : mkConditional fn ys = .val b) :
    Out P c n w ↔ Out P c (Collection [some a, some b]) w := by
  rw [out_collection_two (mkConditional_isAttr ha) (mkConditional_isAttr hb)]
  simp only [out_mkConditional hn, out_mkConditional ha, out_mkConditional hb, contentNodes_append, outAll_append]
  cases holds P c fn <;> simp

theorem out_cond_cond {fn gn : Cond} {xs : List (Option Node)} {a n : Node}
    (ha : mkConditional gn xs = .val a) (hn : mkConditional fn [some a] = .val n) :
    Out P c n w ↔ ((holds P c fn && holds P c gn) = true ∧ OutAll P c (contentNodes xs) w) ∨
      ((holds P c fn && holds P c gn) = false ∧ w = []) := by
  rw [out_mkConditional hn, contentNodes_some (mkConditional_isAttr ha)]
  rw [show contentNodes [] = [] from rfl, outAll_one, out_mkConditional ha]
  cases holds P c fn <;> cases holds P c gn <;> simp

theorem out_iterator {ns : List Node} {fn : ItemSrc} :
    Out P c (.iterator ns fn) w ↔ OutItems P c ns (srcItems P c fn) w :=
  ⟨fun h => by cases h; assumption, .iterator⟩

theorem out_yieldIterator {ns : List Node} {f : FnId} :
    Out P c (.yieldIterator ns f) w ↔ OutYields P c ns none (P.yields f c) w :=
  ⟨fun h => by cases h; assumption, .yieldIterator⟩

theorem out_text {vs : List Value} : Out P c (.text vs) w ↔ w = valuesBytes P c vs :=
  ⟨fun h => by cases h; rfl, fun h => h ▸ .text⟩

end

end Aitch

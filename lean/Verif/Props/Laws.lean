import Verif.Proofs.Laws
import Verif.Proofs.Library
import Verif.Props.Swap
/-
C69 Templates can be rearranged: laws about collections, conditionals, iterations and texts.

`SameOutput n₁ n₂` says that both can write the same, in every context, for all functions that only compute.  With C60 one
side of a law can be replaced by the other anywhere inside a template.
-/
namespace Aitch
open Spec

namespace Props

/-- For the examples: a text. -/
def hello : Node := Text (fun _ => []) [.str b%"hello"]

theorem built_hello : Built hello := .text _ _

/-- And nodes with an attribute. -/
def helloNodes : List (Option Node) := [some (NewBooleanAttribute b%"x"), some hello]

theorem built_helloNodes : ∀ n, some n ∈ helloNodes → Built n := by
  intro n hn
  simp only [helloNodes, List.mem_cons, Option.some.injEq, List.not_mem_nil, or_false] at hn
  rcases hn with rfl | rfl
  · exact .newBooleanAttribute _
  · exact built_hello

/-- A collection within a collection can be spliced in, attributes included. -/
theorem C69_collection (xs ys zs : List (Option Node)) (bx : ∀ n, some n ∈ xs → Built n)
    (by' : ∀ n, some n ∈ ys → Built n) (bz : ∀ n, some n ∈ zs → Built n) :
    SameOutput (Collection (xs ++ some (Collection ys) :: zs)) (Collection (xs ++ ys ++ zs)) ∧
    declared [] (Collection (xs ++ some (Collection ys) :: zs)) = declared [] (Collection (xs ++ ys ++ zs)) := by
  refine ⟨sameOutput_of_out (.collection _ ?_) (.collection _ ?_) fun P c w => ?_, ?_⟩
  · intro n hn
    simp only [List.mem_append, List.mem_cons, Option.some.injEq] at hn
    rcases hn with hn | rfl | hn
    · exact bx n hn
    · exact .collection _ by'
    · exact bz n hn
  · intro n hn
    simp only [List.mem_append] at hn
    rcases hn with (hn | hn) | hn
    · exact bx n hn
    · exact by' n hn
    · exact bz n hn
  · rw [out_collection, out_collection, contentNodes_append, contentNodes_append, contentNodes_append,
      contentNodes_some rfl, List.append_assoc, outAll_append, outAll_append]
    refine exists_congr fun w₁ => exists_congr fun w₂ => and_congr Iff.rfl (and_congr ?_ Iff.rfl)
    rw [show Collection ys :: contentNodes zs = [Collection ys] ++ contentNodes zs from rfl, outAll_append, outAll_append]
    refine exists_congr fun w₁ => exists_congr fun w₂ => and_congr ?_ Iff.rfl
    rw [outAll_one, out_collection]
  · simp only [Collection, declared, List.filterMap_append, List.filterMap_cons, id_eq, declaredAll_append, declaredAll,
      List.append_assoc]


example := C69_collection helloNodes helloNodes [some hello] built_helloNodes built_helloNodes (built_one built_hello)

/-- The nodes of a conditional can be parted among two conditionals with the same function. -/
theorem C69_conditional_split (f : FnId) (xs ys : List (Option Node)) {n a b : Node}
    (bx : ∀ n, some n ∈ xs → Built n) (by' : ∀ n, some n ∈ ys → Built n)
    (hn : Conditional (some f) (xs ++ ys) = .val n) (ha : Conditional (some f) xs = .val a)
    (hb : Conditional (some f) ys = .val b) : SameOutput n (Collection [some a, some b]) := by
  refine sameOutput_of_out (.conditional _ _ _ (built_append bx by') hn) (.collection _ (built_two
    (.conditional _ _ _ bx ha) (.conditional _ _ _ by' hb))) fun P c w => ?_
  exact out_cond_split (fn := .user f) hn ha hb

example := C69_conditional_split 0 [some hello] helloNodes (built_one built_hello) built_helloNodes rfl rfl rfl

/-- The same for `When`. -/
theorem C69_when_split (key : Bytes) (xs ys : List (Option Node)) {n a b : Node}
    (bx : ∀ n, some n ∈ xs → Built n) (by' : ∀ n, some n ∈ ys → Built n)
    (hn : When key (xs ++ ys) = .val n) (ha : When key xs = .val a) (hb : When key ys = .val b) :
    SameOutput n (Collection [some a, some b]) := by
  refine sameOutput_of_out (.when _ _ _ (built_append bx by') hn) (.collection _ (built_two
    (.when _ _ _ bx ha) (.when _ _ _ by' hb))) fun P c w => ?_
  obtain ⟨fn, h1, h2⟩ := when_eq hn
  rw [h2] at ha hb
  exact out_cond_split h1 ha hb

example := C69_when_split b%"!name" [some hello] helloNodes (built_one built_hello) built_helloNodes rfl rfl rfl

/-- Conditionals around the same nodes can change places. -/
theorem C69_conditional_swap (f g : FnId) (xs : List (Option Node)) {n a m b : Node}
    (bx : ∀ n, some n ∈ xs → Built n)
    (ha : Conditional (some g) xs = .val a) (hn : Conditional (some f) [some a] = .val n)
    (hb : Conditional (some f) xs = .val b) (hm : Conditional (some g) [some b] = .val m) : SameOutput n m := by
  refine sameOutput_of_out (.conditional _ _ _ (built_one (.conditional _ _ _ bx ha)) hn)
    (.conditional _ _ _ (built_one (.conditional _ _ _ bx hb)) hm) fun P c w => ?_
  rw [out_cond_cond (fn := .user f) (gn := .user g) ha hn, out_cond_cond (fn := .user g) (gn := .user f) hb hm,
    Bool.and_comm]

example := C69_conditional_swap 0 1 helloNodes built_helloNodes rfl rfl rfl rfl

/-- Asking the same function twice is the same as asking it once. -/
theorem C69_conditional_twice (f : FnId) (xs : List (Option Node)) {n a : Node} (bx : ∀ n, some n ∈ xs → Built n)
    (ha : Conditional (some f) xs = .val a) (hn : Conditional (some f) [some a] = .val n) : SameOutput n a := by
  refine sameOutput_of_out (.conditional _ _ _ (built_one (.conditional _ _ _ bx ha)) hn)
    (.conditional _ _ _ bx ha) fun P c w => ?_
  rw [out_cond_cond (fn := .user f) (gn := .user f) ha hn, out_mkConditional (fn := .user f) ha, Bool.and_self]

example := C69_conditional_twice 0 helloNodes built_helloNodes rfl rfl

/-- The same nodes for a key and for its negation are the nodes without any condition. -/
theorem C69_when_either (key : Bytes) (hk : ∀ k, key ≠ c%'!' :: k) (xs : List (Option Node)) {a b : Node}
    (bx : ∀ n, some n ∈ xs → Built n) (ha : When key xs = .val a) (hb : When (c%'!' :: key) xs = .val b) :
    SameOutput (Collection [some a, some b]) (Collection xs) ∧ SameOutput (Collection [some b, some a]) (Collection xs) := by
  have hA : mkConditional (.has key) xs = .val a := by
    cases key with
    | nil => exact ha
    | cons x k =>
      have : x ≠ c%'!' := fun h => hk k (by rw [h])
      simp only [When, if_neg this] at ha
      exact ha
  have hB : mkConditional (.hasNot key) xs = .val b := by
    simp only [When, if_true] at hb
    exact hb
  have key_or : ∀ P c, holds P c (.hasNot key) = !holds P c (.has key) := by
    intro P c
    simp only [holds]
    cases c.lookup key with
    | none => rfl
    | some v =>
      cases v with
      | bool x => cases x <;> rfl
      | _ => rfl
  refine ⟨sameOutput_of_out (.collection _ (built_two (.when _ _ _ bx ha) (.when _ _ _ bx hb))) (.collection _ bx)
    fun P c w => ?_, sameOutput_of_out (.collection _ (built_two (.when _ _ _ bx hb) (.when _ _ _ bx ha)))
    (.collection _ bx) fun P c w => ?_⟩
  · rw [out_collection_two (mkConditional_isAttr hA) (mkConditional_isAttr hB), out_collection]
    simp only [out_mkConditional hA, out_mkConditional hB, key_or]
    cases holds P c (.has key) <;> simp
  · rw [out_collection_two (mkConditional_isAttr hB) (mkConditional_isAttr hA), out_collection]
    simp only [out_mkConditional hA, out_mkConditional hB, key_or]
    cases holds P c (.has key) <;> simp

example := C69_when_either b%"name" (by simp) helloNodes built_helloNodes rfl rfl

/-- Iterating over nodes is iterating over their collection, for all three kinds of iteration. -/
theorem C69_iterate (fn : Option FnId) (xs : List (Option Node)) {n m : Node} (bx : ∀ n, some n ∈ xs → Built n)
    (hn : Iterate fn xs = .val n) (hm : Iterate fn [some (Collection xs)] = .val m) : SameOutput n m := by
  refine sameOutput_of_out (.iterate _ _ _ bx hn) (.iterate _ _ _ (built_one (.collection _ bx)) hm) fun P c w => ?_
  cases fn with
  | none => cases hn
  | some f =>
    simp only [Iterate] at hn hm
    split at hn
    · cases hn
    · next e =>
      split at hm
      · cases hm
      · next e' =>
        cases hn; cases hm
        rw [iterSplit_contents e, iterSplit_contents e', out_iterator, out_iterator]
        exact outItems_congr fun c w => (outAll_collection c w).symm

example := C69_iterate (some 0) helloNodes built_helloNodes rfl rfl

theorem C69_iterateKey (key : Bytes) (xs : List (Option Node)) {n m : Node} (bx : ∀ n, some n ∈ xs → Built n)
    (hn : IterateKey key xs = .val n) (hm : IterateKey key [some (Collection xs)] = .val m) : SameOutput n m := by
  refine sameOutput_of_out (.iterateKey _ _ _ bx hn) (.iterateKey _ _ _ (built_one (.collection _ bx)) hm) fun P c w => ?_
  simp only [IterateKey] at hn hm
  split at hn
  · cases hn
  · next e =>
    split at hm
    · cases hm
    · next e' =>
      cases hn; cases hm
      rw [iterSplit_contents e, iterSplit_contents e', out_iterator, out_iterator]
      exact outItems_congr fun c w => (outAll_collection c w).symm

example := C69_iterateKey b%"list" helloNodes built_helloNodes rfl rfl

theorem C69_iterateYield (fn : Option FnId) (xs : List (Option Node)) {n m : Node} (bx : ∀ n, some n ∈ xs → Built n)
    (hn : IterateYield fn xs = .val n) (hm : IterateYield fn [some (Collection xs)] = .val m) : SameOutput n m := by
  refine sameOutput_of_out (.iterateYield _ _ _ bx hn) (.iterateYield _ _ _ (built_one (.collection _ bx)) hm)
    fun P c w => ?_
  cases fn with
  | none => cases hn
  | some f =>
    simp only [IterateYield] at hn hm
    split at hn
    · cases hn
    · next e =>
      split at hm
      · cases hm
      · next e' =>
        cases hn; cases hm
        rw [iterSplit_contents e, iterSplit_contents e', out_yieldIterator, out_yieldIterator]
        exact outYields_congr fun c w => (outAll_collection c w).symm

example := C69_iterateYield (some 0) helloNodes built_helloNodes rfl rfl

/-- A text can be parted into two, be written as a fragment, or be given as the contents of a text or a value. -/
theorem C69_text (dl : Nat → List Value) (xs ys : List Any) :
    SameOutput (Text dl (xs ++ ys)) (Collection [some (Text dl xs), some (Text dl ys)]) ∧
    SameOutput (Fragment dl xs) (Text dl xs) ∧
    SameOutput (Text dl [.node (Text dl xs)]) (Text dl xs) ∧
    SameOutput (Text dl [.value (NewConcatValue dl xs)]) (Text dl xs) := by
  refine ⟨?_, ?_, ?_, ?_⟩
  · refine sameOutput_of_out (.text _ _) (.collection _ (built_two (.text _ _) (.text _ _))) fun P c w => ?_
    rw [out_collection_two rfl rfl]
    simp only [Text, out_text, newValues_append, valuesBytes_append]
    constructor
    · rintro rfl; exact ⟨_, _, rfl, rfl, rfl⟩
    · rintro ⟨_, _, rfl, rfl, rfl⟩; rfl
  · refine sameOutput_of_out (.fragment _ _) (.text _ _) fun P c w => ?_
    rw [Text, Fragment, out_text]
    exact ⟨fun h => by cases h; rfl, fun h => h ▸ .fragment⟩
  · refine sameOutput_of_out (.text _ _) (.text _ _) fun P c w => ?_
    simp only [Text, out_text]
    rw [show newValues dl [.node (.text (newValues dl xs))] = newValues dl xs ++ [] from rfl, List.append_nil]
  · refine sameOutput_of_out (.text _ _) (.text _ _) fun P c w => ?_
    simp only [Text, out_text]
    rw [show newValues dl [.value (NewConcatValue dl xs)] = [NewConcatValue dl xs] from rfl]
    rw [show valuesBytes P c [NewConcatValue dl xs] = valueBytes P c (NewConcatValue dl xs) ++ [] from rfl, List.append_nil,
      NewConcatValue]
    cases newValues dl xs <;> rfl

/-- Asking twice or once: also deep inside a template, by C60. -/
example : SameOutput
    (NewElement b%"div" [.node (NewBooleanAttribute b%"x"), .node (mkCond 0 [mkCond 0 [hello]])] .empty).1
    (NewElement b%"div" [.node (NewBooleanAttribute b%"x"), .node (mkCond 0 [hello])] .empty).1 := by
  have b1 : Built (mkCond 0 [hello]) := built_mkCond fun n hn => by
    simp only [List.mem_cons, List.not_mem_nil, or_false] at hn; subst hn; exact built_hello
  have b2 : Built (mkCond 0 [mkCond 0 [hello]]) := built_mkCond fun n hn => by
    simp only [List.mem_cons, List.not_mem_nil, or_false] at hn; subst hn; exact b1
  refine C60_apart_partial b2 b1 rfl rfl rfl
    (C69_conditional_twice 0 [some hello] (built_one built_hello) rfl rfl)
    (.newElement _ _ (.same (fun n h => by cases h; exact .newBooleanAttribute _) (.node .here .nil)) fun _ => ⟨?_, ?_⟩)
  · exact separateAll_of_depth _ _ (by decide)
  · exact separateAll_of_depth _ _ (by decide)

end Props
end Aitch

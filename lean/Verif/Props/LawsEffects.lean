import Verif.Proofs.SwapEffects
import Verif.Props.Laws
import Verif.Props.Order
/-
C79 Rearranging templates whose functions have side effects; C60 for such functions.

`SameEffect n₁ n₂` says that both can write the same and leave the same memory, in every context, for all functions with side
effects that report no error.
-/
namespace Aitch
open Spec

namespace Props

/-! ### C79 — rearrangements that call no function more or less often, or in another order, change nothing -/

/-- A collection within a collection can be spliced in. -/
theorem C79_collection (xs ys zs : List (Option Node)) (bx : ∀ n, some n ∈ xs → Built n)
    (by' : ∀ n, some n ∈ ys → Built n) (bz : ∀ n, some n ∈ zs → Built n) :
    SameEffect (Collection (xs ++ some (Collection ys) :: zs)) (Collection (xs ++ ys ++ zs)) := by
  refine sameEffect_of_plays (.collection _ ?_) (.collection _ (built_append (built_append bx by') bz)) fun E c w c' => ?_
  · intro n hn
    simp only [List.mem_append, List.mem_cons, Option.some.injEq] at hn
    rcases hn with hn | rfl | hn
    · exact bx n hn
    · exact .collection _ by'
    · exact bz n hn
  · rw [plays_collection, plays_collection, contentNodes_append, contentNodes_append, contentNodes_append,
      contentNodes_some rfl, List.append_assoc, playsAll_append, playsAll_append]
    refine exists_congr fun w₁ => exists_congr fun c1 => exists_congr fun w₂ => and_congr Iff.rfl (and_congr ?_ Iff.rfl)
    rw [show Collection ys :: contentNodes zs = [Collection ys] ++ contentNodes zs from rfl, playsAll_append, playsAll_append]
    refine exists_congr fun w₁ => exists_congr fun c1 => exists_congr fun w₂ => and_congr ?_ Iff.rfl
    rw [playsAll_one, plays_collection]

example := C79_collection helloNodes helloNodes [some hello] built_helloNodes built_helloNodes (built_one built_hello)

/-- A conditional's nodes can be put into a collection. -/
theorem C79_conditional (f : FnId) (xs : List (Option Node)) {n m : Node} (bx : ∀ n, some n ∈ xs → Built n)
    (hn : Conditional (some f) xs = .val n) (hm : Conditional (some f) [some (Collection xs)] = .val m) :
    SameEffect n m := by
  refine sameEffect_of_plays (.conditional _ _ _ bx hn) (.conditional _ _ _ (built_one (.collection _ bx)) hm)
    fun E c w c' => ?_
  rw [mkConditional_eq (fn := .user f) (nodes := xs) hn, mkConditional_eq (fn := .user f) (nodes := [some (Collection xs)]) hm]
  exact plays_conditional fun c w c' => playsAll_collection.symm

example := C79_conditional 0 helloNodes built_helloNodes rfl rfl

/-- The same for `When`. -/
theorem C79_when (key : Bytes) (xs : List (Option Node)) {n m : Node} (bx : ∀ n, some n ∈ xs → Built n)
    (hn : When key xs = .val n) (hm : When key [some (Collection xs)] = .val m) : SameEffect n m := by
  refine sameEffect_of_plays (.when _ _ _ bx hn) (.when _ _ _ (built_one (.collection _ bx)) hm) fun E c w c' => ?_
  obtain ⟨fn, h1, h2⟩ := when_eq hn
  rw [h2] at hm
  rw [mkConditional_eq h1, mkConditional_eq hm]
  exact plays_conditional fun c w c' => playsAll_collection.symm

example := C79_when b%"!name" helloNodes built_helloNodes rfl rfl

/-- So can the nodes of an iteration, for all three kinds. -/
theorem C79_iterate (fn : Option FnId) (xs : List (Option Node)) {n m : Node} (bx : ∀ n, some n ∈ xs → Built n)
    (hn : Iterate fn xs = .val n) (hm : Iterate fn [some (Collection xs)] = .val m) : SameEffect n m := by
  refine sameEffect_of_plays (.iterate _ _ _ bx hn) (.iterate _ _ _ (built_one (.collection _ bx)) hm) fun E c w c' => ?_
  cases fn with
  | none => cases hn
  | some f =>
    simp only [Iterate] at hn hm
    split at hn
    · cases hn
    · next e =>
      split at hm
      · cases hm
      · next e' =>
        cases hn; cases hm
        rw [iterSplit_contents e, iterSplit_contents e']
        exact plays_iterator fun c w c' => playsAll_collection.symm

example := C79_iterate (some 0) helloNodes built_helloNodes rfl rfl

theorem C79_iterateKey (key : Bytes) (xs : List (Option Node)) {n m : Node} (bx : ∀ n, some n ∈ xs → Built n)
    (hn : IterateKey key xs = .val n) (hm : IterateKey key [some (Collection xs)] = .val m) : SameEffect n m := by
  refine sameEffect_of_plays (.iterateKey _ _ _ bx hn) (.iterateKey _ _ _ (built_one (.collection _ bx)) hm)
    fun E c w c' => ?_
  simp only [IterateKey] at hn hm
  split at hn
  · cases hn
  · next e =>
    split at hm
    · cases hm
    · next e' =>
      cases hn; cases hm
      rw [iterSplit_contents e, iterSplit_contents e']
      exact plays_iterator fun c w c' => playsAll_collection.symm

example := C79_iterateKey b%"list" helloNodes built_helloNodes rfl rfl

theorem C79_iterateYield (fn : Option FnId) (xs : List (Option Node)) {n m : Node} (bx : ∀ n, some n ∈ xs → Built n)
    (hn : IterateYield fn xs = .val n) (hm : IterateYield fn [some (Collection xs)] = .val m) : SameEffect n m := by
  refine sameEffect_of_plays (.iterateYield _ _ _ bx hn) (.iterateYield _ _ _ (built_one (.collection _ bx)) hm)
    fun E c w c' => ?_
  cases fn with
  | none => cases hn
  | some f =>
    simp only [IterateYield] at hn hm
    split at hn
    · cases hn
    · next e =>
      split at hm
      · cases hm
      · next e' =>
        cases hn; cases hm
        rw [iterSplit_contents e, iterSplit_contents e']
        exact plays_yieldIterator fun c w c' => playsAll_collection.symm

example := C79_iterateYield (some 0) helloNodes built_helloNodes rfl rfl

/-- A text can be parted into two, be written as a fragment, or be given as the contents of a text or a value. -/
theorem C79_text (dl : Nat → List Value) (xs ys : List Any) :
    SameEffect (Text dl (xs ++ ys)) (Collection [some (Text dl xs), some (Text dl ys)]) ∧
    SameEffect (Fragment dl xs) (Text dl xs) ∧
    SameEffect (Text dl [.node (Text dl xs)]) (Text dl xs) ∧
    SameEffect (Text dl [.value (NewConcatValue dl xs)]) (Text dl xs) := by
  refine ⟨?_, ?_, ?_, ?_⟩
  · refine sameEffect_of_plays (.text _ _) (.collection _ (built_two (.text _ _) (.text _ _))) fun E c w c' => ?_
    rw [plays_collection, contentNodes_some rfl, contentNodes_some rfl]
    show _ ↔ PlaysAll E ([Text dl xs] ++ [Text dl ys]) c w c'
    rw [playsAll_append]
    simp only [playsAll_one, Text, plays_text, newValues_append, playValues_append]
    constructor
    · rintro ⟨rfl, rfl⟩; exact ⟨_, _, _, ⟨rfl, rfl⟩, ⟨rfl, rfl⟩, rfl⟩
    · rintro ⟨_, _, _, ⟨rfl, rfl⟩, ⟨rfl, rfl⟩, rfl⟩; exact ⟨rfl, rfl⟩
  · refine sameEffect_of_plays (.fragment _ _) (.text _ _) fun E c w c' => ?_
    rw [Text, Fragment, plays_text]
    exact ⟨fun h => by cases h; exact ⟨rfl, rfl⟩, fun ⟨h1, h2⟩ => by rw [h1, h2]; exact .fragment⟩
  · refine sameEffect_of_plays (.text _ _) (.text _ _) fun E c w c' => ?_
    simp only [Text]
    rw [show newValues dl [.node (.text (newValues dl xs))] = newValues dl xs ++ [] from rfl, List.append_nil]
  · refine sameEffect_of_plays (.text _ _) (.text _ _) fun E c w c' => ?_
    simp only [Text, plays_text]
    rw [show newValues dl [.value (NewConcatValue dl xs)] = [NewConcatValue dl xs] from rfl, NewConcatValue]
    cases newValues dl xs <;> simp [playValues, playValue]

/-! The other laws of C69 ask functions more often, and hold only for functions without side effects. -/

/-- Functions of which a condition holds only the first time (it marks map 0). -/
def onceOnly : Effects :=
  { incrementing with
    cond := fun _ c => ((c.maps 0).isEmpty, { c with maps := fun k => if k = 0 then [([], .nil)] else c.maps k }) }

theorem calm_onceOnly : Calm onceOnly :=
  ⟨calm_incrementing.dyn, fun _ _ h => h, fun _ _ h => h, fun _ _ h => h, fun _ _ => trivial, fun _ _ => trivial,
    fun _ _ _ h => by simp [onceOnly, incrementing] at h⟩

/-- A context with empty maps. -/
def fresh : Ctx := { Sample.ctx with maps := fun _ => [] }

/-- Two conditionals with the same function in place of one; or one within the other: both are different from the one. -/
theorem C79_once : ∃ (f : FnId) (xs : List (Option Node)) (n a b : Node), (∀ n, some n ∈ xs → Built n) ∧
    Conditional (some f) (xs ++ xs) = .val n ∧ Conditional (some f) xs = .val a ∧
    Conditional (some f) [some a] = .val b ∧
    ¬ SameEffect n (Collection [some a, some a]) ∧ ¬ SameEffect b a := by
  have bx := built_one built_hello
  have hone : ∀ c, Plays onceOnly hello c b%"hello" c := fun c => by
    have : Plays onceOnly (.text (newValues (fun _ => []) [.str b%"hello"])) c _ _ := .text
    exact this
  have hone' : ∀ {c w c'}, Plays onceOnly hello c w c' → w = b%"hello" ∧ c' = c := by
    intro c w c' h
    have h : Plays onceOnly (.text (newValues (fun _ => []) [.str b%"hello"])) c w c' := h
    cases h
    exact ⟨rfl, rfl⟩
  have hcond : ∀ {c w c'}, Plays onceOnly (.conditional [hello] [] (.user 0)) c w c' →
      (playCond onceOnly (.user 0) c).1 = false → w = [] := by
    intro c w c' h h'
    cases h with
    | conditionalOn h2 _ => rw [h'] at h2; cases h2
    | conditionalOff _ => rfl
  -- the first time
  have hfirst : (playCond onceOnly (.user 0) fresh).1 = true := rfl
  -- the second time
  have hsecond : ∀ c, (playCond onceOnly (.user 0) (playCond onceOnly (.user 0) c).2).1 = false := fun _ => rfl
  refine ⟨0, [some hello], _, _, _, bx, rfl, rfl, rfl, fun h => ?_, fun h => ?_⟩
  · have h := (h onceOnly calm_onceOnly fresh rfl (b%"hello" ++ (b%"hello" ++ [])) _).1
      ((does_iff calm_onceOnly (.conditional (some 0) ([some hello] ++ [some hello]) _ (built_append bx bx) rfl) rfl).2
        (.conditionalOn hfirst (.cons (hone _) (.cons (hone _) .nil))))
    have ba : Built (.conditional [hello] [] (.user 0)) := .conditional (some 0) [some hello] _ bx rfl
    rw [does_iff calm_onceOnly (.collection _ (built_two ba ba)) rfl, plays_collection] at h
    rw [contentNodes_some rfl, contentNodes_some rfl] at h
    generalize hw : (b%"hello" ++ (b%"hello" ++ [])) = w at h
    cases h with
    | cons h1 h2 =>
      cases h2 with
      | cons h2 h3 =>
        cases h3
        cases h1 with
        | conditionalOff h1 => rw [hfirst] at h1; cases h1
        | conditionalOn _ h1 =>
          rw [playsAll_one] at h1
          obtain ⟨rfl, rfl⟩ := hone' h1
          rw [hcond h2 (hsecond _)] at hw
          exact absurd hw (by decide)
  · have ba : Built (.conditional [hello] [] (.user 0)) := .conditional (some 0) [some hello] _ bx rfl
    have h := (h onceOnly calm_onceOnly fresh rfl (b%"hello" ++ []) _).2
      ((does_iff calm_onceOnly ba rfl).2 (.conditionalOn hfirst (.cons (hone _) .nil)))
    rw [does_iff calm_onceOnly (.conditional (some 0) [some (.conditional [hello] [] (.user 0))] _ (built_one ba) rfl) rfl] at h
    generalize hw : (b%"hello" ++ []) = w at h
    cases h with
    | conditionalOff h1 => rw [hfirst] at h1; cases h1
    | conditionalOn _ h1 =>
      rw [playsAll_one] at h1
      rw [hcond h1 (hsecond _)] at hw
      exact absurd hw (by decide)

/-! ### C60 with side effects -/

/-- Parts that do the same are interchangeable, when neither is a conditional (or a collection holding one). -/
theorem C60_effects_partial {n₁ n₂ m₁ m₂ : Node} (b₁ : Built n₁) (b₂ : Built n₂) (i₁ : Inert n₁) (i₂ : Inert n₂)
    (hs : SameEffect n₁ n₂) (h : Swap False n₁ n₂ m₁ m₂) : SameEffect m₁ m₂ :=
  swap_sameEffect b₁ b₂ i₁.1 i₂.1 (splits_inert i₁ i₂) (splits_inert i₂ i₁) hs h

/-- And for conditionals too, and parts that bring the same attributes under the same conditions, when in the templates
around them no two conditionals share a slot. -/
theorem C60_effects_apart_partial {n₁ n₂ m₁ m₂ : Node} (b₁ : Built n₁) (b₂ : Built n₂) (i₁ : n₁.isAttr = false)
    (i₂ : n₂.isAttr = false) (hd : declared [] n₁ = declared [] n₂)
    (hs : SameEffect n₁ n₂) (h : Swap True n₁ n₂ m₁ m₂) : SameEffect m₁ m₂ :=
  swap_sameEffect b₁ b₂ i₁ i₂ (splits_apart i₁ i₂ hd) (splits_apart i₂ i₁ hd.symm) hs h

/-! ### Cases that meet the hypotheses -/

/-- A text with a counting function, split in a template, counts in the same way. -/
example (f : FnId) : SameEffect
    (NewElement b%"div" [.node (Text (fun _ => []) ([.dynFunc true (some f)] ++ [.dynFunc true (some f)]))] .empty).1
    (NewElement b%"div" [.node (Collection [some (Text (fun _ => []) [.dynFunc true (some f)]),
      some (Text (fun _ => []) [.dynFunc true (some f)])])] .empty).1 :=
  C60_effects_partial (.text _ _) (.collection _ (built_two (.text _ _) (.text _ _))) ⟨rfl, rfl, rfl⟩ ⟨rfl, rfl, rfl⟩
    (C79_text _ _ _).1 (.newElement _ _ (.node .here .nil) False.elim)

end Props
end Aitch

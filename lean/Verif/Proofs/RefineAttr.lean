import Verif.Proofs.Hoare
/-
Refinement for values, attributes and tags.
-/
namespace Aitch
open Spec

section
variable {env : Env} {P : Fns} {c : Ctx}

theorem E.runDyn (G : Good env P) (d : Dyn) : E env c (runDyn d) (dynBytes P c d) [] := by
  cases d with
  | user f => exact E.dyn G f
  | key k =>
    unfold Aitch.runDyn
    refine E.bind (w1 := []) (w2 := []) E.ctx ?_
    simp only [dynBytes]
    cases c.lookup k <;> exact E.pure
  | cargo => exact E.bind (w1 := []) (w2 := []) E.ctx E.pure

theorem E.valueWrite (G : Good env P) (he : c.frame.err = none) (d : Bytes) :
    E env c (valueWrite d) (decide (d ≠ [])) d := by
  unfold Aitch.valueWrite
  have : decide (d ≠ []) = decide (d.length > 0) := by
    cases d <;> simp
  rw [this]
  exact E.of_eq (E.bind (Tr.write G.healthy d) (E.bind (E.setErr he) E.pure)) (by simp)

mutual
theorem E.renderValue (G : Good env P) (he : c.frame.err = none) : (v : Value) →
    E env c (renderValue v) (decide (valueBytes P c v ≠ [])) (valueBytes P c v)
  | .mk _ (some d) _ => by
    simp only [Aitch.renderValue, valueBytes]
    exact E.of_eq (E.bind (E.runDyn G d) (E.valueWrite G he _)) (by simp)
  | .mk value none [] => by
    simp only [Aitch.renderValue, valueBytes]
    exact E.valueWrite G he _
  | .mk value none (x :: xs) => by
    simp only [Aitch.renderValue, valueBytes]
    refine E.bindTr (E.renderValue G he x) ?_
    refine Tr.bind (Tr.renderConcats G he xs _) ?_
    rintro l c' w ⟨hl, rfl, rfl⟩
    refine Tr.pure ⟨?_, rfl, by simp⟩
    simp only [ne_eq, List.append_eq_nil_iff, decide_eq_decide] at hl ⊢
    rw [hl]
    by_cases hx : valueBytes P c' x = [] <;> simp [hx]
theorem Tr.renderConcats (G : Good env P) (he : c.frame.err = none) : (vs : List Value) → (l : Nat) →
    Tr env c (renderConcats vs l)
      (fun r c' w => (r > 0 ↔ l > 0 ∨ valuesBytes P c vs ≠ []) ∧ c' = c ∧ w = valuesBytes P c vs)
  | [], l => by
    simp only [Aitch.renderConcats, valuesBytes]
    exact Tr.pure (by simp)
  | x :: xs, l => by
    simp only [Aitch.renderConcats, valuesBytes]
    refine E.bindTr (E.renderValue G he x) ?_
    refine (Tr.renderConcats G he xs _).conseq ?_
    rintro r c' w ⟨hr, rfl, rfl⟩
    refine ⟨?_, rfl, rfl⟩
    rw [hr]
    by_cases hx : valueBytes P c' x = [] <;> simp [hx]
end

theorem E.renderValues (G : Good env P) (he : c.frame.err = none) (vs : List Value) :
    E env c (renderValues vs) () (valuesBytes P c vs) := by
  induction vs with
  | nil => simp only [Aitch.renderValues, valuesBytes]; exact E.pure
  | cons v vs ih =>
    simp only [Aitch.renderValues, valuesBytes]
    exact E.bind (E.renderValue G he v) ih

/-- The loop over delimited values writes a delimiter first iff the value before was not empty. -/
theorem E.renderDelimValues (G : Good env P) (he : c.frame.err = none) (d : Bytes) (vs : List Value) (b : Bool) :
    E env c (renderDelimValues d vs b) ()
      ((if b ∧ vs ≠ [] then d else []) ++ delimJoin d (vs.map (valueBytes P c))) := by
  induction vs generalizing b with
  | nil => simp only [Aitch.renderDelimValues]; exact E.pure.of_eq (by simp [delimJoin])
  | cons v vs ih =>
    simp only [Aitch.renderDelimValues]
    have hd : E env c (Prog.when b (Aitch.ctxWrite d)) () (if b then d else []) := by
      cases b
      · exact E.pure
      · exact E.ctxWrite G.healthy he d
    refine E.of_eq (E.bind hd (E.bind (E.renderValue G he v) (ih _))) ?_
    cases vs with
    | nil => simp [delimJoin]
    | cons v' vs' =>
      simp only [List.map_cons, delimJoin]
      by_cases hv : valueBytes P c v = [] <;> cases b <;> simp [hv]

theorem E.renderDelim (G : Good env P) (he : c.frame.err = none) (n d : Bytes) (vs : List Value) :
    E env c (renderDelim n d vs) () (Shown.bytes (n, some (delimJoin d (vs.map (valueBytes P c))))) := by
  have W := fun d => E.ctxWrite (c := c) G.healthy he d
  refine E.of_eq (E.bind (W _) (E.bind (W _) (E.bind (W _) (E.bind (E.renderDelimValues G he d vs false) (W _))))) ?_
  simp [Shown.bytes]

theorem E.renderAttr (G : Good env P) (he : c.frame.err = none) (a : Attr) :
    E env c (renderAttr a) () (Shown.bytes (shown P c a)) := by
  have W := fun d => E.ctxWrite (c := c) G.healthy he d
  cases a with
  | plain n vs =>
    refine E.of_eq (E.bind (W _) (E.bind (W _) (E.bind (W _) (E.bind (E.renderValues G he vs) (W _))))) ?_
    simp [Shown.bytes, shown]
  | bool n => exact E.of_eq (E.bind (W _) (W _)) rfl
  | delim n d r => exact E.of_eq (E.bind E.ctx (E.renderDelim G he n d _)) rfl

theorem E.renderAttrs (G : Good env P) (he : c.frame.err = none) (as : List Attr) :
    E env c (renderAttrs as) () ((as.map (shown P c)).flatMap Shown.bytes) := by
  induction as with
  | nil => exact E.pure
  | cons a as ih =>
    simp only [Aitch.renderAttrs, List.map_cons, List.flatMap_cons]
    exact E.bind (E.renderAttr G he a) ih

theorem E.renderChosen (G : Good env P) (he : c.frame.err = none) (a : Attr) (more : List Attr) (last : Attr) :
    E env c (renderChosen a more last) () (Shown.bytes (shownMerged P c a more last)) := by
  cases a with
  | plain n vs => exact E.renderAttr G he last
  | bool n => exact E.renderAttr G he last
  | delim n d r => exact E.of_eq (E.bind E.ctx (E.renderDelim G he n d _)) rfl

theorem E.runCond (G : Good env P) (k : Cond) : E env c (runCond k) (holds P c k) [] := by
  cases k with
  | user f => exact E.cond G f
  | has k =>
    refine E.bind (w1 := []) (w2 := []) E.ctx ?_
    simp only [holds]
    rcases c.lookup k with _ | v
    · exact E.pure
    · cases v
      case bool b => cases b <;> exact E.pure
      all_goals exact E.pure
  | hasNot k =>
    refine E.bind (w1 := []) (w2 := []) E.ctx ?_
    simp only [holds]
    rcases c.lookup k with _ | v
    · exact E.pure
    · cases v
      case bool b => cases b <;> exact E.pure
      all_goals exact E.pure

theorem E.evalConds (G : Good env P) (ks : List Cond) : E env c (evalConds ks) (ks.all (holds P c)) [] := by
  induction ks with
  | nil => exact E.pure
  | cons k ks ih =>
    refine E.bind (w1 := []) (w2 := []) (E.runCond G k) ?_
    cases h : holds P c k
    · simp only [List.all_cons, h, Bool.false_and]; exact E.pure
    · simp only [List.all_cons, h, Bool.true_and]; exact ih

/-- Grouping a list of attributes by name, starting from `acc`. -/
def groupInto (acc : List (Bytes × List Attr)) (as : List Attr) : List (Bytes × List Attr) :=
  as.foldl (fun acc a => addEvaluated a.name a acc) acc

theorem E.evaluate (G : Good env P) (cas : List CondAttr) (acc : List (Bytes × List Attr)) :
    E env c (evaluate cas acc) (groupInto acc (active P c cas)) [] := by
  induction cas generalizing acc with
  | nil => exact E.pure
  | cons ca cas ih =>
    simp only [Aitch.evaluate]
    refine E.bind (w1 := []) (w2 := []) (E.evalConds G ca.conditions) ?_
    cases h : ca.conditions.all (holds P c)
    · have : active P c (ca :: cas) = active P c cas := by
        simp only [active, List.filter_cons, h]; rfl
      rw [this]; exact ih acc
    · have : active P c (ca :: cas) = ca.att :: active P c cas := by
        simp only [active, List.filter_cons, h]; rfl
      rw [this]; exact ih _

/-! Facts about grouping. -/

theorem lookup_addEvaluated (n : Bytes) (a : Attr) (m : Bytes) (acc : List (Bytes × List Attr)) :
    (addEvaluated n a acc).lookup m = if m = n then some ((acc.lookup n).getD [] ++ [a]) else acc.lookup m := by
  induction acc with
  | nil =>
    simp only [addEvaluated, List.lookup]
    by_cases h : m = n
    · simp [h]
    · have : (m == n) = false := by simpa using h
      simp [this, h]
  | cons p acc ih =>
    obtain ⟨k, as⟩ := p
    simp only [addEvaluated]
    by_cases hk : k = n
    · subst hk
      simp only [if_true, List.lookup]
      by_cases h : m = k
      · subst h; simp
      · have : (m == k) = false := by simpa using h
        simp [this, h]
    · rw [if_neg hk]
      have hnk : (n == k) = false := by simpa using Ne.symm hk
      simp only [List.lookup, hnk]
      rw [ih]
      by_cases h : m = k
      · subst h; simp [hk]
      · have : (m == k) = false := by simpa using h
        simp [this]

theorem keys_addEvaluated (n : Bytes) (a : Attr) (acc : List (Bytes × List Attr)) :
    (addEvaluated n a acc).map (·.1) = if n ∈ acc.map (·.1) then acc.map (·.1) else acc.map (·.1) ++ [n] := by
  induction acc with
  | nil => simp [addEvaluated]
  | cons p acc ih =>
    obtain ⟨k, as⟩ := p
    simp only [addEvaluated]
    by_cases hk : k = n
    · simp [hk]
    · rw [if_neg hk]
      simp only [List.map_cons, List.mem_cons, ih, Ne.symm hk, false_or]
      split <;> simp

theorem lookup_groupInto (acc : List (Bytes × List Attr)) (as : List Attr) (n : Bytes) :
    ((groupInto acc as).lookup n).getD [] = (acc.lookup n).getD [] ++ named n as := by
  induction as generalizing acc with
  | nil => simp [groupInto, named]
  | cons a as ih =>
    have : groupInto acc (a :: as) = groupInto (addEvaluated a.name a acc) as := rfl
    rw [this, ih, lookup_addEvaluated]
    by_cases h : n = a.name
    · subst h; simp [named]
    · have h' : ¬ a.name = n := fun e => h e.symm
      simp [named, h, h']

theorem lookup_groupInto_ne (acc : List (Bytes × List Attr)) (as : List Attr) (n : Bytes)
    (hacc : ∀ n, acc.lookup n ≠ some []) : (groupInto acc as).lookup n ≠ some [] := by
  induction as generalizing acc with
  | nil => exact hacc n
  | cons a as ih =>
    refine ih (addEvaluated a.name a acc) ?_
    intro m
    rw [lookup_addEvaluated]
    split
    · simp
    · exact hacc m

/-- The group of a name are its declarations. -/
theorem lookup_group (as : List Attr) (n : Bytes) :
    (groupInto [] as).lookup n = if named n as = [] then none else some (named n as) := by
  have h1 := lookup_groupInto [] as n
  have h2 := lookup_groupInto_ne [] as n (by simp [List.lookup])
  simp only [List.lookup, Option.getD_none, List.nil_append] at h1
  cases h : (groupInto [] as).lookup n with
  | none => rw [h] at h1; simp at h1; simp [← h1]
  | some l =>
    rw [h] at h1 h2
    simp at h1 h2
    rw [← h1]; simp [h2]

theorem keys_groupInto (acc : List (Bytes × List Attr)) (as : List Attr) :
    (groupInto acc as).map (·.1) =
      acc.map (·.1) ++ distinct ((as.map Attr.name).filter fun n => n ∉ acc.map (·.1)) := by
  induction as generalizing acc with
  | nil => simp [groupInto, distinct]
  | cons a as ih =>
    have : groupInto acc (a :: as) = groupInto (addEvaluated a.name a acc) as := rfl
    rw [this, ih, keys_addEvaluated]
    by_cases h : a.name ∈ acc.map (·.1)
    · simp only [h, if_true, List.map_cons]
      rw [List.filter_cons_of_neg (by simp [h])]
    · simp only [h, if_false, List.map_cons]
      rw [List.filter_cons_of_pos (by simpa using h)]
      simp only [distinct, List.append_assoc, List.singleton_append]
      congr 2
      have key : ∀ l : List Bytes, distinct (l.filter fun n => n ∉ acc.map (·.1) ++ [a.name]) =
          (distinct (l.filter fun n => n ∉ acc.map (·.1))).filter (· ≠ a.name) := by
        intro l
        induction l with
        | nil => simp [distinct]
        | cons x xs ihx =>
          by_cases hx : x ∈ acc.map (·.1)
          · rw [List.filter_cons_of_neg (by simp only [List.mem_append, hx, true_or, not_true, decide_false]; simp), List.filter_cons_of_neg (by simpa using hx)]
            exact ihx
          · by_cases hxa : x = a.name
            · rw [List.filter_cons_of_neg (by simp [hxa]), List.filter_cons_of_pos (by simpa using hx)]
              simp only [distinct]
              rw [List.filter_cons_of_neg (by simp [hxa]), ihx, hxa]
              simp [List.filter_filter]
            · rw [List.filter_cons_of_pos (by simp at hx ⊢; exact ⟨hx, hxa⟩), List.filter_cons_of_pos (by simpa using hx)]
              simp only [distinct]
              rw [List.filter_cons_of_pos (by simpa using hxa), ihx]
              simp only [List.filter_filter]
              congr 1
              apply List.filter_congr
              intro y _
              exact Bool.and_comm _ _
      exact key _

theorem keys_group (as : List Attr) : (groupInto [] as).map (·.1) = distinct (as.map Attr.name) := by
  rw [keys_groupInto]
  simp only [List.map_nil, List.not_mem_nil, not_false_eq_true, decide_true, List.nil_append]
  rw [List.filter_eq_self.mpr (by simp)]

end

end Aitch

import Verif.Proofs.Merge
import Verif.Proofs.Tag
import Verif.Proofs.Nesting
import Verif.Spec.Start
/-
What `Start` collects.
-/
namespace Aitch
open Spec

/-- One declaration of a name, `avs` being what was collected for the name before. -/
def startOne (dl : Nat → List Value) (avs : Option (List Value)) : Attr → Option (List Value)
  | .delim _ d r => startDelim d (dl r) avs
  | .plain _ vs => some vs
  | .bool _ => none

theorem startAdd_map (dl : Nat → List Value) (a : Attr) (f : Bytes → Option (List Value)) (ns : List Bytes)
    (hn : ns.Nodup) :
    startAdd dl a (ns.map fun n => (n, f n)) =
      if a.name ∈ ns then ns.map fun n => (n, if n = a.name then startOne dl (f n) a else f n)
      else (ns.map fun n => (n, f n)) ++ [(a.name, startOne dl (some []) a)] := by
  induction ns with
  | nil => cases a <;> rfl
  | cons n ns ih =>
    have hn' := List.nodup_cons.1 hn
    simp only [List.map_cons, startAdd]
    by_cases h : n = a.name
    · rw [if_pos h, if_pos (by simp [h])]
      have : ∀ m ∈ ns, (m, f m) = (m, if m = a.name then startOne dl (f m) a else f m) := by
        intro m hm
        rw [if_neg]
        rintro rfl
        exact hn'.1 (h ▸ hm)
      rw [List.map_congr_left this, if_pos h]
      cases a <;> rfl
    · rw [if_neg h, ih hn'.2]
      have h' : a.name ≠ n := fun e => h e.symm
      by_cases hm : a.name ∈ ns
      · simp [hm, h]
      · simp [hm, h']

theorem startCollect_eq (dl : Nat → List Value) (attrs : List (Option Node)) (acc) :
    startCollect dl attrs acc = (startAttrs attrs).foldl (fun acc a => startAdd dl a acc) acc := by
  induction attrs generalizing acc with
  | nil => rfl
  | cons x xs ih =>
    cases x with
    | none => simpa [startCollect, startAttrs] using ih acc
    | some n =>
      cases n with
      | attr a => simpa [startCollect, startAttrs, attrsIn] using ih _
      | _ => simpa [startCollect, startAttrs, attrsIn] using ih acc

theorem startCollect_names (dl : Nat → List Value) (as : List Attr) :
    as.foldl (fun acc a => startAdd dl a acc) [] =
      (distinct (as.map Attr.name)).map fun n => (n, (named n as).foldl (startOne dl) (some [])) := by
  induction as using snoc_induction with
  | nil => rfl
  | append_singleton as a ih =>
    rw [List.foldl_append, ih]
    simp only [List.foldl_cons, List.foldl_nil]
    rw [startAdd_map _ _ _ _ (nodup_distinct _), List.map_append, List.map_cons, List.map_nil, distinct_snoc]
    by_cases h : a.name ∈ as.map Attr.name
    · rw [if_pos ((mem_distinct _ _).2 h), if_pos h]
      refine List.map_congr_left fun n _ => ?_
      rw [named_snoc]
      by_cases hn : n = a.name
      · rw [if_pos hn, if_pos hn.symm, List.foldl_append]; rfl
      · rw [if_neg hn, if_neg (fun e => hn e.symm)]
    · rw [if_neg (fun e => h ((mem_distinct _ _).1 e)), if_neg h, List.map_append]
      congr 1
      · refine List.map_congr_left fun n hn => ?_
        rw [named_snoc, if_neg]
        rintro rfl
        exact h ((mem_distinct _ _).1 hn)
      · simp [named_snoc, named_eq_nil h]

theorem joinParts_snoc (b : Bool) (ps : List (Bytes × Bytes)) (d w : Bytes) :
    joinParts b (ps ++ [(d, w)]) = joinParts b ps ++ (if b = true ∨ ps ≠ [] then d else []) ++ w := by
  induction ps generalizing b with
  | nil => cases b <;> simp [joinParts]
  | cons p ps ih =>
    obtain ⟨d', w'⟩ := p
    simp only [List.cons_append, joinParts, ih]
    simp

/-- What is collected (`acc`) after `base` (no value: `none`) and then `parts`. -/
def StartRep (P : Fns) (c : Ctx) (acc base : Option (List Value)) (parts : List (Bytes × Bytes)) : Prop :=
  acc.map (valuesBytes P c) = (match base with
    | some vs => some (valuesBytes P c vs ++ joinParts (!vs.isEmpty) parts)
    | none => if parts = [] then none else some (joinParts false parts)) ∧
  (acc.getD [] = [] ↔ base.getD [] = [] ∧ parts = [])

theorem valuesBytes_append' (P : Fns) (c : Ctx) (a b : List Value) :
    valuesBytes P c (a ++ b) = valuesBytes P c a ++ valuesBytes P c b := by
  induction a with
  | nil => rfl
  | cons x xs ih => simp [valuesBytes, ih]

theorem StartRep.init {P : Fns} {c : Ctx} (base : Option (List Value)) : StartRep P c base base [] := by
  constructor
  · cases base <;> simp [joinParts]
  · simp

theorem StartRep.part {P : Fns} {c : Ctx} {acc base : Option (List Value)} {parts : List (Bytes × Bytes)}
    (h : StartRep P c acc base parts) (d : Bytes) (v : Value) :
    StartRep P c (some ((if (acc.getD []).length > 0 then acc.getD [] ++ [.mk d none []] else acc.getD []) ++ [v])) base
      (parts ++ [(d, valueBytes P c v)]) := by
  obtain ⟨h1, h2⟩ := h
  refine ⟨?_, by simp⟩
  cases acc with
  | none =>
    cases base with
    | some vs => simp at h1
    | none =>
      have : parts = [] := Classical.byContradiction fun hp => by simp [hp] at h1
      subst this
      simp [joinParts, valuesBytes]
  | some l =>
    simp only [Option.getD_some, Option.map_some] at h1 h2 ⊢
    have hl : l.length > 0 ↔ ¬ (base.getD [] = [] ∧ parts = []) := by
      rw [← h2]; cases l <;> simp
    cases base with
    | some vs =>
      simp only [Option.some.injEq, Option.getD_some] at h1 hl ⊢
      rw [joinParts_snoc, valuesBytes_append']
      by_cases hp : vs = [] ∧ parts = []
      · rw [if_neg (by rw [hl]; simpa using hp)]
        obtain ⟨rfl, rfl⟩ := hp
        simp [h1, valuesBytes, joinParts]
      · rw [if_pos (hl.2 hp), valuesBytes_append', h1, if_pos]
        · simp [valuesBytes, valueBytes]
        · cases vs with
          | nil => right; simpa using hp
          | cons => left; rfl
    | none =>
      have hp : parts ≠ [] := by
        rintro rfl
        simp at h1
      simp only [hp, if_false, Option.some.injEq] at h1
      rw [if_pos (hl.2 (by simp [hp])), joinParts_snoc]
      simp [valuesBytes_append', h1, valuesBytes, valueBytes, hp]

theorem StartRep.delim {P : Fns} {c : Ctx} (d : Bytes) (vs : List Value) :
    {acc base : Option (List Value)} → {parts : List (Bytes × Bytes)} →
    StartRep P c acc base parts →
    StartRep P c (startDelim d vs acc) base (parts ++ vs.map fun v => (d, valueBytes P c v)) := by
  induction vs with
  | nil => intro acc base parts h; simpa [startDelim] using h
  | cons v vs ih =>
    intro acc base parts h
    have := ih (h.part d v)
    simpa [startDelim, List.append_assoc] using this

/-- The value of the last plain or boolean declaration. -/
def startBase (ds : List Attr) : Option (List Value) :=
  match (ds.filter fun a => !isDelim a).getLast? with
  | some (.plain _ vs) => some vs
  | some (.bool _) => none
  | _ => some []

theorem startRep_fold (P : Fns) (c : Ctx) (ds : List Attr) :
    StartRep P c (ds.foldl (startOne c.dl) (some [])) (startBase ds) (partsOf P c (delimSuffix ds)) := by
  induction ds using snoc_induction with
  | nil => exact StartRep.init _
  | append_singleton ds a ih =>
    rw [List.foldl_append, delimSuffix_snoc]
    cases a with
    | plain n vs => simpa [startBase, isDelim, refOf, partsOf, startOne, List.filter_append] using StartRep.init (some vs)
    | bool n => simpa [startBase, isDelim, refOf, partsOf, startOne, List.filter_append] using StartRep.init none
    | delim n d r =>
      have hb : startBase (ds ++ [.delim n d r]) = startBase ds := by
        simp [startBase, isDelim, refOf, List.filter_append]
      rw [hb]
      have := ih.delim d (c.dl r)
      simpa [isDelim, refOf, startOne, partsOf, Attr.values, delimiterOf] using this

theorem startValue_fold (P : Fns) (c : Ctx) (ds : List Attr) :
    (ds.foldl (startOne c.dl) (some [])).map (valuesBytes P c) = startValue P c ds := by
  rw [(startRep_fold P c ds).1]
  unfold startValue startBase
  split <;> rename_i h
  · split at h <;> simp_all [valuesBytes]
  · split at h <;> simp_all

/-- What `Start` writes for its attributes. -/
theorem startCollect_shows (P : Fns) (c : Ctx) (attrs : List (Option Node)) :
    ((startCollect c.dl attrs []).map fun (n, vs) => (n, vs.map (valuesBytes P c))) = startShows P c (startAttrs attrs) := by
  rw [startCollect_eq, startCollect_names, List.map_map]
  unfold startShows
  refine List.map_congr_left fun n _ => ?_
  simp only [Function.comp_apply, startValue_fold]

end Aitch

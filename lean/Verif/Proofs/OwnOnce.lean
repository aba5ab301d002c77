import Verif.Proofs.OwnWhen
/-
Which attributes of a tag are rendered.
-/
namespace Aitch.Own

open Aitch.Spec Aitch.Spec.Own

theorem lastNamed_name {n : Bytes} {as : List OAttr} {a : OAttr} (h : lastNamed n as = some a) : a ∈ as ∧ a.name = n := by
  have := List.mem_filter.mp (List.mem_of_getLast? h)
  exact ⟨this.1, by simpa using this.2⟩

theorem lastNamed_of_mem {n : Bytes} {as : List OAttr} (h : n ∈ namesOf as) : ∃ a, lastNamed n as = some a := by
  obtain ⟨a, ha, hn⟩ := List.mem_map.mp h
  cases hl : lastNamed n as with
  | some a => exact ⟨a, rfl⟩
  | none =>
    have := List.getLast?_eq_none_iff.mp hl
    have hm : a ∈ as.filter fun a => a.name = n := List.mem_filter.mpr ⟨ha, by simp [hn]⟩
    rw [this] at hm
    cases hm

theorem names_filterMap (as : List OAttr) (p : Bytes → Prop) [DecidablePred p] (names : List Bytes)
    (h : ∀ n ∈ names, p n → n ∈ namesOf as) :
    namesOf (names.filterMap fun n => if p n then lastNamed n as else none) = names.filter fun n => p n := by
  induction names with
  | nil => rfl
  | cons n names ih =>
    have ih := ih fun m hm => h m (List.mem_cons_of_mem _ hm)
    rw [List.filterMap_cons, List.filter_cons]
    by_cases hp : p n
    · obtain ⟨a, ha⟩ := lastNamed_of_mem (h n List.mem_cons_self hp)
      simp only [hp, if_true, ha, decide_true]
      show a.name :: namesOf _ = _
      rw [ih, (lastNamed_name ha).2]
    · simp only [hp, if_false, decide_false, Bool.false_eq_true]
      exact ih

theorem lastNamed_append {n : Bytes} {as held : List OAttr} (h : n ∉ namesOf as) :
    lastNamed n (as ++ held) = lastNamed n held := by
  have : as.filter (fun a => a.name = n) = [] := by
    rw [List.filter_eq_nil_iff]
    intro a ha hn
    exact h (List.mem_map.mpr ⟨a, ha, by simpa using hn⟩)
  simp only [lastNamed, List.filter_append, this, List.nil_append]

theorem lastDeclared_eq (as : List OAttr) :
    lastDeclared as = (distinct (namesOf as)).filterMap fun n => if n ∈ namesOf as then lastNamed n as else none := by
  unfold lastDeclared
  refine List.filterMap_congr fun n hn => ?_
  have hn : n ∈ namesOf as := (mem_distinct _ _).mp hn
  rw [if_pos hn]
  rfl

theorem mem_shown {as : List OAttr} {p : Bytes → Prop} [DecidablePred p] {names : List Bytes} {a : OAttr}
    (h : a ∈ names.filterMap fun n => if p n then lastNamed n as else none) : p a.name ∧ lastNamed a.name as = some a := by
  obtain ⟨n, _, hn⟩ := List.mem_filterMap.mp h
  split at hn
  · next hp =>
    have := (lastNamed_name hn).2
    subst this
    exact ⟨hp, hn⟩
  · cases hn

end Aitch.Own

import Verif.Proofs.OwnOnce
import Verif.Props.OwnWhen
/-
Which attributes of a tag are rendered.
-/
namespace Aitch.Props

open Aitch.Spec Aitch.Spec.Own

/-- C89. What the attributes of a tag do, as it is in `C89_any_when`: the conditions are called, and with `held` the attributes
whose conditions hold, `Render` is called exactly once for every name among `as` and `held`, of the last one of that name, those
held coming after the others; first for the names in `as`, then for the rest.  Nothing else happens (`tick` counts the ranges
over maps, of which there are at most two). -/
theorem C89_once (as : List Own.OAttr) (whens : List (Own.OAttr × List Cond)) (env : Env) (s s' : St)
    (h : exec env (attributesOf as whens) s = some ((), s')) :
    ∃ held s₁, exec env (holding whens) s = some (held, s₁) ∧
      ∃ first second, (namesOf (first ++ second)).Nodup ∧ (∀ n, n ∈ namesOf first ↔ n ∈ namesOf as) ∧
        (∀ n, n ∈ namesOf (first ++ second) ↔ n ∈ namesOf (as ++ held)) ∧
        (∀ a ∈ first ++ second, lastNamed a.name (as ++ held) = some a) ∧
        ∃ t₁ s₂ t₂, exec env (each first) { s₁ with tick := t₁ } = some ((), s₂) ∧
          exec env (each second) { s₂ with tick := t₂ } = some ((), s') := by
  unfold attributesOf at h
  rw [exec_bind] at h
  obtain ⟨⟨held, s₁⟩, h₁, h⟩ := Option.bind_eq_some_iff.mp h
  refine ⟨held, s₁, h₁, ?_⟩
  cases held with
  | nil =>
    refine ⟨lastDeclared as, [], ?_, ?_, ?_, ?_, s₁.tick, s', s'.tick, h, rfl⟩
    all_goals have hn : namesOf (lastDeclared as) = distinct (namesOf as) := by
                rw [Own.lastDeclared_eq, Own.names_filterMap as (· ∈ namesOf as) _ fun _ _ h => h]
                rw [List.filter_eq_self]
                intro n hn
                simpa using (mem_distinct _ _).mp hn
    · rw [List.append_nil, hn]; exact nodup_distinct _
    · intro n; rw [hn, mem_distinct]
    · intro n; rw [List.append_nil, List.append_nil, hn, mem_distinct]
    · intro a ha
      rw [List.append_nil] at ha ⊢
      rw [Own.lastDeclared_eq] at ha
      exact (Own.mem_shown ha).2
  | cons b held =>
    rw [exec_bind] at h
    obtain ⟨⟨names, s₂⟩, h₂, h⟩ := Option.bind_eq_some_iff.mp h
    cases h₂
    rw [exec_bind] at h
    obtain ⟨⟨⟨⟩, s₃⟩, h₃, h⟩ := Option.bind_eq_some_iff.mp h
    rw [exec_bind] at h
    obtain ⟨⟨names', s₄⟩, h₄, h⟩ := Option.bind_eq_some_iff.mp h
    cases h₄
    simp only [Action.run] at h h₃
    have p₁ := env.order_perm s₁.tick (distinct (namesOf as))
    have p₂ := env.order_perm s₃.tick (distinct (namesOf (b :: held)))
    generalize env.order s₁.tick (distinct (namesOf as)) = names at *
    generalize env.order s₃.tick (distinct (namesOf (b :: held))) = names' at *
    have m₁ : ∀ n, n ∈ names ↔ n ∈ namesOf as := fun n => p₁.mem_iff.trans (mem_distinct _ _)
    have m₂ : ∀ n, n ∈ names' ↔ n ∈ namesOf (b :: held) := fun n => p₂.mem_iff.trans (mem_distinct _ _)
    have hsub : ∀ n, n ∈ namesOf as → n ∈ namesOf (as ++ b :: held) := fun n hn => by
      rw [namesOf, List.map_append]; exact List.mem_append_left _ hn
    have n₁ := Own.names_filterMap (as ++ b :: held) (· ∈ namesOf as) names fun n _ h => hsub n h
    have n₂ := Own.names_filterMap (b :: held) (· ∉ namesOf as) names' fun n hn _ => (m₂ n).mp hn
    have e₂ : (names'.filterMap fun n => if n ∈ namesOf as then none else lastNamed n (b :: held)) =
        names'.filterMap fun n => if n ∉ namesOf as then lastNamed n (b :: held) else none := by
      refine List.filterMap_congr fun n _ => ?_
      by_cases hn : n ∈ namesOf as <;> simp [hn]
    rw [e₂] at h
    have happ : ∀ x y : List Own.OAttr, namesOf (x ++ y) = namesOf x ++ namesOf y := fun x y => List.map_append
    refine ⟨_, _, ?_, ?_, ?_, ?_, _, s₃, _, h₃, h⟩
    · rw [happ, n₁, n₂]
      refine List.nodup_append.mpr ⟨(p₁.nodup_iff.mpr (nodup_distinct _)).filter _,
        (p₂.nodup_iff.mpr (nodup_distinct _)).filter _, ?_⟩
      intro x hx y hy hxy
      subst hxy
      have a1 := (List.mem_filter.mp hx).2
      have a2 := (List.mem_filter.mp hy).2
      simp at a1 a2
      exact a2 a1
    · intro n
      rw [n₁, List.mem_filter, m₁]
      simp
    · intro n
      rw [happ, happ, n₁, n₂, List.mem_append, List.mem_append, List.mem_filter, List.mem_filter, m₁, m₂]
      by_cases hn : n ∈ namesOf as <;> simp [hn]
    · intro a ha
      rcases List.mem_append.mp ha with ha | ha
      · exact (Own.mem_shown ha).2
      · have := Own.mem_shown ha
        rw [Own.lastNamed_append this.1]
        exact this.2

/-- The attributes of `whenContents` with the data of the sample: for `id` the conditional one, and one each for `title` and `rel`. -/
example : ∃ s', exec Sample.env (attributesOf (broughtAlways whenContents) (broughtWhen whenContents)) Sample.st = some ((), s') ∧
    s'.out = Sample.st.out ++ b%" id='y' title='u' rel='r'" := ⟨_, rfl, rfl⟩

end Aitch.Props

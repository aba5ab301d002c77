import Verif.Spec.Get
import Verif.Proofs.Bare
/-
Lemmas about `context.Get`.
-/
namespace Aitch
open Spec

theorem typed_eq_some {isT : Any → Bool} {v w : Any} : typed isT v = some w ↔ v = w ∧ isT v = true := by
  unfold typed
  split
  · rename_i h; simp [h]
  · rename_i h; simp [h]

theorem Spec.Has.bare {maps : MapId → List (Bytes × Any)} {key : Bytes} {x v : Any} (h : Has maps key x v) :
    x.beneath = x := by cases h <;> rfl

theorem Spec.Refused.bare {key : Bytes} {x : Any} (h : Refused key x) : x.beneath = x := by cases h <;> rfl

theorem getCargo_some (isT : Any → Bool) (maps : MapId → List (Bytes × Any)) (key : Bytes) (y v : Any) :
    getCargo isT maps key y = .val (some v) ↔ (∃ x, Bare y x ∧ Has maps key x v) ∧ isT v = true := by
  constructor
  · intro h
    have key' : Has maps key y.beneath v ∧ isT v = true := by
      unfold getCargo at h
      split at h
      · rename_i hy
        rw [hy]
        split at h
        · rename_i w hw
          simp only [Result.val.injEq, typed_eq_some] at h
          rw [← h.1]; exact ⟨.map hw, h.2⟩
        · simp at h
      · rename_i ty ks es hy
        rw [hy]
        split at h
        · rename_i hk
          subst hk
          split at h
          · rename_i w hw
            simp only [Result.val.injEq, typed_eq_some] at h
            rw [← h.1]; exact ⟨.strMap hw, h.2⟩
          · simp at h
        · simp at h
      · rename_i hy
        rw [hy]
        split at h
        · rename_i ex w hw
          split at h
          · rename_i he
            subst he
            simp only [Result.val.injEq, typed_eq_some] at h
            rw [← h.1]; exact ⟨.field hw, h.2⟩
          · simp at h
        · simp at h
        · simp at h
      · split at h <;> simp at h
      · simp at h
    exact ⟨⟨_, bare_beneath y, key'.1⟩, key'.2⟩
  · rintro ⟨⟨x, hx, h⟩, ht⟩
    have hy := hx.eq h.bare
    cases h with
    | map h => simp [getCargo, hy, h, typed, ht]
    | strMap h => simp [getCargo, hy, h, typed, ht]
    | field h => simp [getCargo, hy, h, typed, ht]

theorem getCargo_panic (isT : Any → Bool) (maps : MapId → List (Bytes × Any)) (key : Bytes) (y : Any) :
    getCargo isT maps key y = .panic ↔ ∃ x, Bare y x ∧ Refused key x := by
  constructor
  · intro h
    have key' : Refused key y.beneath := by
      unfold getCargo at h
      split at h
      · split at h <;> simp at h
      · rename_i ty ks es hy
        rw [hy]
        split at h
        · split at h <;> simp at h
        · rename_i hk
          rw [Bool.eq_false_iff.2 hk]; exact .key
      · rename_i hy
        rw [hy]
        split at h
        · rename_i ex w hw
          split at h
          · simp at h
          · rename_i he
            rw [Bool.eq_false_iff.2 he] at hw
            exact .unexported hw
        · rename_i hw; exact .nilEmbedded hw
        · simp at h
      · rename_i hy
        rw [hy]
        split at h
        · rename_i hk; exact .value hk
        · simp at h
      · simp at h
    exact ⟨_, bare_beneath y, key'⟩
  · rintro ⟨x, hx, h⟩
    have hy := hx.eq h.bare
    cases h with
    | key => simp [getCargo, hy]
    | unexported h => simp [getCargo, hy, h]
    | nilEmbedded h => simp [getCargo, hy, h]
    | value h => simp only [getCargo, hy]; exact if_pos h

theorem getCargoElem_some (isT : Any → Bool) (maps : MapId → List (Bytes × Any)) (key : Bytes) (cargo v : Any) :
    getCargoElem isT maps key cargo = .val (some v) ↔ (∃ x, IsOrPointsTo cargo x ∧ Has maps key x v) ∧ isT v = true := by
  unfold getCargoElem
  split
  · rename_i w hw
    rw [getCargo_some]
    constructor
    · rintro ⟨⟨x, hx, h1⟩, h2⟩; exact ⟨⟨x, .inr ⟨w, hw ▸ bare_beneath cargo, hx⟩, h1⟩, h2⟩
    · rintro ⟨⟨x, hx | ⟨y, hy, hx⟩, h1⟩, h2⟩
      · rw [hx.eq h1.bare] at hw; subst hw; cases h1
      · rw [hy.eq rfl] at hw
        simp only [Any.ptr.injEq, Option.some.injEq] at hw
        rw [← hw]; exact ⟨⟨x, hx, h1⟩, h2⟩
  · rename_i hw
    simp only [Result.val.injEq, reduceCtorEq, false_iff, not_and]
    rintro ⟨x, hx | ⟨y, hy, hx⟩, h1⟩
    · rw [hx.eq h1.bare] at hw; subst hw; cases h1
    · rw [hy.eq rfl] at hw; simp at hw
  · rename_i hw
    constructor
    · intro h; split at h <;> simp at h
    · rintro ⟨⟨x, hx | ⟨y, hy, hx⟩, h1⟩, -⟩
      · rw [hx.eq h1.bare] at hw; subst hw; cases h1
      · rw [hy.eq rfl] at hw; simp at hw
  · rename_i hp _ _
    rw [getCargo_some]
    constructor
    · rintro ⟨⟨x, hx, h1⟩, h2⟩; exact ⟨⟨x, .inl hx, h1⟩, h2⟩
    · rintro ⟨⟨x, hx | ⟨y, hy, hx⟩, h1⟩, h2⟩
      · exact ⟨⟨x, hx, h1⟩, h2⟩
      · exact absurd (hy.eq rfl) (hp _)

theorem nodeField_iff (n : Node) (k : Bytes) : NodeField n k ↔ k ∈ n.fields := by
  constructor
  · intro h
    cases h with
    | @attrName a => cases a <;> simp [Node.fields]
    | _ => simp [Node.fields]
  · intro h
    cases n with
    | attr a => cases a <;> simp only [Node.fields, List.mem_cons, List.not_mem_nil, or_false] at h <;>
        rcases h with rfl | rfl | rfl <;> constructor
    | _ => simp only [Node.fields, List.mem_cons, List.not_mem_nil, or_false] at h <;>
        rcases h with rfl | rfl | rfl | rfl | rfl <;> constructor

theorem getCargoElem_panic (isT : Any → Bool) (maps : MapId → List (Bytes × Any)) (key : Bytes) (cargo : Any) :
    getCargoElem isT maps key cargo = .panic ↔ CargoRefused key cargo := by
  unfold getCargoElem CargoRefused
  split
  · rename_i w hw
    rw [getCargo_panic]
    constructor
    · rintro ⟨x, hx, h1⟩; exact .inl ⟨x, .inr ⟨w, hw ▸ bare_beneath cargo, hx⟩, h1⟩
    · rintro (⟨x, hx | ⟨y, hy, hx⟩, h1⟩ | ⟨n, hn, -⟩)
      · rw [hx.eq h1.bare] at hw; subst hw; cases h1
      · rw [hy.eq rfl] at hw
        simp only [Any.ptr.injEq, Option.some.injEq] at hw
        rw [← hw]; exact ⟨x, hx, h1⟩
      · rw [hn.eq rfl] at hw; simp at hw
  · rename_i hw
    simp only [reduceCtorEq, false_iff, not_or]
    constructor
    · rintro ⟨x, hx | ⟨y, hy, hx⟩, h1⟩
      · rw [hx.eq h1.bare] at hw; subst hw; cases h1
      · rw [hy.eq rfl] at hw; simp at hw
    · rintro ⟨n, hn, -⟩
      rw [hn.eq rfl] at hw; simp at hw
  · rename_i n hw
    constructor
    · intro h
      split at h
      · rename_i hk; exact .inr ⟨n, hw ▸ bare_beneath cargo, (nodeField_iff _ _).2 hk⟩
      · simp at h
    · rintro (⟨x, hx | ⟨y, hy, hx⟩, h1⟩ | ⟨n', hn, hk⟩)
      · rw [hx.eq h1.bare] at hw; subst hw; cases h1
      · rw [hy.eq rfl] at hw; simp at hw
      · rw [hn.eq rfl] at hw
        simp only [Any.node.injEq] at hw
        rw [← hw]; exact if_pos ((nodeField_iff _ _).1 hk)
  · rename_i hp _ hn
    rw [getCargo_panic]
    constructor
    · rintro ⟨x, hx, h1⟩; exact .inl ⟨x, .inl hx, h1⟩
    · rintro (⟨x, hx | ⟨y, hy, hx⟩, h1⟩ | ⟨n, hx, -⟩)
      · exact ⟨x, hx, h1⟩
      · exact absurd (hy.eq rfl) (hp _)
      · exact absurd (hx.eq rfl) (hn _)

theorem Get_cases (isT : Any → Bool) (c : Ctx) (key : Bytes) :
    (∃ v, DataHas c key v ∧ isT v = true ∧ Get isT (some c) key = .val (some v)) ∨
    ((∀ v, DataHas c key v → isT v = false) ∧ Get isT (some c) key = getCargoElem isT c.maps key c.frame.cargo) := by
  unfold Get DataHas
  cases hd : c.frame.data with
  | none => right; simp [hd]
  | some m =>
    cases hl : (c.maps m).lookup key with
    | none => right; simp [hd, hl]
    | some v =>
      by_cases ht : isT v = true
      · left; exact ⟨v, ⟨m, rfl, hl⟩, ht, by simp [hd, hl, typed, ht]⟩
      · right
        refine ⟨?_, by simp [hd, hl, typed, ht]⟩
        rintro w ⟨m', hm, hw⟩
        simp only [Option.some.injEq] at hm
        subst hm
        rw [hl] at hw
        simp only [Option.some.injEq] at hw
        rw [← hw]
        exact Bool.eq_false_iff.2 ht

end Aitch

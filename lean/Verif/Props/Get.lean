import Verif.Proofs.Get
import Verif.Spec.Sample
/-
C31, C32: `context.Get` and `context.MustGet`.
-/
namespace Aitch.Props
open Spec

/-! ### C31 — context.Get lookup order and typing -/

/-- `Get` finds `v` exactly when Data has `v` under the key with the right type, or Data has no value of the right type
under the key and the Cargo has `v` with the right type. -/
theorem C31_found (isT : Any → Bool) (c : Ctx) (key : Bytes) (v : Any) :
    Get isT (some c) key = .val (some v) ↔
      (DataHas c key v ∧ isT v = true) ∨
      ((∀ w, DataHas c key w → isT w = false) ∧ CargoHas c key v ∧ isT v = true) := by
  rcases Get_cases isT c key with ⟨w, h1, h2, h3⟩ | ⟨h1, h2⟩
  · rw [h3]
    simp only [Result.val.injEq, Option.some.injEq]
    constructor
    · rintro rfl; exact .inl ⟨h1, h2⟩
    · rintro (⟨⟨m, hm, hl⟩, -⟩ | ⟨h, -⟩)
      · obtain ⟨m', hm', hl'⟩ := h1
        rw [hm] at hm'
        simp only [Option.some.injEq] at hm'
        subst hm'
        rw [hl] at hl'
        simpa using hl'.symm
      · exact absurd h2 (by simp [h w h1])
  · rw [h2, getCargoElem_some]
    constructor
    · intro h; exact .inr ⟨h1, h.1, h.2⟩
    · rintro (⟨h3, h4⟩ | ⟨-, h3, h4⟩)
      · exact absurd h4 (by simp [h1 v h3])
      · exact ⟨h3, h4⟩

/-- Otherwise, unless the Cargo refuses to be read (see C32), it reports false; with a nil context always. -/
theorem C31_missing (isT : Any → Bool) (c : Ctx) (key : Bytes) (hr : ¬ CargoRefused key c.frame.cargo)
    (h1 : ∀ w, DataHas c key w → isT w = false) (h2 : ∀ w, CargoHas c key w → isT w = false) :
    Get isT (some c) key = .val none ∧ Get isT none key = .val none := by
  refine ⟨?_, rfl⟩
  cases hg : Get isT (some c) key with
  | panic =>
    rcases Get_cases isT c key with ⟨w, h3, h4, -⟩ | ⟨-, h4⟩
    · exact absurd h4 (by simp [h1 w h3])
    · rw [h4, getCargoElem_panic] at hg
      exact absurd hg hr
  | val r =>
    cases r with
    | none => rfl
    | some v =>
      rcases (C31_found isT c key v).1 hg with ⟨h3, h4⟩ | ⟨-, h3, h4⟩
      · exact absurd h4 (by simp [h1 v h3])
      · exact absurd h4 (by simp [h2 v h3])

/-- `MustGet` returns what `Get` finds and panics exactly when `Get` does not find a value. -/
theorem C31_must (isT : Any → Bool) (ctx : Option Ctx) (key : Bytes) :
    (∀ v, MustGet isT ctx key = .val v ↔ Get isT ctx key = .val (some v)) ∧
    (MustGet isT ctx key = .panic ↔ ∀ v, Get isT ctx key ≠ .val (some v)) := by
  unfold MustGet
  cases Get isT ctx key with
  | panic => simp
  | val r => cases r <;> simp

/-- A context with Data and a struct as Cargo. -/
def getCtx : Ctx := { Sample.ctx with
  frame := { Sample.ctx.frame with
    data := some 7, cargo := .ptr (some (.struct 0 [(b%"Name", some (true, .str b%"n")), (b%"id", some (false, .int .int 1))])) }
  maps := fun m => if m = 7 then [(b%"a", .int .int 3), (b%"Name", .int .int 4)] else [] }

/-- Type `string`. -/
def isString : Any → Bool
  | .str _ => true
  | _ => false

example : Get isString (some getCtx) b%"Name" = .val (some (.str b%"n")) ∧
    Get isString (some getCtx) b%"a" = .val none ∧ Get isString (some getCtx) b%"id" = .panic := ⟨rfl, rfl, rfl⟩

theorem getCtx_read : ¬ CargoRefused b%"a" getCtx.frame.cargo := by
  rw [← getCargoElem_panic isString getCtx.maps]
  simp [getCtx, getCargoElem, getCargo, Any.beneath, List.lookup]

example := C31_missing (fun _ => false) getCtx b%"a" getCtx_read (fun _ _ => rfl) fun _ _ => rfl

/-- A Cargo whose type has a String method is read like any other. -/
example : Get isString (some { getCtx with frame := { getCtx.frame with
    cargo := .stringer 5 b%"s" (.ptr (some (.stringer 6 b%"s" (.struct 0 [(b%"Name", some (true, .str b%"n"))])))) } }) b%"Name" =
    .val (some (.str b%"n")) := rfl

/-! ### C32 — context.Get never panics (false in general) -/

/-- The full claim. -/
def C32_claim : Prop := ∀ (isT : Any → Bool) (ctx : Option Ctx) (key : Bytes), Get isT ctx key ≠ .panic

/-- An unexported field. -/
theorem C32_false : ¬ C32_claim := fun h => h isString (some getCtx) b%"id" rfl

/-- A map keyed by a named string type, whatever the key. -/
theorem C32_keys_false (isT : Any → Bool) (ty : Nat) (es : List (Bytes × Any)) (key : Bytes) :
    Get isT (some { Sample.ctx with frame := ⟨none, none, .strMap ty false es⟩ }) key = .panic := rfl

/-- It panics exactly when no value of the right type is in Data and the Cargo refuses the key. -/
theorem C32_partial (isT : Any → Bool) (c : Ctx) (key : Bytes) :
    Get isT (some c) key = .panic ↔ (∀ w, DataHas c key w → isT w = false) ∧ CargoRefused key c.frame.cargo := by
  rcases Get_cases isT c key with ⟨w, h1, h2, h3⟩ | ⟨h1, h2⟩
  · rw [h3]
    simp only [reduceCtorEq, false_iff, not_and]
    intro h
    exact absurd h2 (by simp [h w h1])
  · rw [h2, getCargoElem_panic]
    exact ⟨fun h => ⟨h1, h⟩, fun h => h.2⟩

example : Get isString (some getCtx) b%"id" = .panic :=
  (C32_partial isString getCtx b%"id").2 ⟨fun w ⟨m, hm, hl⟩ => by
    simp only [getCtx, Option.some.injEq] at hm
    subst hm
    simp [getCtx, List.lookup] at hl, (getCargoElem_panic isString getCtx.maps b%"id" getCtx.frame.cargo).1 rfl⟩

/-- In particular never for a Cargo that is nil, a `map[string]any`, another map keyed by `string`, or a struct with
exported fields only, nor for pointers to them, nor for a nil context. -/
theorem C32_safe_partial (isT : Any → Bool) (c : Ctx) (key : Bytes)
    (h : c.frame.cargo = .nil ∨ ∃ x, IsOrPointsTo c.frame.cargo x ∧
      ((∃ m, x = .map m) ∨ (∃ ty es, x = .strMap ty true es) ∨
        ∃ ty fs, x = .struct ty fs ∧ ∀ f ∈ fs, ∃ v, f.2 = some (true, v))) :
    Get isT (some c) key ≠ .panic ∧ Get isT none key ≠ .panic := by
  refine ⟨?_, by simp [Get]⟩
  rw [Ne, C32_partial]
  rintro ⟨-, hr⟩
  rcases h with h | ⟨x, h1, h2⟩
  · rw [h] at hr
    rcases hr with ⟨y, hy | ⟨z, hz, -⟩, h3⟩ | ⟨n, hn, -⟩
    · cases hy; cases h3
    · cases hz
    · cases hn
  · have hb : x.beneath = x := by rcases h2 with ⟨m, rfl⟩ | ⟨ty, es, rfl⟩ | ⟨ty, fs, rfl, -⟩ <;> rfl
    rcases hr with ⟨y, hy, h3⟩ | ⟨n, hn, -⟩
    · have e : x = y := by
        rcases h1 with h1 | ⟨z, h1, h1'⟩ <;> rcases hy with hy | ⟨z', hy, hy'⟩
        · exact (h1.eq hb).symm.trans (hy.eq h3.bare)
        · have := (h1.eq hb).symm.trans (hy.eq rfl)
          rcases h2 with ⟨m, rfl⟩ | ⟨ty, es, rfl⟩ | ⟨ty, fs, rfl, -⟩ <;> cases this
        · have := (h1.eq rfl).symm.trans (hy.eq h3.bare)
          subst this; cases h3
        · have := (h1.eq rfl).symm.trans (hy.eq rfl)
          simp only [Any.ptr.injEq, Option.some.injEq] at this
          subst this
          exact (h1'.eq hb).symm.trans (hy'.eq h3.bare)
      subst e
      rcases h2 with ⟨m, rfl⟩ | ⟨ty, es, rfl⟩ | ⟨ty, fs, rfl, hf⟩
      · cases h3
      · cases h3
      · have aux : ∀ (l : List (Bytes × Option (Bool × Any))) r, l.lookup key = some r → ∃ f ∈ l, f.2 = r := by
          intro l r hl
          induction l with
          | nil => simp at hl
          | cons e l ih =>
            rw [List.lookup_cons] at hl
            split at hl
            · simp only [Option.some.injEq] at hl
              exact ⟨e, by simp, hl⟩
            · obtain ⟨f, h4, h5⟩ := ih hl
              exact ⟨f, by simp [h4], h5⟩
        cases h3 with
        | unexported h =>
          obtain ⟨f, h4, h5⟩ := aux _ _ h
          obtain ⟨v, hv⟩ := hf f h4
          rw [hv] at h5; simp at h5
        | nilEmbedded h =>
          obtain ⟨f, h4, h5⟩ := aux _ _ h
          obtain ⟨v, hv⟩ := hf f h4
          rw [hv] at h5; simp at h5
    · rcases h1 with h1 | ⟨z, h1, -⟩
      · have := (h1.eq hb).symm.trans (hn.eq rfl)
        rcases h2 with ⟨m, rfl⟩ | ⟨ty, es, rfl⟩ | ⟨ty, fs, rfl, -⟩ <;> cases this
      · have := (h1.eq rfl).symm.trans (hn.eq rfl)
        cases this

example := C32_safe_partial isString { getCtx with frame := ⟨none, some 7, .map 7⟩ } b%"id"
  (.inr ⟨.map 7, .inl .same, .inl ⟨7, rfl⟩⟩)

end Aitch.Props

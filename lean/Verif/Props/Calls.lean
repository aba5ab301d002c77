import Verif.Proofs.Calls
import Verif.Props.Imperative
/-
C61: Imperative functions, call by call.  C62: ContentCollect.
-/
namespace Aitch.Props
open Spec

/-! ### C61 — an Imperative function writes what its calls say, in order -/

/-- An Imperative node can write `w` exactly when `w` consists of one piece for each call the function makes, in order, each
being what that call says (given the calls before it). -/
theorem C61_calls {P : Fns} (F : BuiltFns P) (c : Ctx) (he : c.frame.err = none) (f : FnId) (w : Bytes) :
    Renders P c (Imperative (some f)) w ↔ ∃ ws : List Bytes, ws.length = (P.imp f c).length ∧
      (∀ i op p, (P.imp f c)[i]? = some op → ws[i]? = some p → CallSays P c ((P.imp f c).take i) op p) ∧
      w = ws.flatten := by
  rw [renders_imperative F he, outOps_calls F he fun ns n => F.imp f c ns n]

example := (C61_calls Sample.built Sample.ctx rfl 0 b%"<p>a&lt;b</p>").1
  ⟨Sample.env, Sample.healthy, Sample.computes, Sample.st, _, rfl, ⟨2, rfl⟩, rfl⟩

/-- `Imperative(nil)` writes nothing. -/
theorem C61_nil {P : Fns} (F : BuiltFns P) (c : Ctx) (he : c.frame.err = none) :
    RendersExactly P c (Imperative none) [] := by
  intro w
  rw [(Built.imperative none).renders_iff F he]
  constructor
  · intro h; cases h; rfl
  · rintro rfl; exact .imperativeNil

example := C61_nil Sample.built Sample.ctx rfl

/-- A function without `WriteNodes` calls can write one thing only. -/
theorem C61_exactly {P : Fns} (F : BuiltFns P) (c : Ctx) (he : c.frame.err = none) (f : FnId)
    (hn : ∀ ns, .writeNodes ns ∉ P.imp f c) : ∃ w, RendersExactly P c (Imperative (some f)) w := by
  have hr := fun w => renders_imperative F he f w
  obtain ⟨w, hw⟩ := C25_runs F c he f fun ns h => absurd h (hn ns)
  refine ⟨w, fun w' => ⟨fun h => ?_, fun h => h ▸ hw⟩⟩
  obtain ⟨ws, h1, h2, rfl⟩ := (C61_calls F c he f w).1 hw
  obtain ⟨vs, g1, g2, rfl⟩ := (C61_calls F c he f w').1 h
  congr 1
  apply List.ext_getElem (by omega)
  intro i hi hi'
  have hio : i < (P.imp f c).length := by omega
  have k1 := h2 i _ _ (List.getElem?_eq_getElem hio) (List.getElem?_eq_getElem hi')
  have k2 := g2 i _ _ (List.getElem?_eq_getElem hio) (List.getElem?_eq_getElem hi)
  have hne := List.getElem_mem hio
  revert k1 k2
  generalize ho : (P.imp f c)[i] = op
  rw [ho] at hne
  intro k1 k2
  cases op with
  | writeNodes ns => exact absurd hne (hn ns)
  | _ => exact k2.trans k1.symm

example : RendersExactly Sample.fns Sample.ctx (Imperative (some 0)) b%"<p>a&lt;b</p>" := by
  obtain ⟨w, hw⟩ := C61_exactly Sample.built Sample.ctx rfl 0 (by
    intro ns h
    rw [show Sample.fns.imp 0 Sample.ctx = [.start b%"p" false [], .writeString b%"a<b", .end] from rfl] at h
    simp at h)
  have : b%"<p>a&lt;b</p>" = w := (hw _).1 <| (C61_calls Sample.built Sample.ctx rfl 0 _).2
    ⟨[b%"<p>", b%"a&lt;b", b%"</p>"], rfl, (by
      intro i op p ho hp
      match i with
      | 0 => cases ho; cases hp; rfl
      | 1 => cases ho; cases hp; rfl
      | 2 => cases ho; cases hp; rfl
      | (i + 3) => cases hp), rfl⟩
  rw [this]
  exact hw

/-! ### C62 — ContentCollect writes the nodes its function returns -/

/-- A ContentCollect node writes what the nodes write that its function returns, in order; nil nodes and attributes are
ignored. -/
theorem C62_collect {P : Fns} (F : BuiltFns P) (c : Ctx) (he : c.frame.err = none) (f : FnId) (w : Bytes) :
    Renders P c (ContentCollect (some f)) w ↔ RendersAll P c (nonAttrs ((P.collect f c).filterMap id)) w := by
  rw [(Built.contentCollect (some f)).renders_iff F he, rendersAll_iff F he fun n hn => F.collect f c n
    (by simpa using (List.mem_filter.1 hn).1)]
  constructor
  · intro h; cases h; assumption
  · exact .collector

example := (C62_collect Sample.built Sample.ctx rfl 0 b%"collected").1
  ⟨Sample.env, Sample.healthy, Sample.computes, Sample.st, _, rfl, ⟨2, rfl⟩, rfl⟩

/-- `ContentCollect(nil)` writes nothing. -/
theorem C62_nil {P : Fns} (F : BuiltFns P) (c : Ctx) (he : c.frame.err = none) :
    RendersExactly P c (ContentCollect none) [] := by
  intro w
  rw [(Built.contentCollect none).renders_iff F he]
  constructor
  · intro h
    cases h with
    | collection h => cases h; rfl
  · rintro rfl; exact .collection .nil

example := C62_nil Sample.built Sample.ctx rfl

/-- It writes what a `Collection` of the same nodes writes. -/
theorem C62_collection {P : Fns} (F : BuiltFns P) (c : Ctx) (he : c.frame.err = none) (f : FnId) (w : Bytes) :
    Renders P c (ContentCollect (some f)) w ↔ Renders P c (Collection (P.collect f c)) w := by
  rw [(Built.contentCollect (some f)).renders_iff F he, (Built.collection _ (F.collect f c)).renders_iff F he]
  constructor
  · intro h; cases h; exact .collection ‹_›
  · intro h; cases h; exact .collector ‹_›

example : RendersExactly Sample.fns Sample.ctx (ContentCollect (some 0)) b%"collected" := by
  intro w
  rw [(Built.contentCollect (some 0)).renders_iff Sample.built rfl]
  constructor
  · intro h
    cases h with
    | collector h =>
      cases h with
      | cons h1 h2 => cases h1; cases h2; rfl
  · rintro rfl
    exact .collector (.cons (w := b%"collected") (w' := []) .text .nil)

end Aitch.Props

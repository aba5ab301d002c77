import Verif.Spec.Bare
/-
Lemmas about values with a String method.
-/
namespace Aitch
open Spec

theorem bare_beneath : (v : Any) → Bare v v.beneath
  | .stringer _ _ v => .stringer (bare_beneath v)
  | .nil | .bool _ | .bytes _ | .str _ | .int .. | .float .. | .thunk _ | .dynFunc .. | .dynKey _ | .value _ | .node _
  | .map _ | .anySlice _ | .slice .. | .strMap .. | .struct .. | .ptr _ | .other _ => .same

theorem beneath_ne : (v : Any) → ∀ ty out x, v.beneath ≠ .stringer ty out x
  | .stringer _ _ v => beneath_ne v
  | .nil | .bool _ | .bytes _ | .str _ | .int .. | .float .. | .thunk _ | .dynFunc .. | .dynKey _ | .value _ | .node _
  | .map _ | .anySlice _ | .slice .. | .strMap .. | .struct .. | .ptr _ | .other _ => by intro _ _ _ h; cases h

theorem Spec.Bare.beneath {v x : Any} (h : Bare v x) : v.beneath = x.beneath := by
  induction h with
  | same => rfl
  | stringer _ ih => exact ih

/-- The bare value is unique. -/
theorem Spec.Bare.eq {v x : Any} (h : Bare v x) (hx : x.beneath = x) : v.beneath = x := h.beneath.trans hx

end Aitch

import Verif.Spec.GenEval
/-
The tables of GenerateCode agree with the packages.
-/
namespace Aitch

open Spec

/-- The function is the one for elements of this name. -/
def isElemFn (name : Bytes) : Option LibFn → Bool
  | some (.element f) => f.tag == name && (f.isVoid == htmlVoidNames.contains name)
  | _ => false

/-- The function is one for attributes of this name, boolean or not. -/
def isAttrFn (name : Bytes) (bool : Bool) : Option LibFn → Bool
  | some (.attribute f) => f.attr == name && ((f.kind == .bool) == bool)
  | _ => false

theorem htmlElems_ok : ∀ r ∈ htmlGenElems, isElemFn r.1 (resolve (b%"html." ++ r.2)) = true := by decide +kernel

theorem svgElems_ok : ∀ r ∈ svgGenElems, isElemFn r.1 (resolve (b%"svg." ++ r.2)) = true := by decide +kernel

theorem htmlAttrs_ok : ∀ r ∈ htmlGenAttrs, r.1 ≠ b%"aria-" → r.1 ≠ b%"data-" →
    isAttrFn r.1 (htmlGenBools.contains r.1) (resolve (b%"html." ++ r.2)) = true := by decide +kernel

theorem svgAttrs_ok : ∀ r ∈ svgGenAttrs, isAttrFn r.1 false (resolve (b%"svg." ++ r.2)) = true := by decide +kernel

end Aitch

import Verif.Spec.Library
import Verif.Proofs.Tag
import Verif.Proofs.Element
import Verif.Proofs.Format
/-
Several `style` declarations on one element.
-/
namespace Aitch
open Spec

theorem make_shape (P : Fns) (c : Ctx) (s : Styling) (h : Heap) :
    (s.make h).1 = .attr (.delim b%"style" b%"; " h.next) ∧ (s.make h).2.next = h.next + 1 ∧
    (∀ r, r < h.next → (s.make h).2.dl r = h.dl r) ∧
    ((s.make h).2.dl h.next).map (valueBytes P c) = s.parts P c h := by
  cases s with
  | property name value =>
    refine ⟨rfl, rfl, fun r hr => ?_, ?_⟩
    · simp [Styling.make, styleAttribute, NewDelimitedAttribute, upd]; omega
    · simp [Styling.make, styleAttribute, NewDelimitedAttribute, upd, Styling.parts, argsBytes, NewConcatValue,
        newValues, newValue, valueBytes, valueToBytes]
  | style value =>
    refine ⟨rfl, rfl, fun r hr => ?_, ?_⟩
    · simp [Styling.make, NewDelimitedAttribute, upd]; omega
    · simp [Styling.make, NewDelimitedAttribute, upd, Styling.parts]

theorem stylings_shape (P : Fns) (c : Ctx) (ss : List Styling) (h : Heap) :
    (stylings ss h).1 = (List.range' h.next ss.length).map (fun r => .attr (.delim b%"style" b%"; " r)) ∧
    (∀ r, r < h.next → (stylings ss h).2.dl r = h.dl r) ∧
    ((List.range' h.next ss.length).flatMap (stylings ss h).2.dl).map (valueBytes P c) = stylingParts P c ss h := by
  induction ss generalizing h with
  | nil => simp [stylings, stylingParts]
  | cons s ss ih =>
    obtain ⟨h1, h2, h3, h4⟩ := make_shape P c s h
    obtain ⟨i1, i2, i3⟩ := ih (s.make h).2
    rw [h2] at i1 i2 i3
    refine ⟨?_, fun r hr => ?_, ?_⟩
    · simp only [stylings, List.length_cons, List.range'_succ, List.map_cons, h1, i1]
    · simp only [stylings]; rw [i2 r (by omega), h3 r hr]
    · simp only [stylings, List.length_cons, List.range'_succ, List.flatMap_cons, List.map_append, i3, stylingParts]
      rw [i2 h.next (by omega), h4]

theorem newValues_append (dl : Nat → List Value) (a b : List Any) :
    newValues dl (a ++ b) = newValues dl a ++ newValues dl b := by
  induction a with
  | nil => rfl
  | cons x a ih => rw [List.cons_append, newValues_cons, newValues_cons, ih, List.append_assoc]

/-- The element with these declarations. -/
theorem staticAttrs_attrs (as : List Attr) : staticAttrs (as.map Node.attr) = as ∧
    declaredAll [] (as.map Node.attr) = as.map fun a => (a, []) := by
  have h2 : declaredAll [] (as.map Node.attr) = as.map fun a => (a, []) := by
    induction as with
    | nil => rfl
    | cons a as ih => simp only [List.map_cons, declaredAll, ih, declared]; rfl
  refine ⟨?_, h2⟩
  unfold staticAttrs
  rw [h2]
  induction as with
  | nil => rfl
  | cons a as ih => simp_all [declaredAll, declared]

theorem separate_attrs (k : Nat) (as : List Attr) : SeparateAll k (as.map Node.attr) := by
  induction as with
  | nil => trivial
  | cons a as ih => exact ⟨trivial, ih⟩

theorem inEffect_attrs (P : Fns) (c : Ctx) (as : List Attr) : inEffect P c (as.map Node.attr) = [] := by
  unfold inEffect
  rw [(staticAttrs_attrs as).2]
  simp

theorem map_asNode_node (dl : Nat → List Value) (ns : List Node) : (ns.map Any.node).map (asNode dl) = ns := by
  rw [List.map_map]
  exact List.map_id' _

theorem distinct_replicate (n : Bytes) (k : Nat) : distinct (List.replicate (k + 1) n) = [n] := by
  have : ∀ k, (distinct (List.replicate k n)).filter (· ≠ n) = [] := by
    intro k
    rw [List.filter_eq_nil_iff]
    intro x hx
    rw [mem_distinct] at hx
    have := List.eq_of_mem_replicate hx
    simp [this]
  rw [List.replicate_succ, distinct, this]

end Aitch

import Verif.Model.HtmlTables
import Verif.Model.SvgTables
import Verif.Model.HtmxTables
import Verif.Model.CssTables
import Verif.Model.Html
import Verif.Spec.Library
import Verif.Spec.Sample
import Verif.Proofs.Slice
import Verif.Props.Elements
/-
C40, C41, C44, C51: the packages html, svg, htmx and css.
-/
namespace Aitch.Props
open Spec

/-! ### C51 — constructors use the right element kind -/

/-- The full claim: for every element function of package html, `Element` with the same name returns the same node. -/
def C51_claim : Prop := ∀ f ∈ htmlElements, ∀ (strict : Bool) (contents : List Any) (h : Heap),
  Element strict f.tag contents h = .val (some (f.call contents h).1, (f.call contents h).2)

/-- The function `Track` makes an element with a closing tag although `track` is a void name. -/
theorem C51_false : ¬ C51_claim := by
  intro h
  have h1 := h ⟨b%"Track", b%"track", false⟩ (by decide +kernel) false [] .empty
  rw [C08_void false b%"track" [] .empty (by decide)] at h1
  simp only [Result.val.injEq, Prod.mk.injEq, Option.some.injEq] at h1
  exact absurd h1.1 (by unfold NewVoidElement ElemFn.call NewElement; simp)

/-- Their renderings differ too. -/
theorem C51_track_false : Writes Sample.env (ElemFn.call ⟨b%"Track", b%"track", false⟩ [] .empty).1 Sample.st
    b%"<track></track>" ∧
    ∃ n h, Element false b%"track" [] .empty = .val (some n, h) ∧ Writes Sample.env n Sample.st b%"<track>" :=
  ⟨⟨_, ⟨1, rfl⟩, rfl, rfl⟩, _, _, rfl, ⟨_, ⟨1, rfl⟩, rfl, rfl⟩⟩

/-- Every other element function of package html makes a void element iff its tag is a void name. -/
theorem C51_void_partial (f : ElemFn) (hf : f ∈ htmlElements) (ht : f.name ≠ b%"Track") :
    f.isVoid = true ↔ f.tag ∈ htmlVoidNames := by
  have : ∀ f ∈ htmlElements, f.name ≠ b%"Track" → (f.isVoid = true ↔ f.tag ∈ htmlVoidNames) := by decide +kernel
  exact this f hf ht

example := C51_void_partial ⟨b%"Br", b%"br", true⟩ (by decide +kernel) (by decide)

/-- Every other function and `Element` with the same name return the same node. -/
theorem C51_same_partial (f : ElemFn) (hf : f ∈ htmlElements) (ht : f.name ≠ b%"Track") (strict : Bool)
    (contents : List Any) (h : Heap) :
    Element strict f.tag contents h = .val (some (f.call contents h).1, (f.call contents h).2) := by
  have hv := C51_void_partial f hf ht
  unfold ElemFn.call
  by_cases hc : f.isVoid = true
  · rw [C08_void strict f.tag contents h (hv.1 hc), if_pos hc]
  · rw [if_neg hc]
    have hm : htmlTagMatch f.tag = true := by
      have : ∀ f ∈ htmlElements, htmlTagMatch f.tag = true := by decide +kernel
      exact this f hf
    exact C08_other strict f.tag contents h ((htmlTagMatch_iff _).1 hm) fun hn => hc (hv.2 hn)

example := C51_same_partial ⟨b%"Head", b%"head", false⟩ (by decide +kernel) (by decide) true [.str b%"x"] .empty

/-- The tag is the function's name in lower case; a few names end in `Element` to avoid a clash, and `Para` is another
name for `P`. -/
theorem C51_name (f : ElemFn) (hf : f ∈ htmlElements) :
    lower f.name = f.tag ∨ lower f.name = f.tag ++ b%"element" ∨ f.name = b%"Para" ∧ f.tag = b%"p" := by
  have : ∀ f ∈ htmlElements,
      lower f.name = f.tag ∨ lower f.name = f.tag ++ b%"element" ∨ f.name = b%"Para" ∧ f.tag = b%"p" := by
    decide +kernel
  exact this f hf

example := C51_name ⟨b%"Para", b%"p", false⟩ (by decide +kernel)

/-- All functions have different names (so a name in a table determines its row). -/
theorem C51_distinct : (htmlElements.map (·.name)).Nodup ∧ (svgElements.map (·.name)).Nodup := by
  constructor <;> decide +kernel

/-- The tags of package svg are the functions' names with a small first letter, but for five functions. -/
theorem C51_svg_name (f : ElemFn) (hf : f ∈ svgElements) :
    lower (f.name.take 1) ++ f.name.drop 1 = f.tag ∨
    (f.name, f.tag) ∈ [(b%"SolidColor", b%"solidcolor"), (b%"StyleElement", b%"style"), (b%"TextElement", b%"text"),
      (b%"TRef", b%"tref"), (b%"TSpan", b%"tspan")] := by
  have : ∀ f ∈ svgElements, lower (f.name.take 1) ++ f.name.drop 1 = f.tag ∨
      (f.name, f.tag) ∈ [(b%"SolidColor", b%"solidcolor"), (b%"StyleElement", b%"style"), (b%"TextElement", b%"text"),
        (b%"TRef", b%"tref"), (b%"TSpan", b%"tspan")] := by
    decide +kernel
  exact this f hf

example := C51_svg_name ⟨b%"LinearGradient", b%"linearGradient", false⟩ (by decide +kernel)

/-- The same for package svg, which has no void elements. -/
theorem C51_svg (f : ElemFn) (hf : f ∈ svgElements) (strict : Bool) (contents : List Any) (h : Heap) :
    Element strict f.tag contents h = .val (some (f.call contents h).1, (f.call contents h).2) := by
  have hv : f.isVoid = false ∧ f.tag ∉ htmlVoidNames ∧ htmlTagMatch f.tag = true := by
    have : ∀ f ∈ svgElements, f.isVoid = false ∧ f.tag ∉ htmlVoidNames ∧ htmlTagMatch f.tag = true := by
      decide +kernel
    exact this f hf
  unfold ElemFn.call
  rw [hv.1, if_neg (by simp)]
  exact C08_other strict f.tag contents h ((htmlTagMatch_iff _).1 hv.2.2) hv.2.1

example := C51_svg ⟨b%"LinearGradient", b%"linearGradient", false⟩ (by decide +kernel) true [.str b%"x"] .empty

example : (⟨b%"Br", b%"br", true⟩ : ElemFn) ∈ htmlElements ∧ (⟨b%"Head", b%"head", false⟩ : ElemFn) ∈ htmlElements ∧
    (⟨b%"LinearGradient", b%"linearGradient", false⟩ : ElemFn) ∈ svgElements := by decide +kernel

/-! ### C44 — Aria, Data and htmx.On names are independent -/

/-- A sequence of calls of `Aria`, `Data` and `On`, each given by its package's prefix slice and the argument; the
names they pass on, as slices. -/
def namesMade (grow : Slice → Nat → Nat) : List (Slice × Bytes) → Arrays UInt8 → List Slice × Arrays UInt8
  | [], m => ([], m)
  | (pre, name) :: calls, m =>
    let (s, m) := prefixedName grow pre name m
    let (ss, m) := namesMade grow calls m
    (s :: ss, m)

theorem namesMade_keeps (grow : Slice → Nat → Nat) (calls : List (Slice × Bytes)) (m : Arrays UInt8)
    (hp : ∀ c ∈ calls, InMemory m c.1 ∧ c.1.cap = c.1.len) (t : Slice) (ht : InMemory m t) :
    (namesMade grow calls m).2.read t = m.read t := by
  induction calls generalizing m with
  | nil => rfl
  | cons c calls ih =>
    obtain ⟨h1, h2⟩ := hp c (by simp)
    show (namesMade grow calls (append grow 0 c.1 c.2 m).2).2.read t = m.read t
    rw [ih (append grow 0 c.1 c.2 m).2
      (fun d hd => ⟨append_inMemory grow 0 c.2 h1 (hp d (by simp [hd])).1, (hp d (by simp [hd])).2⟩)
      (append_inMemory grow 0 c.2 h1 ht)]
    exact append_full grow 0 c.2 (by omega) ht

/-- The prefixes having no spare capacity, after any sequence of calls every name reads as its prefix followed by its
argument. -/
theorem C44_names (grow : Slice → Nat → Nat) (calls : List (Slice × Bytes)) (m : Arrays UInt8)
    (hp : ∀ c ∈ calls, InMemory m c.1 ∧ c.1.cap = c.1.len) :
    (namesMade grow calls m).1.map (namesMade grow calls m).2.read = calls.map fun c => m.read c.1 ++ c.2 := by
  induction calls generalizing m with
  | nil => rfl
  | cons c calls ih =>
    obtain ⟨h1, h2⟩ := hp c (by simp)
    have hp' : ∀ d ∈ calls, InMemory (append grow 0 c.1 c.2 m).2 d.1 ∧ d.1.cap = d.1.len := fun d hd =>
      ⟨append_inMemory grow 0 c.2 h1 (hp d (by simp [hd])).1, (hp d (by simp [hd])).2⟩
    have ih := ih (append grow 0 c.1 c.2 m).2 hp'
    show ((append grow 0 c.1 c.2 m).1 :: (namesMade grow calls (append grow 0 c.1 c.2 m).2).1).map
      (namesMade grow calls (append grow 0 c.1 c.2 m).2).2.read = _
    rw [List.map_cons, ih, namesMade_keeps grow calls _ hp' _ (append_result grow 0 c.2 h1),
      append_read grow 0 c.2 h1, List.map_cons]
    congr 1
    apply List.map_congr_left
    intro d hd
    rw [append_full grow 0 c.2 (by omega) (hp d (by simp [hd])).1]

/-- The condition is needed: with spare capacity the second of two calls renames the attribute of the first. -/
theorem C44_spare (grow : Slice → Nat → Nat) (pre : Slice) (m : Arrays UInt8) (h : InMemory m pre)
    (hc : pre.len < pre.cap) : ∃ s₁ s₂ m', namesMade grow [(pre, b%"x"), (pre, b%"y")] m = ([s₁, s₂], m') ∧
      m'.read s₁ = m.read pre ++ b%"y" := by
  have hc' : pre.len + 1 ≤ pre.cap := hc
  refine ⟨_, _, _, rfl, ?_⟩
  have e : (append grow 0 pre b%"x" m).1 = (append grow 0 pre b%"y" (append grow 0 pre b%"x" m).2).1 := by
    simp [append, hc']
  show ((append grow 0 pre b%"y" (append grow 0 pre b%"x" m).2).2).read (append grow 0 pre b%"x" m).1 = _
  rw [e, append_read grow 0 b%"y" (append_inMemory grow 0 b%"x" h h)]
  congr 1
  rcases h with ⟨h1, h2 | ⟨h2, h3⟩⟩
  · omega
  simp only [append, List.cons_ne_nil, if_false, List.length_singleton, hc', if_true, Arrays.read, Arrays.store]
  rw [splice, List.append_assoc, List.drop_append_of_le_length (by simp; omega), List.drop_take,
    List.take_append_of_le_length (by simp; omega), List.take_take]
  congr 1
  omega

/-- The memory with `attrAria`, `attrData` (html/attributes.go:1405, 1421) and `attrOn` (htmx/attributes.go:402), as the
gc compiler lays out package variables initialised by `[]byte("...")`: without spare capacity. -/
def prefixes : Arrays UInt8 :=
  ⟨fun | 0 => b%"aria-" | 1 => b%"data-" | 2 => b%"hx-on:" | _ => [], 3⟩

example : (namesMade (fun _ _ => 5) [(⟨0, 0, 5, 5⟩, b%"x"), (⟨1, 0, 5, 5⟩, b%"id"), (⟨0, 0, 5, 5⟩, b%"y")] prefixes).1.map
    (namesMade (fun _ _ => 5) [(⟨0, 0, 5, 5⟩, b%"x"), (⟨1, 0, 5, 5⟩, b%"id"), (⟨0, 0, 5, 5⟩, b%"y")] prefixes).2.read =
    [b%"aria-x", b%"data-id", b%"aria-y"] := rfl

example : ∀ c ∈ [((⟨0, 0, 5, 5⟩ : Slice), b%"x"), (⟨2, 0, 6, 6⟩, b%"click")],
    InMemory prefixes c.1 ∧ c.1.cap = c.1.len := by
  simp only [List.mem_cons, List.not_mem_nil, or_false]
  rintro c (rfl | rfl) <;> exact ⟨⟨by decide, .inr (by decide)⟩, rfl⟩

end Aitch.Props

import Verif.Model.CssTables
import Verif.Proofs.Library
import Verif.Proofs.Slice
import Verif.Proofs.Leaf
import Verif.Props.Attributes
/-
C40, C41: package css.
-/
namespace Aitch.Props
open Spec

/-! ### C40 — css properties and units -/

/-- A property function makes a `style` attribute with the property's name, a colon and the values of the arguments.
(`c` is any context in which the attribute still has the value it was made with.) -/
theorem C40_property {P : Fns} (F : BuiltFns P) (f : Bytes × Bytes) (hf : f ∈ cssProperties) (value : List Any)
    (h : Heap) (c : Ctx) (he : c.frame.err = none)
    (hcur : c.dl h.next = (styleAttribute f.2 value h).2.dl h.next) :
    RendersExactly P c (styleAttribute f.2 value h).1
      (b%" style=\"" ++ kebab f.1 ++ b%":" ++ argsBytes P c h.dl value ++ b%"\"") := by
  have hk : f.2 = kebab f.1 ++ b%":" := by
    have : ∀ f ∈ cssProperties, f.2 = kebab f.1 ++ b%":" := by decide +kernel
    exact this f hf
  have hr := C13_delimiter F c he b%"style" b%"; " [.value (NewConcatValue h.dl (.bytes f.2 :: value))] h hcur
  have hv : valueBytes P c (NewConcatValue h.dl (.bytes f.2 :: value)) = kebab f.1 ++ b%":" ++ argsBytes P c h.dl value := by
    rw [← hk]
    simp [NewConcatValue, newValues, newValue, valueBytes, valueToBytes, argsBytes]
  have hne : valueBytes P c (NewConcatValue h.dl (.bytes f.2 :: value)) ≠ [] := by rw [hv]; simp
  simp only [newValues, newValue, List.append_nil, List.map_cons, List.map_nil] at hr
  rw [← delimJoin_eq] at hr
  simp only [delimJoin, hv] at hr
  simpa [styleAttribute] using hr

example := C40_property Sample.built (b%"FlexGrow", b%"flex-grow:") (by decide +kernel) [.int .int 2] .empty
  { Sample.ctx with dl := (styleAttribute b%"flex-grow:" [.int .int 2] .empty).2.dl } rfl rfl

example : (b%"FlexGrow", b%"flex-grow:") ∈ cssProperties := by decide +kernel

/-- A unit function makes a value that is written as its arguments followed by the unit. -/
theorem C40_unit {P : Fns} (F : BuiltFns P) (grow : Slice → Nat → Nat) (dl dl' : Nat → List Value) (unit : Bytes)
    (value : Slice) (m : Arrays Any) (hv : InMemory m value) (c : Ctx) (he : c.frame.err = none) :
    RendersExactly P c (Text dl' [.value (unitFn grow dl unit value m).1]) (argsBytes P c dl (m.read value) ++ unit) := by
  have hv : valueBytes P c (unitFn grow dl unit value m).1 = argsBytes P c dl (m.read value) ++ unit := by
    simp only [unitFn]
    rw [append_read grow Any.nil [.bytes unit] hv]
    generalize m.read value = args
    rw [argsBytes, NewConcatValue, newValues_append]
    generalize newValues dl args = vs
    have : newValues dl [.bytes unit] = [.mk unit none []] := rfl
    rw [this]
    cases vs with
    | nil => simp [valueBytes, valuesBytes]
    | cons v vs => simp [valueBytes, valuesBytes, valuesBytes_append]
  rw [← hv]
  refine rendersExactly_of_out (n := Text dl' [.value (unitFn grow dl unit value m).1]) F.wf trivial he ?_ fun w h => ?_
  · exact (valuesBytes_one P c _) ▸ Out.text
  · cases h
    exact valuesBytes_one P c _

/-- `Px(a[1:3]...)` for an array `a` of four elements. -/
example := C40_unit Sample.built (fun _ _ => 0) (fun _ => []) (fun _ => []) b%"px" ⟨0, 1, 2, 3⟩
  ⟨fun _ => [.str b%"a", .int .int 1, .str b%"0", .str b%"b"], 1⟩ ⟨by decide, .inr (by decide)⟩ Sample.ctx rfl

/-- The units. -/
theorem C40_units (f : Bytes × Bytes) (hf : f ∈ cssUnits) :
    lower f.1 = f.2 ∨ f.1 = b%"Percent" ∧ f.2 = b%"%" := by
  have : ∀ f ∈ cssUnits, lower f.1 = f.2 ∨ f.1 = b%"Percent" ∧ f.2 = b%"%" := by decide +kernel
  exact this f hf

example := C40_units (b%"Px", b%"px") (by decide +kernel)

/-- Color and padding by functions, with a `Style` in between. -/
def someStylings : List Styling :=
  [.property b%"color:" [.str b%"red"], .style [.str b%"a:b"], .property b%"padding:" [.str b%"4", .str b%"px"]]

/-- Two property functions. -/
def someProperties : List ((Bytes × Bytes) × List Any) :=
  [((b%"Color", b%"color:"), [.str b%"red"]), ((b%"Padding", b%"padding:"), [.str b%"4", .str b%"px"])]

/-- Several property functions and `Style` declarations on one element make one `style` attribute in which their
parts are joined by `; `. -/
theorem C40_joined {P : Fns} (F : BuiltFns P) (c : Ctx) (he : c.frame.err = none) (name : Bytes) (ss : List Styling)
    (hs : ss ≠ []) (h : Heap)
    (hcur : c.dl = (NewVoidElement name ((stylings ss h).1.map .node) (stylings ss h).2).2.dl) :
    RendersExactly P c (NewVoidElement name ((stylings ss h).1.map .node) (stylings ss h).2).1
      (b%"<" ++ name ++ b%" style=\"" ++ delimJoin b%"; " (stylingParts P c ss h) ++ b%"\">") := by
  obtain ⟨h1, h2, h3⟩ := stylings_shape P c ss h
  obtain ⟨k, hk⟩ : ∃ k, ss.length = k + 1 := ⟨ss.length - 1, by have := List.length_pos_iff.2 hs; omega⟩
  rw [hk] at h1 h3
  generalize hdl : (stylings ss h).2 = h' at *
  generalize (stylings ss h).1 = ns at *
  have hns : ns = ((List.range' h.next (k + 1)).map fun r => Attr.delim b%"style" b%"; " r).map Node.attr := by
    rw [h1, List.map_map]; rfl
  generalize has : (List.range' h.next (k + 1)).map (fun r => Attr.delim b%"style" b%"; " r) = as at hns
  have hm : (ns.map Any.node).map (asNode h'.dl) = as.map Node.attr := by rw [map_asNode_node, hns]
  have hst : staticAttrs ((ns.map Any.node).map (asNode h'.dl)) = as := by rw [hm, (staticAttrs_attrs as).1]
  obtain ⟨l, hl, ht⟩ := static_tag F c he name (ns.map .node) h' (by
      intro n hn
      rw [mem_nodesIn] at hn
      obtain ⟨n', hn', he'⟩ := List.mem_map.1 hn
      simp only [Any.node.injEq] at he'
      subst he'
      rw [hns] at hn'
      obtain ⟨a, ha, rfl⟩ := List.mem_map.1 hn'
      rw [← has] at ha
      obtain ⟨r, -, rfl⟩ := List.mem_map.1 ha
      exact .newDelimitedAttribute b%"style" b%"; " [] ⟨fun _ => [], r⟩)
    (by rw [hm]; exact separate_attrs 0 as)
    (by
      rw [hst, ← has]
      unfold Unshared
      rw [List.filterMap_map]
      have : (refOf ∘ fun r => Attr.delim b%"style" b%"; " r) = some := rfl
      rw [this, List.filterMap_some]
      exact List.nodup_range')
    (by intro r _; rw [hcur])
    (by rw [hm]; exact inEffect_attrs P c as)
  have hname : as.map Attr.name = List.replicate (k + 1) b%"style" := by
    rw [← has, List.map_map]
    have : (Attr.name ∘ fun r => Attr.delim b%"style" b%"; " r) = fun _ => b%"style" := rfl
    rw [this, List.map_const', List.length_range']
  have hnamed : named b%"style" as = as := by
    unfold named
    rw [List.filter_eq_self]
    intro a ha
    rw [← has] at ha
    obtain ⟨r, -, rfl⟩ := List.mem_map.1 ha
    simp [Attr.name]
  have hl' : l = [(b%"style", some (delimJoin b%"; " (stylingParts P c ss h)))] := by
    simp only [TagSpec, if_true] at ht
    rw [hst, hname, distinct_replicate, List.filterMap_cons, hnamed] at ht
    rw [ht, nameShows_delim (n := b%"style") (d := b%"; ") (r := h.next) (by rw [← has]; simp [List.range'_succ])
      (by
        intro a ha
        rw [← has] at ha
        obtain ⟨r, -, rfl⟩ := List.mem_map.1 ha
        rfl)]
    have hvals : valuesOf h'.dl as = (List.range' h.next (k + 1)).flatMap h'.dl := by
      rw [← has, valuesOf, List.flatMap_map]; rfl
    rw [hvals]
    simp [named, valuesOf, ← h3]
  rw [hl'] at hl
  simpa [tagBytes, Shown.bytes] using hl

example := C40_joined Sample.built { Sample.ctx with dl := (NewVoidElement b%"p" ((stylings someStylings .empty).1.map .node)
  (stylings someStylings .empty).2).2.dl } rfl b%"p" someStylings (by simp [someStylings]) .empty rfl

/-- If they are all properties with a name, they are simply separated by `; `. -/
theorem C40_properties {P : Fns} (F : BuiltFns P) (c : Ctx) (he : c.frame.err = none) (name : Bytes)
    (ps : List ((Bytes × Bytes) × List Any)) (hp : ps ≠ []) (hf : ∀ p ∈ ps, p.1 ∈ cssProperties) (h : Heap)
    (hcur : c.dl = (NewVoidElement name ((stylings (propertyStylings ps) h).1.map .node)
      (stylings (propertyStylings ps) h).2).2.dl) :
    RendersExactly P c (NewVoidElement name ((stylings (propertyStylings ps) h).1.map .node)
      (stylings (propertyStylings ps) h).2).1
      (b%"<" ++ name ++ b%" style=\"" ++
        List.intercalate b%"; " (stylingParts P c (propertyStylings ps) h) ++ b%"\">") := by
  have hj := C40_joined F c he name (propertyStylings ps) (by simpa [propertyStylings] using hp) h hcur
  have hne : ∀ w ∈ stylingParts P c (propertyStylings ps) h, w ≠ [] := by
    have hcol : ∀ f ∈ cssProperties, f.2 ≠ [] := by decide +kernel
    clear hj hcur hp
    induction ps generalizing h with
    | nil => simp [propertyStylings, stylingParts]
    | cons p ps ih =>
      intro w hw
      simp only [propertyStylings, List.map_cons, stylingParts, Styling.parts, List.singleton_append, List.mem_cons] at hw
      rcases hw with rfl | hw
      · have := hcol p.1 (hf p (by simp))
        simp [this]
      · exact ih (fun q hq => hf q (by simp [hq])) _ w hw
  rw [delimJoin_eq, List.filter_eq_self.2 (by simpa using hne), if_neg, List.append_nil] at hj
  · exact hj
  · rintro ⟨-, hl⟩
    exact hne _ (List.mem_of_getLast? hl) rfl

example := C40_properties Sample.built { Sample.ctx with
    dl := (NewVoidElement b%"p" ((stylings (propertyStylings someProperties) .empty).1.map .node)
      (stylings (propertyStylings someProperties) .empty).2).2.dl } rfl b%"p" someProperties (by simp [someProperties])
  (by decide +kernel) .empty rfl

example : Writes Sample.env (NewVoidElement b%"p" ((stylings someStylings .empty).1.map .node)
    (stylings someStylings .empty).2).1
    { Sample.st with dl := (NewVoidElement b%"p" ((stylings someStylings .empty).1.map .node)
      (stylings someStylings .empty).2).2.dl }
    b%"<p style=\"color:red; a:b; padding:4px\">" := ⟨_, ⟨1, rfl⟩, rfl, rfl⟩

/-! ### C41 — css unit functions leave the caller's slice alone (false in general) -/

/-- The full claim: whatever slice the arguments are passed in, every slice in memory keeps its elements. -/
def C41_claim : Prop := ∀ (grow : Slice → Nat → Nat) (dl : Nat → List Value) (unit : Bytes) (value t : Slice)
  (m : Arrays Any), InMemory m value → InMemory m t → (unitFn grow dl unit value m).2.read t = m.read t

/-- `a := []any{1, 2}; Px(a[:1]...)` overwrites `a[1]`. -/
theorem C41_false : ¬ C41_claim := by
  intro h
  have h1 := h (fun _ _ => 0) (fun _ => []) b%"px" ⟨0, 0, 1, 2⟩ ⟨0, 0, 2, 2⟩
    ⟨fun _ => [.int .int 1, .int .int 2], 1⟩ ⟨by decide, .inr (by decide)⟩ ⟨by decide, .inr (by decide)⟩
  have h2 : [Any.int .int 1, Any.bytes b%"px"] = [Any.int .int 1, Any.int .int 2] := h1
  simp at h2

/-- The only array element that can change is the one after the arguments; slices not covering it are unaffected, the
slice of the arguments itself in particular. -/
theorem C41_partial (grow : Slice → Nat → Nat) (dl : Nat → List Value) (unit : Bytes) (value t : Slice)
    (m : Arrays Any) (hv : InMemory m value) (ht : InMemory m t)
    (hd : t.arr ≠ value.arr ∨ value.off + value.len < t.off ∨ t.off + t.len ≤ value.off + value.len) :
    (unitFn grow dl unit value m).2.read t = m.read t := by
  show (append grow Any.nil value [.bytes unit] m).2.read t = m.read t
  unfold append
  rw [if_neg (by simp)]
  by_cases hc : value.len + [Any.bytes unit].length ≤ value.cap
  · rw [if_pos hc]
    simp only [List.length_singleton] at hc
    simp only [Arrays.read, Arrays.store]
    split
    · rename_i he
      rw [he]
      rcases hv with ⟨-, hv | ⟨-, hv⟩⟩
      · omega
      rw [splice]
      simp only [List.length_singleton]
      rcases hd with hd | hd | hd
      · exact absurd he hd
      · rw [List.drop_append, List.drop_of_length_le (by simp; omega), List.nil_append, List.drop_drop]
        congr 2
        simp only [List.length_append, List.length_take, List.length_singleton]
        omega
      · by_cases h0 : t.len = 0
        · simp [h0]
        rw [List.append_assoc, List.drop_append_of_le_length (by simp; omega), List.drop_take,
          List.take_append_of_le_length (by simp; omega), List.take_take]
        congr 1
        omega
    · rfl
  · rw [if_neg hc]
    exact read_alloc_in ht

/-- `a := []any{1, 2, 3}; Px(a[:1]...)` leaves `a[2:]` and `a[:1]` alone. -/
example := C41_partial (fun _ _ => 0) (fun _ => []) b%"px" ⟨0, 0, 1, 3⟩ ⟨0, 2, 1, 1⟩
  ⟨fun _ => [.int .int 1, .int .int 2, .int .int 3], 1⟩ ⟨by decide, .inr (by decide)⟩ ⟨by decide, .inr (by decide)⟩
  (.inr (.inl (by decide)))

example := C41_partial (fun _ _ => 0) (fun _ => []) b%"px" ⟨0, 0, 1, 3⟩ ⟨0, 0, 1, 3⟩
  ⟨fun _ => [.int .int 1, .int .int 2, .int .int 3], 1⟩ ⟨by decide, .inr (by decide)⟩ ⟨by decide, .inr (by decide)⟩
  (.inr (.inr (by decide)))

/-- In particular, nothing at all changes when the slice of arguments has no spare capacity. -/
theorem C41_full_partial (grow : Slice → Nat → Nat) (dl : Nat → List Value) (unit : Bytes) (value t : Slice)
    (m : Arrays Any) (hf : value.cap = value.len) (ht : InMemory m t) :
    (unitFn grow dl unit value m).2.read t = m.read t :=
  append_full grow Any.nil [.bytes unit] (by omega) ht

/-- `Px(a[:1:1]...)` leaves `a` alone. -/
example := C41_full_partial (fun _ _ => 0) (fun _ => []) b%"px" ⟨0, 0, 1, 1⟩ ⟨0, 0, 3, 3⟩
  ⟨fun _ => [.int .int 1, .int .int 2, .int .int 3], 1⟩ rfl ⟨by decide, .inr (by decide)⟩

/-- This is so when the arguments are given one by one, `Px(x, y, z)`. -/
theorem C41_variadic_partial (grow : Slice → Nat → Nat) (dl : Nat → List Value) (unit : Bytes) (args : List Any)
    (t : Slice) (m : Arrays Any) (ht : InMemory m t) :
    (unitFn grow dl unit (variadic args m).1 (variadic args m).2).2.read t = m.read t := by
  have h1 : InMemory (variadic args m).2 t ∧ (variadic args m).2.read t = m.read t ∧
      (variadic args m).1.cap = (variadic args m).1.len := by
    unfold variadic
    split
    · exact ⟨ht, rfl, rfl⟩
    · refine ⟨⟨ht.1, ht.2.imp id fun h => ⟨Nat.lt_succ_of_lt h.1, ?_⟩⟩, read_alloc_in ht, rfl⟩
      simp only [Arrays.alloc]
      rw [if_neg (by omega)]
      exact h.2
  rw [C41_full_partial grow dl unit _ t _ h1.2.2 h1.1, h1.2.1]

example := C41_variadic_partial (fun _ _ => 0) (fun _ => []) b%"px" [.int .int 4] ⟨0, 0, 2, 3⟩
  ⟨fun _ => [.int .int 1, .int .int 2, .int .int 3], 1⟩ ⟨by decide, .inr (by decide)⟩

end Aitch.Props

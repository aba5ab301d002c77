import Verif.Model.HtmxTables
import Verif.Model.HtmlTables
import Verif.Model.SvgTables
import Verif.Spec.Repeated
import Verif.Proofs.Library
import Verif.Props.Attributes
/-
C65: repeated attributes that join.
-/
namespace Aitch.Props
open Spec

/-! ### C65 — repeated class-like attributes are joined -/

theorem calls_shape (P : Fns) (c : Ctx) (f : AttrFn) (d : Bytes) (hf : f.kind = .delim d) (as : List (List Any)) (h : Heap) :
    (calls f as h).1 = (List.range' h.next as.length).map (fun r => .attr (.delim f.attr d r)) ∧
    (∀ r, r < h.next → (calls f as h).2.dl r = h.dl r) ∧
    ((List.range' h.next as.length).flatMap (calls f as h).2.dl).map (valueBytes P c) = callParts P c f as h := by
  have hc : ∀ args h, f.call args h = NewDelimitedAttribute f.attr d args h := fun args h => by unfold AttrFn.call; rw [hf]
  induction as generalizing h with
  | nil => simp [calls, callParts]
  | cons s ss ih =>
    obtain ⟨i1, i2, i3⟩ := ih (f.call s h).2
    have h2 : (f.call s h).2.next = h.next + 1 := by rw [hc]; rfl
    have h3 : ∀ r, r < h.next → (f.call s h).2.dl r = h.dl r := by
      intro r hr
      rw [hc]
      simp [NewDelimitedAttribute, upd]; omega
    have h4 : (f.call s h).2.dl h.next = newValues h.dl s := by rw [hc]; simp [NewDelimitedAttribute, upd]
    rw [h2] at i1 i2 i3
    refine ⟨?_, fun r hr => ?_, ?_⟩
    · simp only [calls, List.length_cons, List.range'_succ, List.map_cons, i1]
      rw [hc]; rfl
    · simp only [calls]; rw [i2 r (by omega), h3 r hr]
    · simp only [calls, List.length_cons, List.range'_succ, List.flatMap_cons, List.map_append, i3, callParts]
      rw [i2 h.next (by omega), h4]

/-- Calling a function like `html.Class` or `htmx.Vars` several times for one element makes one attribute, with all
arguments of all calls in order, joined by the function's delimiter. -/
theorem C65_joined {P : Fns} (F : BuiltFns P) (c : Ctx) (he : c.frame.err = none) (name : Bytes) (f : AttrFn) (d : Bytes)
    (hf : f.kind = .delim d) (as : List (List Any)) (ha : as ≠ []) (h : Heap)
    (hcur : c.dl = (NewVoidElement name ((calls f as h).1.map .node) (calls f as h).2).2.dl) :
    RendersExactly P c (NewVoidElement name ((calls f as h).1.map .node) (calls f as h).2).1
      (b%"<" ++ name ++ b%" " ++ f.attr ++ b%"=\"" ++ delimJoin d (callParts P c f as h) ++ b%"\">") := by
  obtain ⟨h1, h2, h3⟩ := calls_shape P c f d hf as h
  obtain ⟨k, hk⟩ : ∃ k, as.length = k + 1 := ⟨as.length - 1, by have := List.length_pos_iff.2 ha; omega⟩
  rw [hk] at h1 h3
  generalize hdl : (calls f as h).2 = h' at *
  generalize (calls f as h).1 = ns at *
  have hns : ns = ((List.range' h.next (k + 1)).map fun r => Attr.delim f.attr d r).map Node.attr := by
    rw [h1, List.map_map]; rfl
  generalize has : (List.range' h.next (k + 1)).map (fun r => Attr.delim f.attr d r) = ats at hns
  have hm : (ns.map Any.node).map (asNode h'.dl) = ats.map Node.attr := by rw [map_asNode_node, hns]
  have hst : staticAttrs ((ns.map Any.node).map (asNode h'.dl)) = ats := by rw [hm, (staticAttrs_attrs ats).1]
  obtain ⟨l, hl, ht⟩ := static_tag F c he name (ns.map .node) h' (by
      intro n hn
      rw [mem_nodesIn] at hn
      obtain ⟨n', hn', he'⟩ := List.mem_map.1 hn
      simp only [Any.node.injEq] at he'
      subst he'
      rw [hns] at hn'
      obtain ⟨a, ha, rfl⟩ := List.mem_map.1 hn'
      rw [← has] at ha
      obtain ⟨r, -, rfl⟩ := List.mem_map.1 ha
      exact .newDelimitedAttribute f.attr d [] ⟨fun _ => [], r⟩)
    (by rw [hm]; exact separate_attrs 0 ats)
    (by
      rw [hst, ← has]
      unfold Unshared
      rw [List.filterMap_map]
      have : (refOf ∘ fun r => Attr.delim f.attr d r) = some := rfl
      rw [this, List.filterMap_some]
      exact List.nodup_range')
    (by intro r _; rw [hcur])
    (by rw [hm]; exact inEffect_attrs P c ats)
  have hname : ats.map Attr.name = List.replicate (k + 1) f.attr := by
    rw [← has, List.map_map]
    have : (Attr.name ∘ fun r => Attr.delim f.attr d r) = fun _ => f.attr := rfl
    rw [this, List.map_const', List.length_range']
  have hnamed : named f.attr ats = ats := by
    unfold named
    rw [List.filter_eq_self]
    intro a ha
    rw [← has] at ha
    obtain ⟨r, -, rfl⟩ := List.mem_map.1 ha
    simp [Attr.name]
  have hl' : l = [(f.attr, some (delimJoin d (callParts P c f as h)))] := by
    simp only [TagSpec, if_true] at ht
    rw [hst, hname, distinct_replicate, List.filterMap_cons, hnamed] at ht
    rw [ht, nameShows_delim (n := f.attr) (d := d) (r := h.next) (by rw [← has]; simp [List.range'_succ])
      (by
        intro a ha
        rw [← has] at ha
        obtain ⟨r, -, rfl⟩ := List.mem_map.1 ha
        rfl)]
    have hvals : valuesOf h'.dl ats = (List.range' h.next (k + 1)).flatMap h'.dl := by
      rw [← has, valuesOf, List.flatMap_map]; rfl
    rw [hvals]
    simp [named, valuesOf, ← h3]
  rw [hl'] at hl
  simpa [tagBytes, Shown.bytes, List.append_assoc] using hl

/-- Names and classes as strings: what `html.Class` is given, one by one, is separated by single spaces. -/
theorem callParts_strings (P : Fns) (c : Ctx) (f : AttrFn) (as : List (List Bytes)) (h : Heap) :
    callParts P c f (as.map (·.map .str)) h = as.flatten.map escaped := by
  have key : ∀ (dl : Nat → List Value) (l : List Bytes),
      (newValues dl (l.map .str)).map (valueBytes P c) = l.map escaped := by
    intro dl l
    induction l with
    | nil => rfl
    | cons s l ih =>
      rw [List.map_cons, newValues_cons, List.map_append, ih]
      simp [newValue, valueBytes, valueToBytes, escaped_eq]
  induction as generalizing h with
  | nil => rfl
  | cons a as ih => simp only [List.map_cons, callParts, key, ih, List.flatten_cons, List.map_append]

/-- For strings that show something: all of them, separated by the delimiter. -/
theorem C65_strings {P : Fns} (F : BuiltFns P) (c : Ctx) (he : c.frame.err = none) (name : Bytes) (f : AttrFn) (d : Bytes)
    (hf : f.kind = .delim d) (as : List (List Bytes)) (ha : as ≠ []) (hs : ∀ s ∈ as.flatten, ∃ x ∈ s, x ≠ 0) (h : Heap)
    (hcur : c.dl = (NewVoidElement name ((calls f (as.map (·.map .str)) h).1.map .node)
      (calls f (as.map (·.map .str)) h).2).2.dl) :
    RendersExactly P c (NewVoidElement name ((calls f (as.map (·.map .str)) h).1.map .node)
      (calls f (as.map (·.map .str)) h).2).1
      (b%"<" ++ name ++ b%" " ++ f.attr ++ b%"=\"" ++ List.intercalate d (as.flatten.map escaped) ++ b%"\">") := by
  have hj := C65_joined F c he name f d hf _ (by simpa using ha) h hcur
  rw [callParts_strings] at hj
  have hne : ∀ w ∈ as.flatten.map escaped, w ≠ [] := by
    intro w hw
    obtain ⟨s, hs', rfl⟩ := List.mem_map.1 hw
    obtain ⟨x, hx, hx0⟩ := hs s hs'
    intro he
    have : escapedByte x = [] := by
      have := (List.flatMap_eq_nil_iff.1 he) x hx
      exact this
    revert this
    unfold escapedByte
    repeat' split
    all_goals simp_all
  rw [delimJoin_eq, List.filter_eq_self.2 (by simpa using hne), if_neg, List.append_nil] at hj
  · exact hj
  · rintro ⟨-, hl⟩
    exact hne _ (List.mem_of_getLast? hl) rfl

example : (⟨b%"Class", b%"class", .delim b%" "⟩ : AttrFn) ∈ htmlAttributes ∧
    (⟨b%"Vars", b%"hx-vars", .delim b%", "⟩ : AttrFn) ∈ htmxAttributes := by
  constructor <;> decide +kernel

/-! ### Variables -/

theorem newValue_dl {v : Any} (hv : ∀ n, v ≠ .node n) (dl dl' : Nat → List Value) : newValue dl v = newValue dl' v := by
  cases v <;> first | rfl | exact absurd rfl (hv _)

theorem valueBytes_var (P : Fns) (c : Ctx) (dl : Nat → List Value) (v : Bytes × Any) (hv : ∀ n, v.2 ≠ .node n) :
    valueBytes P c (Var dl v.1 v.2) = varText P c v := by
  obtain ⟨n, v⟩ := v
  have h1 : newValues dl [v] = newValues (fun _ => []) [v] := by
    rw [newValues_cons, newValues_cons, newValue_dl hv dl (fun _ => [])]
    rfl
  have : newValues dl [.str n, .bytes b%": ", v] =
      [.mk (htmlEscapeString n) none [], .mk b%": " none []] ++ newValues (fun _ => []) [v] := by
    rw [newValues_cons, newValues_cons, h1]
    rfl
  simp only [Var, NewConcatValue, this, varText, argsBytes]
  simp [valueBytes, valuesBytes, escaped_eq]

/-- Variables given to `htmx.Vars`, in any number of calls, are declared one after the other, separated by commas. -/
theorem C65_vars {P : Fns} (F : BuiltFns P) (c : Ctx) (he : c.frame.err = none) (name : Bytes)
    (vss : List (List (Bytes × Any))) (hne : vss ≠ []) (hv : ∀ vs ∈ vss, ∀ v ∈ vs, ∀ n, v.2 ≠ .node n)
    (dl : Nat → List Value) (h : Heap) (f : AttrFn) (hf : f ∈ htmxAttributes) (hn : f.name = b%"Vars")
    (hcur : c.dl = (NewVoidElement name ((calls f (vss.map (varArgs dl)) h).1.map .node)
      (calls f (vss.map (varArgs dl)) h).2).2.dl) :
    RendersExactly P c (NewVoidElement name ((calls f (vss.map (varArgs dl)) h).1.map .node)
      (calls f (vss.map (varArgs dl)) h).2).1
      (b%"<" ++ name ++ b%" hx-vars=\"" ++ List.intercalate b%", " (vss.flatten.map (varText P c)) ++ b%"\">") := by
  have hk : f.attr = b%"hx-vars" ∧ f.kind = .delim b%", " := by
    have : ∀ f ∈ htmxAttributes, f.name = b%"Vars" → f.attr = b%"hx-vars" ∧ f.kind = .delim b%", " := by decide +kernel
    exact this f hf hn
  have hj := C65_joined F c he name f b%", " hk.2 _ (by simpa using hne) h hcur
  have hparts : callParts P c f (vss.map (varArgs dl)) h = vss.flatten.map (varText P c) := by
    clear hj hcur hne
    induction vss generalizing h with
    | nil => rfl
    | cons vs vss ih =>
      simp only [List.map_cons, callParts, List.flatten_cons, List.map_append]
      rw [ih (fun vs h => hv vs (.tail _ h))]
      congr 1
      have := hv vs (.head _)
      clear ih hv
      induction vs with
      | nil => rfl
      | cons v vs ih =>
        rw [varArgs, List.map_cons, newValues_cons, List.map_append, List.map_cons]
        rw [← ih fun w hw => this w (.tail _ hw)]
        simp only [newValue, List.map_cons, List.map_nil, List.singleton_append]
        rw [valueBytes_var P c dl v (this v (.head _))]
        rfl
  rw [hparts, hk.1] at hj
  have hne' : ∀ w ∈ vss.flatten.map (varText P c), w ≠ [] := by
    intro w hw
    obtain ⟨v, -, rfl⟩ := List.mem_map.1 hw
    simp [varText]
  rw [delimJoin_eq, List.filter_eq_self.2 (by simpa using hne'), if_neg, List.append_nil] at hj
  · simpa [List.append_assoc] using hj
  · rintro ⟨-, hl⟩
    exact hne' _ (List.mem_of_getLast? hl) rfl

/-- Two variables in one call, one in another. -/
def someVars : List (List (Bytes × Any)) := [[(b%"a", .bool true), (b%"b", .dynKey b%"name")], [(b%"c", .str b%"'x'")]]

/-- `Vars`. -/
def varsFn : AttrFn := ⟨b%"Vars", b%"hx-vars", .delim b%", "⟩

example : Writes Sample.env (NewVoidElement b%"p" ((calls varsFn (someVars.map (varArgs fun _ => [])) .empty).1.map .node)
    (calls varsFn (someVars.map (varArgs fun _ => [])) .empty).2).1
    { Sample.st with dl := (NewVoidElement b%"p" ((calls varsFn (someVars.map (varArgs fun _ => [])) .empty).1.map .node)
    (calls varsFn (someVars.map (varArgs fun _ => [])) .empty).2).2.dl }
    b%"<p hx-vars=\"a: true, b: &lt;Bob&gt;, c: &apos;x&apos;\">" := ⟨_, ⟨1, rfl⟩, rfl, rfl⟩

end Aitch.Props

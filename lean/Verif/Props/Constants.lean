import Verif.Model.Constants
import Verif.Model.HtmxTables
import Verif.Proofs.Slice
import Verif.Props.Style
import Verif.Spec.Keywords
/-
C67: the constants of packages css and htmx.
-/
namespace Aitch.Props
open Spec Markup

/-! ### C67 — constants stand for what they say -/

/-- Property functions with a constant each, each with or without `Important` after it. -/
def constantly (ks : List ((Bytes × Bytes) × (Bytes × Bytes) × Bool)) : Declared :=
  ks.map fun k => (k.1, .str k.2.1.2 :: (if k.2.2 then [.str b%" !important"] else []),
    k.2.1.2 ++ if k.2.2 then b%" !important" else [])

/-- Css properties with constants for values, with or without `Important`, are read back as they are. -/
theorem C67_css {P : Fns} (F : BuiltFns P) (c : Ctx) (he : c.frame.err = none) (name : Bytes)
    (hn : ValidName name) (hpl : Markup.lower name ≠ b%"plaintext") (ht : Markup.lower name ∉ textNames)
    (ks : List ((Bytes × Bytes) × (Bytes × Bytes) × Bool)) (hks : ks ≠ [])
    (hk : ∀ k ∈ ks, k.1 ∈ cssProperties ∧ k.2.1 ∈ cssConstants ∧ k.2.1.1 ≠ b%"Important") (h : Heap)
    (hcur : c.dl = (declare name (constantly ks) h).2.dl) (w : Bytes) (hw : Renders P c (declare name (constantly ks) h).1 w) :
    ReadsAs w name (ks.map fun k => (kebab k.1.1, k.2.1.2 ++ if k.2.2 then b%" !important" else [])) := by
  have htab : ∀ k ∈ cssConstants, k.1 ≠ b%"Important" → ∀ b : Bool,
      (∀ x ∈ k.2 ++ (if b then b%" !important" else []), x ∉ b%";\"'\\/()[]{}") ∧
      Css.trim (seen (k.2 ++ if b then b%" !important" else [])) = seen (k.2 ++ if b then b%" !important" else []) ∧
      seen (k.2 ++ if b then b%" !important" else []) = k.2 ++ if b then b%" !important" else [] := by decide +kernel
  have := C66_simple_partial F c he name hn hpl ht (constantly ks) (by simpa [constantly] using hks) (by
    intro d hd
    obtain ⟨k, hk', rfl⟩ := List.mem_map.1 hd
    refine ⟨(hk k hk').1, fun dl => ?_⟩
    dsimp only
    cases k.2.2 <;>
      simp [argsBytes, newValues, newValue, valueToBytes, escaped_eq, escaped_append, valuesBytes, valueBytes]) (by
    intro d hd
    obtain ⟨k, hk', rfl⟩ := List.mem_map.1 hd
    have := htab _ (hk k hk').2.1 (hk k hk').2.2 k.2.2
    exact ⟨this.1, this.2.1⟩) h hcur w hw
  rw [constantly, List.map_map] at this
  rw [show (ks.map fun k => (kebab k.1.1, k.2.1.2 ++ if k.2.2 then b%" !important" else [])) = ks.map _ from
    List.map_congr_left fun k hk' => ?_]
  · exact this
  · have := htab _ (hk k hk').2.1 (hk k hk').2.2 k.2.2
    simp only [Function.comp_apply]
    rw [this.2.1, this.2.2]

example : ReadsAs b%"<p style=\"display:inline-block !important\">" b%"p" [(b%"display", b%"inline-block !important")] := by
  let ks := [((b%"Display", b%"display:"), (b%"DisplayInlineBlock", b%"inline-block"), true)]
  exact C67_css Sample.built { Sample.ctx with dl := (declare b%"p" (constantly ks) .empty).2.dl } rfl b%"p"
    ((htmlTagMatch_iff _).1 (by decide)) (by decide) (by decide) ks (by simp [ks]) (by decide +kernel) .empty rfl _
    ⟨Sample.env, Sample.healthy, Sample.computes, { Sample.st with dl := (declare b%"p" (constantly ks) .empty).2.dl }, _,
      rfl, ⟨1, rfl⟩, rfl⟩

/-- `Important` is in the table of constants, with this value. -/
theorem C67_important : (b%"Important", b%" !important") ∈ cssConstants := by decide +kernel

example : ∀ k ∈ [((b%"Display", b%"display:"), (b%"DisplayInlineBlock", b%"inline-block"), true)],
    k.1 ∈ cssProperties ∧ k.2.1 ∈ cssConstants ∧ k.2.1.1 ≠ b%"Important" := by decide +kernel

/-- The other constants of package css are keywords of the property that their names begin with, namely the keyword
that their names end with (or one of five others). -/
theorem C67_keywords : ∀ k ∈ cssConstants, k.1 ≠ b%"Important" → ∃ p ∈ cssKeywords, p.pre <+: k.1 ∧ k.2 ∈ p.words ∧
    (k.2 = kebab (k.1.drop p.pre.length) ∨ k ∈ cssAbbreviations) := by decide +kernel

/-- The properties meant by these prefixes are properties of package css. -/
theorem C67_properties : ∀ p ∈ cssKeywords, ∃ f ∈ cssProperties, f.2 = p.property ++ b%":" := by decide +kernel

/-- The constants of package htmx for `Swap`, `Trigger` and `Sync` have the values that their names say, and those for
`Swap` and `Sync` are what htmx knows. -/
theorem C67_words : (∀ k ∈ htmxSwapConstants, k.2 ∈ htmxSwapWords ∧ Spec.lower k.1 = Spec.lower k.2) ∧
    (∀ k ∈ htmxTriggerConstants, k.2 = Spec.lower k.1) ∧ (∀ k ∈ htmxSyncConstants, k.2 ∈ htmxSyncWords ∧ k.2 = spaced k.1) ∧
    (∀ w ∈ htmxSwapWords, ∃ k ∈ htmxSwapConstants, k.2 = w) ∧ ∀ w ∈ htmxSyncWords, ∃ k ∈ htmxSyncConstants, k.2 = w := by
  decide +kernel

/-- Every constant `AttrX` but `AttrOn` is the name of the attribute that function `X` makes (`Headers` is not in the
table of functions, it makes `hx-headers`: see C42), and all functions but those for events have one. -/
theorem C67_attributes : (∀ k ∈ htmxAttrConstants, k = (b%"Headers", b%"hx-headers") ∨ k = (b%"On", b%"hx-on") ∨
      ∃ f ∈ htmxAttributes, f.name = k.1 ∧ f.attr = k.2) ∧
    ∀ f ∈ htmxAttributes, (f.name, f.attr) ∈ htmxAttrConstants ∨ b%"hx-on:" <+: f.attr := by
  constructor <;> decide +kernel

/-- `On` with a constant `EventX` makes an attribute of the same name as function `OnX`, provided that the prefix is
`hx-on:` (for the condition on its capacity, see C44). -/
theorem C67_events (k : Bytes × Bytes) (hk : k ∈ htmxEventConstants) (grow : Slice → Nat → Nat) (pre : Slice)
    (m : Arrays UInt8) (hp : InMemory m pre) (hon : m.read pre = b%"hx-on:") :
    ∃ f ∈ htmxAttributes, f.name = b%"On" ++ k.1 ∧ f.kind = .plain ∧
      (prefixedName grow pre k.2 m).2.read (prefixedName grow pre k.2 m).1 = f.attr := by
  have : ∀ k ∈ htmxEventConstants, ∃ f ∈ htmxAttributes, f.name = b%"On" ++ k.1 ∧ f.kind = .plain ∧
      b%"hx-on:" ++ k.2 = f.attr := by decide +kernel
  obtain ⟨f, h1, h2, h3, h4⟩ := this k hk
  refine ⟨f, h1, h2, h3, ?_⟩
  rw [← h4, ← hon]
  exact append_read grow 0 k.2 hp

example := C67_events (b%"BeforeSwap", b%"before-swap") (by decide +kernel) (fun _ _ => 0) ⟨0, 0, 6, 6⟩
  ⟨fun _ => b%"hx-on:", 1⟩ ⟨by decide, .inr (by decide)⟩ (by decide)

/-- All functions for events are for one of the constants. -/
theorem C67_all_events : ∀ f ∈ htmxAttributes, b%"hx-on:" <+: f.attr →
    ∃ k ∈ htmxEventConstants, f.name = b%"On" ++ k.1 := by decide +kernel

/-- Constants are written as they are: `f` with constants for arguments, for a plain attribute function, writes them
one after the other. -/
theorem C67_written {P : Fns} (c : Ctx) (dl : Nat → List Value) (ks : List (Bytes × Bytes))
    (hk : ∀ k ∈ ks, k ∈ cssConstants ++ htmxSwapConstants ++ htmxTriggerConstants ++ htmxEventConstants ++
      htmxSyncConstants ++ htmxAttrConstants) :
    argsBytes P c dl (ks.map fun k => .str k.2) = (ks.map (·.2)).flatten := by
  have htab : ∀ k ∈ cssConstants ++ htmxSwapConstants ++ htmxTriggerConstants ++ htmxEventConstants ++
      htmxSyncConstants ++ htmxAttrConstants, escaped k.2 = k.2 := by decide +kernel
  induction ks with
  | nil => rfl
  | cons k ks ih =>
    rw [List.map_cons, argsBytes_cons, ih fun k hk' => hk k (.tail _ hk'), List.map_cons, List.flatten_cons]
    congr 1
    have := htab k (hk k (.head _))
    simp only [argsBytes, newValues, newValue, valueToBytes, escaped_eq, valuesBytes, valueBytes, List.append_nil]
    simpa [valuesBytes, valueBytes] using this

example := C67_written (P := Sample.fns) Sample.ctx (fun _ => []) [(b%"Queue", b%"queue"), (b%"OuterHTML", b%"outerHTML")]
  (by decide +kernel)

example : (b%"Queue", b%"queue") ∈ htmxSyncConstants ∧ (b%"OuterHTML", b%"outerHTML") ∈ htmxSwapConstants := by
  decide +kernel

/-- Constants with different names in a group are different strings. -/
theorem C67_distinct : (htmxSwapConstants.map (·.2)).Nodup ∧ (htmxTriggerConstants.map (·.2)).Nodup ∧
    (htmxEventConstants.map (·.2)).Nodup ∧ (htmxSyncConstants.map (·.2)).Nodup ∧ (htmxAttrConstants.map (·.2)).Nodup := by
  decide +kernel

end Aitch.Props

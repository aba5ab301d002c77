import Verif.Props.Style
import Verif.Props.Htmx
import Verif.Proofs.HeadersRead
/-
C54: header maps, from the Go program to the JavaScript object.
-/
namespace Aitch.Props
open Spec Markup

/-! ### C54 — what a browser reads of header maps -/

/-- For the five references of the library: which keys are read back, exactly.  Those that have no reference, no single
quote, no backslash and no line end in them. -/
theorem C54_exact_partial (k v : Bytes) :
    (∃ rest, readString ((decode (oneHeader k v)).drop 1) = some (k, rest)) ↔
      (∀ r ∈ refs, ¬ r <:+: k) ∧ ∀ c ∈ k, c ∉ b%"'\\\n\r" := by
  have e : oneHeader k v = c%'{' :: c%'\'' :: (safeKey k ++ (c%'\'' :: c%':' :: c%' ' :: (v ++ b%"}"))) := by
    simp [oneHeader, objectText, List.intercalate]
  rw [e, decode_plain _ (by decide), decode_plain _ (by decide), decode_append _ _ (by unfold Outer; decide),
    decode_safeKey, decode_plain _ (by decide), ← decode_self_iff]
  generalize decode (c%':' :: c%' ' :: (v ++ b%"}")) = r
  simp only [List.drop_succ_cons, List.drop_zero, readString_iff, List.cons.injEq, true_and, exists_and_right]
  constructor
  · rintro ⟨⟨rest, h⟩, hc⟩
    refine ⟨?_, hc⟩
    rcases List.append_eq_append_iff.1 h with ⟨l, h1, h2⟩ | ⟨l, h1, h2⟩
    · cases l with
      | nil => simpa using h1.symm
      | cons x l =>
        simp only [List.cons_append, List.cons.injEq] at h2
        exact absurd (hc x (by rw [h1]; simp)) (by rw [← h2.1]; decide)
    · have hl := decode_length k
      have : l = [] := by
        have := congrArg List.length h1
        rw [List.length_append] at this
        exact List.length_eq_zero_iff.1 (by omega)
      rw [this] at h1
      simpa using h1
  · rintro ⟨h, hc⟩
    exact ⟨⟨r, by rw [h]⟩, hc⟩

example : (∀ r ∈ refs, ¬ r <:+: b%"R&D; \"x\"") ∧ ∀ c ∈ b%"R&D; \"x\"", c ∉ b%"'\\\n\r" := by decide

/-- `Headers` called for maps is a plain attribute, the value of which is the text of the object. -/
theorem headers_plain (P : Fns) (c : Ctx) (dl : Nat → List Value)
    {ord : Nat → GoMap → GoMap} (ho : Visits ord) (maps : List GoMap) (h1 : maps ≠ []) (hm : ∀ m ∈ maps, IsMap m) :
    ∃ args, Headers ord dl (maps.map (.strMap headersMapType true)) = .val (NewAttribute dl b%"hx-headers" args) ∧
    ∃ ks : List Bytes, ks.Pairwise Before ∧ (∀ k, k ∈ ks ↔ ∃ m ∈ maps, k ∈ keysOf m) ∧
      argsBytes P c dl args = objectText (headerBytes P c dl maps) ks := by
  obtain ⟨h2, h3⟩ := mergeMaps_spec ho 0 maps [] hm (by simp [IsMap, keysOf])
  obtain ⟨ks, h4, h5, h6⟩ := merged_text P c dl (ho (maps.map (Any.strMap headersMapType true)).length) maps h2
    (fun k => by rw [h3]; simp) []
  refine ⟨[.value (NewConcatValue dl
    (serialize (ord (maps.map (Any.strMap headersMapType true)).length) (mergeMaps ord 0 maps []) []))], ?_, ks, h4, h5, ?_⟩
  · unfold Headers
    rw [headersLoop_maps]
    cases maps with
    | nil => exact absurd rfl h1
    | cons m maps => rfl
  · have e : ∀ v, argsBytes P c dl [.value v] = valueBytes P c v := fun v => by
      simp [argsBytes, newValues, newValue, valuesBytes]
    rw [e, valueBytes_concat, h6]
    rfl

/-- What an element with one plain attribute writes. -/
theorem renders_onePlain {P : Fns} (F : BuiltFns P) (c : Ctx) (he : c.frame.err = none) (name att : Bytes)
    (dl : Nat → List Value) (args : List Any) (h : Heap) :
    RendersExactly P c (NewVoidElement name [.node (NewAttribute dl att args)] h).1
      (b%"<" ++ name ++ (b%" " ++ att ++ b%"=\"" ++ argsBytes P c dl args ++ b%"\"") ++ b%">") := by
  have hb : ∀ n ∈ nodesIn [.node (NewAttribute dl att args)], Built n := by
    intro n hn
    simp [nodesIn] at hn; subst hn
    exact .newAttribute dl att args
  intro w
  rw [(Built.newVoidElement name [.node (NewAttribute dl att args)] h hb).renders_iff F he]
  obtain ⟨hd, hnode, h1, h2, h3⟩ : ∃ hd, (NewVoidElement name [.node (NewAttribute dl att args)] h).1 = .voidElement hd ∧
      hd.name = name ∧ hd.attributes = [.plain att (newValues dl args)] ∧ hd.conditionals = [] := ⟨_, rfl, rfl, rfl, rfl⟩
  have hs : ∀ l, TagShows P c hd l ↔ l = [(att, some (argsBytes P c dl args))] := by
    intro l
    simp [TagShows, h2, h3, active, shown, argsBytes]
  have hb : tagBytes name [(att, some (argsBytes P c dl args))] =
      b%"<" ++ name ++ (b%" " ++ att ++ b%"=\"" ++ argsBytes P c dl args ++ b%"\"") ++ b%">" := by
    simp [tagBytes, Shown.bytes]
  rw [hnode, ← hb, ← h1]
  constructor
  · intro ho
    cases ho with
    | voidElement hl => rw [(hs _).1 hl]
  · rintro rfl
    exact .voidElement ((hs _).2 rfl)

/-- What a browser finds in the page `w`: one tag with one attribute `hx-headers`, and in its value, read as JavaScript,
an object with these members. -/
def ReadsHeaders (w name : Bytes) (ms : List (Bytes × Bytes)) : Prop :=
  ∀ R, ∃ t, readHtml R w = [.start (Markup.lower name) [(b%"hx-headers", t)] false] ∧
    ObjectSays t ms ∧ ∀ ms', ObjectSays t ms' → ms' = ms

/-- Header maps, the keys of all of which can be read, and the values of which stand for texts that JavaScript takes as
one thing: a browser finds an object with all their keys in alphabetical order, each with the value of the last map that
has it.  `text` says what the values stand for (strings, numbers, keys of data and so on, see C04). -/
theorem C54_object_partial {P : Fns} (F : BuiltFns P) (c : Ctx) (he : c.frame.err = none) (name : Bytes)
    (hn : ValidName name) (hpl : Markup.lower name ≠ b%"plaintext") (ht : Markup.lower name ∉ textNames) (h : Heap)
    {ord : Nat → GoMap → GoMap} (ho : Visits ord) (maps : List GoMap) (h1 : maps ≠ []) (hm : ∀ m ∈ maps, IsMap m)
    (hk : ∀ m ∈ maps, ∀ k ∈ keysOf m, ∀ b ∈ k, b ∉ b%"\x00&'\\\n\r") (text : Bytes → Bytes)
    (hv : ∀ m ∈ maps, ∀ k ∈ keysOf m, headerBytes P c h.dl maps k = escaped (text k) ∧ Literal (seen (text k))) :
    ∃ n, Headers ord h.dl (maps.map (.strMap headersMapType true)) = .val n ∧
    ∃ ks : List Bytes, ks.Pairwise Before ∧ (∀ k, k ∈ ks ↔ ∃ m ∈ maps, k ∈ keysOf m) ∧
    ∀ w, Renders P c (NewVoidElement name [.node n] h).1 w → ReadsHeaders w name (ks.map fun k => (k, seen (text k))) := by
  obtain ⟨args, h2, ks, h3, h4, h5⟩ := headers_plain P c h.dl ho maps h1 hm
  have hk' : ∀ k ∈ ks, ∀ b ∈ k, b ∉ b%"\x00&'\\\n\r" := fun k hk' => by
    obtain ⟨m, hm1, hm2⟩ := (h4 k).1 hk'
    exact hk m hm1 k hm2
  have hv' : ∀ k ∈ ks, headerBytes P c h.dl maps k = escaped (text k) ∧ Literal (seen (text k)) := fun k hk' => by
    obtain ⟨m, hm1, hm2⟩ := (h4 k).1 hk'
    exact hv m hm1 k hm2
  refine ⟨_, h2, ks, h3, h4, fun w hw R => ?_⟩
  have hsays : ObjectSays (c%'{' :: membersText (fun k => seen (text k)) ks) (ks.map fun k => (k, seen (text k))) := by
    refine objectSays (fun k => seen (text k)) ks (fun k hk b hb => ?_) fun k hk => (hv' k hk).2
    have := hk' k hk b hb
    simp only [List.mem_cons, List.not_mem_nil, or_false, not_or] at this ⊢
    exact this.2.2
  refine ⟨_, ?_, hsays, fun ms' h' => objectSays_unique h' hsays⟩
  rw [(renders_onePlain F c he name b%"hx-headers" h.dl args h w).1 hw, h5]
  refine read_oneAttr R name b%"hx-headers" _ _ hn ((htmlTagMatch_iff _).1 (by decide)) hpl ht fun t n rest => ?_
  have e : objectText (headerBytes P c h.dl maps) ks ++ rest =
      b%"{" ++ (List.intercalate b%", " (ks.map fun k => b%"'" ++ safeKey k ++ b%"': " ++ escaped (text k)) ++
        (b%"}" ++ rest)) := by
    unfold objectText
    rw [List.map_congr_left (g := fun k => b%"'" ++ safeKey k ++ b%"': " ++ escaped (text k))
      fun k hk => by rw [(hv' k hk).1]]
    simp
  rw [e, run_quotedBytes R t n _ b%"{" _ (by decide), run_quotedMembers R t n _ text ks fun k hk b hb => ?_]
  · simp
  · have := hk' k hk b hb
    simp only [List.mem_cons, List.not_mem_nil, or_false, not_or] at this
    exact ⟨this.1, this.2.1⟩

/-- Two maps: a string for JavaScript, and numbers; `X-"Id"` is in both. -/
def headerMaps : List GoMap :=
  [[(b%"X-\"Id\"", .str b%"1"), (b%"B<", .str b%"'it&is'")], [(b%"X-\"Id\"", .str b%"2.5")]]

def headerText (k : Bytes) : Bytes := if k = b%"B<" then b%"'it&is'" else b%"2.5"

theorem headerMaps_met : (∀ m ∈ headerMaps, IsMap m) ∧
    (∀ m ∈ headerMaps, ∀ k ∈ keysOf m, ∀ b ∈ k, b ∉ b%"\x00&'\\\n\r") ∧
    ∀ m ∈ headerMaps, ∀ k ∈ keysOf m, headerBytes Sample.fns Sample.ctx (fun _ => []) headerMaps k = escaped (headerText k) ∧
      Literal (seen (headerText k)) := by
  refine ⟨by simp only [IsMap]; decide, by decide, ?_⟩
  have h1 : Literal (seen b%"2.5") := .inl (by decide)
  have h2 : Literal (seen b%"'it&is'") := .inr ⟨b%"it&is", by unfold Clean; decide, rfl⟩
  simp only [headerMaps, keysOf, List.mem_cons, List.not_mem_nil, or_false, forall_eq_or_imp, forall_eq, List.map_cons,
    List.map_nil]
  exact ⟨⟨⟨rfl, h1⟩, rfl, h2⟩, rfl, h1⟩

example := C54_object_partial Sample.built Sample.ctx rfl b%"div" ((htmlTagMatch_iff _).1 (by decide)) (by decide) (by decide)
  .empty visits_reverse headerMaps (by decide) headerMaps_met.1 headerMaps_met.2.1 headerText headerMaps_met.2.2

example : ∃ n, Headers (fun _ m => m.reverse) (fun _ => []) (headerMaps.map (.strMap headersMapType true)) = .val n ∧
    Writes Sample.env (NewVoidElement b%"div" [.node n] .empty).1 Sample.st
      b%"<div hx-headers=\"{'B<': &apos;it&amp;is&apos;, 'X-&quot;Id&quot;': 2.5}\">" :=
  ⟨_, rfl, by refine ⟨_, ⟨1, rfl⟩, ?_, ?_⟩ <;> rfl⟩

end Aitch.Props

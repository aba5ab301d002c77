import Verif.Proofs.HtmxText
import Verif.Proofs.Escape
import Verif.Spec.Sample
/-
C42, C43, C54: htmx headers.
-/
namespace Aitch.Props
open Spec

/-! ### C42 — htmx headers are serialised deterministically -/

/-- Two maps with a key in common. -/
def someMaps : List GoMap := [[(b%"X", .str b%"1"), (b%"B", .str b%"2")], [(b%"A", .str b%"3"), (b%"X", .str b%"<4")]]

theorem someMaps_maps : ∀ m ∈ someMaps, IsMap m := by simp only [IsMap]; decide

/-- They may be visited backwards. -/
theorem visits_reverse : Visits (fun _ m => m.reverse) := fun _ m => m.reverse_perm

/-- `Headers` with one or more header maps writes one object: the keys of all the maps in alphabetical order, each
with the value of the last map that has it.  (`ord` is the order in which the runtime visits maps.) -/
theorem C42_headers {P : Fns} (F : BuiltFns P) (c : Ctx) (he : c.frame.err = none) (dl : Nat → List Value)
    {ord : Nat → GoMap → GoMap} (ho : Visits ord) (maps : List GoMap) (h1 : maps ≠ []) (hm : ∀ m ∈ maps, IsMap m) :
    ∃ n, Headers ord dl (maps.map (.strMap headersMapType true)) = .val n ∧
    ∃ ks : List Bytes, ks.Pairwise Before ∧ (∀ k, k ∈ ks ↔ ∃ m ∈ maps, k ∈ keysOf m) ∧
      RendersExactly P c n (b%" hx-headers=\"" ++ objectText (headerBytes P c dl maps) ks ++ b%"\"") := by
  obtain ⟨h2, h3⟩ := mergeMaps_spec ho 0 maps [] hm (by simp [IsMap, keysOf])
  obtain ⟨ks, h4, h5, h6⟩ := merged_text P c dl (ho (maps.map (Any.strMap headersMapType true)).length) maps h2
    (fun k => by rw [h3]; simp) []
  refine ⟨NewAttribute dl b%"hx-headers" [.value (NewConcatValue dl
    (serialize (ord (maps.map (Any.strMap headersMapType true)).length) (mergeMaps ord 0 maps []) []))], ?_, ks, h4, h5, ?_⟩
  · unfold Headers
    rw [headersLoop_maps]
    cases maps with
    | nil => exact absurd rfl h1
    | cons m maps => rfl
  · have := rendersExactly_plain F c he dl b%"hx-headers" [.value (NewConcatValue dl
      (serialize (ord (maps.map (Any.strMap headersMapType true)).length) (mergeMaps ord 0 maps []) []))]
    have e : ∀ v, argsBytes P c dl [.value v] = valueBytes P c v := fun v => by
      simp [argsBytes, newValues, newValue, valuesBytes]
    rw [e, valueBytes_concat, h6] at this
    exact this

example := C42_headers Sample.built Sample.ctx rfl (fun _ => []) visits_reverse someMaps (by decide) someMaps_maps

/-- `HeadersJS` writes the same object after `js:`. -/
theorem C42_headersJS {P : Fns} (F : BuiltFns P) (c : Ctx) (he : c.frame.err = none) (dl : Nat → List Value)
    {ord : Nat → GoMap → GoMap} (ho : Visits ord) (maps : List GoMap) (hm : ∀ m ∈ maps, IsMap m) :
    ∃ ks : List Bytes, ks.Pairwise Before ∧ (∀ k, k ∈ ks ↔ ∃ m ∈ maps, k ∈ keysOf m) ∧
      RendersExactly P c (HeadersJS ord dl maps)
        (b%" hx-headers=\"js:" ++ objectText (headerBytes P c dl maps) ks ++ b%"\"") := by
  obtain ⟨h2, h3⟩ := mergedJS_spec ho maps hm
  obtain ⟨ks, h4, h5, h6⟩ := merged_text P c dl (ho maps.length) maps h2 h3 b%"js:"
  refine ⟨ks, h4, h5, ?_⟩
  have := rendersExactly_plain F c he dl b%"hx-headers" [.value (NewConcatValue dl
    (serialize (ord maps.length) (mergedJS ord maps) b%"js:"))]
  have e : ∀ v, argsBytes P c dl [.value v] = valueBytes P c v := fun v => by
    simp [argsBytes, newValues, newValue, valuesBytes]
  rw [e, valueBytes_concat, h6] at this
  simpa [HeadersJS] using this

example := C42_headersJS Sample.built Sample.ctx rfl (fun _ => []) visits_reverse someMaps someMaps_maps

/-- The list of keys in C42 is determined by its two conditions, so the text does not depend on the order in which
maps are visited. -/
theorem C42_order {l m : List Bytes} (hl : l.Pairwise Before) (hm : m.Pairwise Before) (h : ∀ k, k ∈ l ↔ k ∈ m) :
    l = m := before_unique hl hm h

example {l : List Bytes} (hl : l.Pairwise Before) (h : ∀ k, k ∈ l ↔ k ∈ [b%"A", b%"AB"]) : l = [b%"A", b%"AB"] :=
  C42_order hl (by simp [Before]) h

/-- `Headers` panics exactly when header maps and other values are mixed. -/
theorem C42_panic (ord : Nat → GoMap → GoMap) (dl : Nat → List Value) (value : List Any) :
    Headers ord dl value = .panic ↔
      (∃ v ∈ value, ∃ m, v = .strMap headersMapType true m) ∧ ∃ v ∈ value, ∀ m, v ≠ .strMap headersMapType true m := by
  have hs : ∀ v, (asHeadersMap v).isSome ↔ ∃ m, v = .strMap headersMapType true m := by
    intro v
    constructor
    · intro h
      unfold asHeadersMap at h
      split at h
      · rename_i ty m
        split at h
        · rename_i he; rw [he]; exact ⟨m, rfl⟩
        · simp at h
      · simp at h
    · rintro ⟨m, rfl⟩; simp [asHeadersMap]
  have hn : ∀ v, asHeadersMap v = none ↔ ∀ m, v ≠ .strMap headersMapType true m := by
    intro v
    have := hs v
    cases h : asHeadersMap v with
    | none => rw [h] at this; simpa using this
    | some m => rw [h] at this; simpa using this
  have hf := (headersLoop_flags ord 0 value false false [] (by simp)).1
  simp only [Bool.false_eq_true, false_or] at hf
  simp only [hs, hn] at hf
  rw [← hf]
  unfold Headers
  obtain ⟨fm, fo, merged⟩ := headersLoop ord 0 value false false []
  cases fm <;> cases fo <;> simp

example : Headers (fun _ m => m) (fun _ => []) [.str b%"x", .strMap headersMapType true []] = .panic :=
  (C42_panic _ _ _).2 ⟨⟨_, .tail _ (.head _), [], rfl⟩, _, .head _, fun _ h => by cases h⟩

/-- Without header maps, `Headers` is a plain attribute. -/
theorem C42_plain (ord : Nat → GoMap → GoMap) (dl : Nat → List Value) (value : List Any)
    (h : ∀ v ∈ value, ∀ m, v ≠ .strMap headersMapType true m) :
    Headers ord dl value = .val (NewAttribute dl b%"hx-headers" value) := by
  have hn : ∀ v ∈ value, asHeadersMap v = none := by
    intro v hv
    unfold asHeadersMap
    split
    · rename_i ty m
      split
      · rename_i he; exact absurd (by rw [he]) (h _ hv m)
      · rfl
    · rfl
  have hf := (headersLoop_flags ord 0 value false false [] (by simp)).2 hn
  unfold Headers
  generalize headersLoop ord 0 value false false [] = r at hf
  obtain ⟨fm, fo, merged⟩ := r
  simp only at hf
  subst hf
  simp

example := C42_plain (fun _ m => m) (fun _ => []) [.str b%"{}", .int .int 7] (by simp)

example : ∃ n, Headers (fun _ m => m.reverse) (fun _ => []) (someMaps.map (.strMap headersMapType true)) = .val n ∧
    Writes Sample.env n Sample.st b%" hx-headers=\"{'A': 3, 'B': 2, 'X': &lt;4}\"" :=
  ⟨_, rfl, ⟨_, ⟨1, rfl⟩, rfl, rfl⟩⟩

/-! ### C43 — header keys cannot leave the attribute -/

/-- The object text contains a double quote only if a value does. -/
theorem C43_object (val : Bytes → Bytes) (ks : List Bytes) (hv : ∀ k ∈ ks, c%'"' ∉ val k) :
    c%'"' ∉ objectText val ks := by
  have hk : ∀ k, c%'"' ∉ safeKey k := by
    intro k h
    obtain ⟨x, -, hx⟩ := List.mem_flatMap.1 h
    split at hx
    · revert hx; decide
    · rename_i hne; exact hne (List.mem_singleton.1 hx).symm
  have hi : ∀ l : List Bytes, (∀ w ∈ l, c%'"' ∉ w) → c%'"' ∉ List.intercalate b%", " l := by
    intro l
    induction l with
    | nil => intro _ h; simp [List.intercalate] at h
    | cons w l ih =>
      intro h hx
      cases l with
      | nil =>
        simp [List.intercalate] at hx
        exact h w (by simp) hx
      | cons w' l =>
        have e : List.intercalate b%", " (w :: w' :: l) = w ++ b%", " ++ List.intercalate b%", " (w' :: l) := by
          simp [List.intercalate]
        rw [e, List.mem_append, List.mem_append] at hx
        rcases hx with (hx | hx) | hx
        · exact h w (by simp) hx
        · revert hx; decide
        · exact ih (fun w hw => h w (by simp [hw])) hx
  unfold objectText
  intro h
  rw [List.mem_append, List.mem_append] at h
  rcases h with (h | h) | h
  · revert h; decide
  · refine hi _ ?_ h
    intro w hw
    obtain ⟨k, hk', rfl⟩ := List.mem_map.1 hw
    intro hx
    rw [List.mem_append, List.mem_append, List.mem_append] at hx
    rcases hx with ((hx | hx) | hx) | hx
    · revert hx; decide
    · exact hk k hx
    · revert hx; decide
    · exact hv k hk' hx
  · revert h; decide

example := C43_object (fun _ => b%"&quot;") [b%"a\" onload=\""] (by decide)

/-- So whatever the keys are, the attribute written by `Headers` ends where it should when no value writes a double
quote (strings and numbers never do, see C05). -/
theorem C43_headers {P : Fns} (F : BuiltFns P) (c : Ctx) (he : c.frame.err = none) (dl : Nat → List Value)
    {ord : Nat → GoMap → GoMap} (ho : Visits ord) (maps : List GoMap) (h1 : maps ≠ []) (hm : ∀ m ∈ maps, IsMap m)
    (hv : ∀ m ∈ maps, ∀ e ∈ m, c%'"' ∉ argsBytes P c dl [e.2]) :
    ∃ n, Headers ord dl (maps.map (.strMap headersMapType true)) = .val n ∧
    ∃ w, c%'"' ∉ w ∧ RendersExactly P c n (b%" hx-headers=\"" ++ w ++ b%"\"") := by
  obtain ⟨n, hn, ks, -, hk, hr⟩ := C42_headers F c he dl ho maps h1 hm
  refine ⟨n, hn, _, C43_object _ _ ?_, hr⟩
  intro k hk'
  obtain ⟨m, hm1, hm2⟩ := (hk k).1 hk'
  have hs := (lastValue_isSome maps k).2 ⟨m, hm1, hm2⟩
  unfold headerBytes
  cases hl : lastValue maps k with
  | none => rw [hl] at hs; simp at hs
  | some v =>
    obtain ⟨m', hm', hv'⟩ := lastValue_mem hl
    exact hv m' hm' (k, v) hv'

example := C43_headers Sample.built Sample.ctx rfl (fun _ => []) visits_reverse someMaps (by decide) someMaps_maps (by decide)

/-- The same for `HeadersJS`. -/
theorem C43_headersJS {P : Fns} (F : BuiltFns P) (c : Ctx) (he : c.frame.err = none) (dl : Nat → List Value)
    {ord : Nat → GoMap → GoMap} (ho : Visits ord) (maps : List GoMap) (hm : ∀ m ∈ maps, IsMap m)
    (hv : ∀ m ∈ maps, ∀ e ∈ m, c%'"' ∉ argsBytes P c dl [e.2]) :
    ∃ w, c%'"' ∉ w ∧ RendersExactly P c (HeadersJS ord dl maps) (b%" hx-headers=\"js:" ++ w ++ b%"\"") := by
  obtain ⟨ks, -, hk, hr⟩ := C42_headersJS F c he dl ho maps hm
  refine ⟨_, C43_object _ _ ?_, hr⟩
  intro k hk'
  obtain ⟨m, hm1, hm2⟩ := (hk k).1 hk'
  have hs := (lastValue_isSome maps k).2 ⟨m, hm1, hm2⟩
  unfold headerBytes
  cases hl : lastValue maps k with
  | none => rw [hl] at hs; simp at hs
  | some v =>
    obtain ⟨m', hm', hv'⟩ := lastValue_mem hl
    exact hv m' hm' (k, v) hv'

example := C43_headersJS Sample.built Sample.ctx rfl (fun _ => []) visits_reverse someMaps someMaps_maps (by decide)

example : ∃ n, Headers (fun _ m => m) (fun _ => []) [.strMap headersMapType true [(b%"a\" onload=\"", .str b%"\"")]] = .val n ∧
    Writes Sample.env n Sample.st b%" hx-headers=\"{'a&quot; onload=&quot;': &quot;}\"" :=
  ⟨_, rfl, ⟨_, ⟨1, rfl⟩, rfl, rfl⟩⟩

/-! ### C54 — the browser sees the header keys (false in general) -/

/-- The text of `Headers` for one entry with key `k`. -/
def oneHeader (k : Bytes) (v : Bytes) : Bytes := objectText (fun _ => v) [k]

/-- The full claim: a browser that decodes the attribute value and reads a string after the opening brace, reads the
key. -/
def C54_claim : Prop := ∀ k v, ∃ rest, readString ((decode (oneHeader k v)).drop 1) = some (k, rest)

/-- A key with a single quote ends its string early. -/
theorem C54_quote_false : readString ((decode (oneHeader b%"a': 1, 'b" b%"2")).drop 1) =
    some (b%"a", b%": 1, 'b': 2}") := rfl

/-- A key that has a character reference is changed. -/
theorem C54_reference_false : readString ((decode (oneHeader b%"&lt;" b%"2")).drop 1) = some (b%"<", b%": 2}") := rfl

theorem C54_false : ¬ C54_claim := by
  intro h
  obtain ⟨rest, hr⟩ := h b%"&lt;" b%"2"
  rw [C54_reference_false] at hr
  simp at hr

/-- For keys without `&`, `'`, backslash and line ends the claim holds. -/
theorem C54_partial (k v : Bytes) (hk : ∀ c ∈ k, c ∉ b%"&'\\\n\r") :
    readString ((decode (oneHeader k v)).drop 1) = some (k, b%": " ++ decode (v ++ b%"}")) := by
  have h1 : ∀ (k w : Bytes), (∀ c ∈ k, c ∉ b%"&'\\\n\r") → decode (safeKey k ++ w) = k ++ decode w := by
    intro k w hk
    induction k with
    | nil => rfl
    | cons c k ih =>
      have hc : c ≠ c%'&' := by
        intro he; exact hk c (by simp) (by rw [he]; decide)
      have ih := ih fun c hc => hk c (by simp [hc])
      unfold safeKey at ih ⊢
      rw [List.flatMap_cons]
      by_cases hq : c = c%'"'
      · rw [if_pos hq, hq]
        exact congrArg (c%'"' :: ·) ih
      · rw [if_neg hq]
        exact (decode_plain c hc _).trans (congrArg (c :: ·) ih)
  have h2 : ∀ (k w : Bytes), (∀ c ∈ k, c ∉ b%"&'\\\n\r") → readToQuote (k ++ c%'\'' :: w) = some (k, w) := by
    intro k w hk
    induction k with
    | nil => rfl
    | cons c k ih =>
      have ih := ih fun c hc => hk c (by simp [hc])
      have hc := hk c (by simp)
      simp only [List.mem_cons, List.not_mem_nil, or_false, not_or] at hc
      rw [List.cons_append, readToQuote, if_neg hc.2.1, if_neg (by simp [hc.2.2]), ih]
      rfl
  have e : oneHeader k v = c%'{' :: c%'\'' :: (safeKey k ++ (c%'\'' :: c%':' :: c%' ' :: (v ++ b%"}"))) := by
    simp [oneHeader, objectText, List.intercalate]
  rw [e, decode_plain _ (by decide), decode_plain _ (by decide), h1 k _ hk, decode_plain _ (by decide),
    decode_plain _ (by decide), decode_plain _ (by decide)]
  exact h2 k _ hk

example : ∀ c ∈ b%"X-Requested \"With\"", c ∉ b%"&'\\\n\r" := by decide

end Aitch.Props

import Verif.Proofs.Leaf
import Verif.Proofs.Markup
import Verif.Spec.Sample
/-
C01, C02, C03, C38: escaping of strings.
-/
namespace Aitch.Props
open Spec

/-! ### C01 — string escaping is markup-safe -/

/-- Text of strings writes markup-safe bytes. -/
theorem C01_text {env : Env} (H : Healthy env) (dl : Nat → List Value) (strs : List Bytes) (s : St)
    (he : s.frame.err = none) : ∃ w, Writes env (Text dl (strs.map .str)) s w ∧ MarkupSafe w :=
  ⟨_, writes_Text H he dl (plain_strs strs), by rw [valuesBytes_strs]; exact markupSafe_strs strs⟩

example := C01_text Sample.healthy (fun _ => []) [b%"<a href='x'>&", [0, 65]] Sample.st rfl

/-- Between `<!--` and `-->`, a comment of strings is markup-safe. -/
theorem C01_comment {env : Env} (H : Healthy env) (dl : Nat → List Value) (strs : List Bytes) (s : St)
    (he : s.frame.err = none) :
    ∃ w, Writes env (Comment dl (strs.map .str)) s (b%"<!--" ++ w ++ b%"-->") ∧ MarkupSafe w :=
  ⟨_, writes_Comment H he dl (plain_strs strs), by rw [valuesBytes_strs]; exact markupSafe_strs strs⟩

example := C01_comment Sample.healthy (fun _ => []) [b%"-->"] Sample.st rfl

/-- After its name, a processing instruction of strings is markup-safe. -/
theorem C01_pi {env : Env} (H : Healthy env) (dl : Nat → List Value) (name : Bytes) (strs : List Bytes) (s : St)
    (he : s.frame.err = none) :
    ∃ w, Writes env (PI dl name (strs.map .str)) s (b%"<!" ++ name ++ b%" " ++ w ++ b%">\n") ∧ MarkupSafe w :=
  ⟨_, writes_PI H he dl name (plain_strs strs), by rw [valuesBytes_strs]; exact markupSafe_strs strs⟩

example := C01_pi Sample.healthy (fun _ => []) b%"DOCTYPE" [b%"html>"] Sample.st rfl

/-- Between its quotes, an attribute of strings is markup-safe. -/
theorem C01_attribute {env : Env} (H : Healthy env) (dl : Nat → List Value) (name : Bytes) (strs : List Bytes) (s : St)
    (he : s.frame.err = none) :
    ∃ w, Writes env (NewAttribute dl name (strs.map .str)) s (b%" " ++ name ++ b%"=\"" ++ w ++ b%"\"") ∧
      MarkupSafe w :=
  ⟨_, writes_NewAttribute H he dl name (plain_strs strs), by rw [valuesBytes_strs]; exact markupSafe_strs strs⟩

example := C01_attribute Sample.healthy (fun _ => []) b%"title" [b%"\" onload=\"x"] Sample.st rfl

/-- An imperative function that calls `WriteString` with the strings `ds` writes markup-safe bytes. -/
theorem C01_writeString {P : Fns} (F : BuiltFns P) (f : FnId) (c : Ctx) (he : c.frame.err = none) (ds : List Bytes)
    (hf : P.imp f c = ds.map .writeString) :
    ∃ w, RendersExactly P c (Imperative (some f)) w ∧ MarkupSafe w := by
  refine ⟨ds.flatMap escaped, rendersExactly_of_out (n := Imperative (some f)) F.wf trivial he (.imperative ?_) ?_, markupSafe_strs ds⟩
  · rw [hf, outOps_writeStrings]
  · intro w' h
    cases h with | imperative h => rwa [hf, outOps_writeStrings] at h

/-- The theorems apply: a concrete text, and what it writes. -/
example : Writes Sample.env (Text (fun _ => []) [.str b%"<a href='x'>&", .str [0, 65]]) Sample.st
    b%"&lt;a href=&apos;x&apos;&gt;&amp;A" := ⟨_, ⟨1, rfl⟩, rfl, rfl⟩

example : ∃ (P : Fns) (c : Ctx), BuiltFns P ∧ c.frame.err = none ∧ P.imp 5 c = [b%"<", b%"x"].map .writeString :=
  ⟨⟨fun _ _ => [], fun _ _ => false, fun _ _ => [], fun _ _ => [], fun _ _ => [],
    fun _ _ => [.writeString b%"<", .writeString b%"x"]⟩, Sample.ctx,
   ⟨by simp, by simp⟩, rfl, rfl⟩

/-- `MarkupSafe` is not satisfied by everything. -/
example : ¬ MarkupSafe b%"a & b" := by
  intro h
  obtain ⟨r, hr, hp⟩ := h.2 b%"a " b%" b" rfl
  revert hp
  simp only [refs, List.mem_cons, List.not_mem_nil, or_false] at hr
  rcases hr with rfl | rfl | rfl | rfl | rfl <;> decide

/-! ### C02 — escaping loses only NUL bytes -/

/-- Decoding what `Text` writes for a string gives back the string without its NUL bytes. -/
theorem C02_decode {env : Env} (H : Healthy env) (dl : Nat → List Value) (str : Bytes) (s : St)
    (he : s.frame.err = none) : ∃ w, Writes env (Text dl [.str str]) s w ∧ decode w = str.filter (· ≠ 0) :=
  ⟨_, writes_Text H he dl (plain_strs [str]), by
    rw [show [Any.str str] = [str].map .str from rfl, valuesBytes_strs]
    simp [← escaped_eq, decode_escape]⟩

example := C02_decode Sample.healthy (fun _ => []) b%"a<b\x00" Sample.st rfl

/-- The same between the quotes of an attribute. -/
theorem C02_decode_attribute {env : Env} (H : Healthy env) (dl : Nat → List Value) (name str : Bytes) (s : St)
    (he : s.frame.err = none) :
    ∃ w, Writes env (NewAttribute dl name [.str str]) s (b%" " ++ name ++ b%"=\"" ++ w ++ b%"\"") ∧
      decode w = str.filter (· ≠ 0) :=
  ⟨_, writes_NewAttribute H he dl name (plain_strs [str]), by
    rw [show [Any.str str] = [str].map .str from rfl, valuesBytes_strs]
    simp [← escaped_eq, decode_escape]⟩

example := C02_decode_attribute Sample.healthy (fun _ => []) b%"title" b%"a\"b\x00" Sample.st rfl

/-- Different NUL-free strings write different bytes. -/
theorem C02_injective {env : Env} (H : Healthy env) (dl : Nat → List Value) (s : St) (he : s.frame.err = none)
    {a b w : Bytes} (ha : 0 ∉ a) (hb : 0 ∉ b) (hwa : Writes env (Text dl [.str a]) s w)
    (hwb : Writes env (Text dl [.str b]) s w) : a = b := by
  obtain ⟨wa, h1, h2⟩ := C02_decode H dl a s he
  obtain ⟨wb, h3, h4⟩ := C02_decode H dl b s he
  rw [writes_unique h1 hwa] at h2
  rw [writes_unique h3 hwb] at h4
  have e1 : a.filter (· ≠ 0) = a := List.filter_eq_self.2 fun x hx => by
    simpa using fun h : x = 0 => ha (h ▸ hx)
  have e2 : b.filter (· ≠ 0) = b := List.filter_eq_self.2 fun x hx => by
    simpa using fun h : x = 0 => hb (h ▸ hx)
  rw [← e1, ← h2, h4, e2]

example (a : Bytes) (ha : 0 ∉ a) (hw : Writes Sample.env (Text (fun _ => []) [.str a]) Sample.st b%"a&lt;b") : a = b%"a<b" :=
  C02_injective Sample.healthy (fun _ => []) Sample.st rfl ha (by decide) hw ⟨_, ⟨1, rfl⟩, rfl, rfl⟩

example : decode b%"&lt;&amp;lt;&quot;" = b%"<&lt;\"" := by decide

/-! ### C03 — escaping is compositional -/

/-- `Pieces dl vs str`: the contents `vs` are the string `str` cut into pieces, some of them wrapped by
`NewConcatValue`, at any nesting. -/
inductive Pieces (dl : Nat → List Value) : List Any → Bytes → Prop
  | nil : Pieces dl [] []
  | str (a) {vs b} : Pieces dl vs b → Pieces dl (.str a :: vs) (a ++ b)
  | concat {us a vs b} : Pieces dl us a → Pieces dl vs b → Pieces dl (.value (NewConcatValue dl us) :: vs) (a ++ b)

theorem pieces_bytes {dl : Nat → List Value} {vs : List Any} {str : Bytes} (h : Pieces dl vs str) (P : Fns) (c : Ctx) :
    valuesBytes P c (newValues dl vs) = escaped str := by
  induction h with
  | nil => rfl
  | str a _ ih =>
    rw [newValues_cons, valuesBytes_append, ih, escaped_append]
    simp [newValue, valuesBytes, valueBytes, valueToBytes, escaped_eq]
  | concat _ _ ih1 ih2 =>
    rename_i us a vs b _ _
    rw [newValues_cons, valuesBytes_append, ih2, escaped_append, ← ih1]
    congr 1
    simp only [newValue, NewConcatValue, valuesBytes_one]
    cases newValues dl us <;> simp [valueBytes, valuesBytes]

theorem pieces_noCall {dl : Nat → List Value} {vs : List Any} {str : Bytes} (h : Pieces dl vs str)
    (q : Action → Prop) : ValuesUse q (newValues dl vs) := by
  induction h with
  | nil => trivial
  | str a _ ih => rw [newValues_cons, valuesUse_append']; exact ⟨⟨trivial, trivial⟩, ih⟩
  | concat _ _ ih1 ih2 =>
    rw [newValues_cons, valuesUse_append']
    exact ⟨⟨by simpa [NewConcatValue, ValueUses] using ih1, trivial⟩, ih2⟩

/-- Whatever way a string is cut into pieces, the text writes the same bytes, those of the string in one piece. -/
theorem C03_pieces {env : Env} (H : Healthy env) {dl : Nat → List Value} {vs : List Any} {str : Bytes}
    (hp : Pieces dl vs str) (s : St) (he : s.frame.err = none) (w : Bytes) :
    Writes env (Text dl vs) s w ↔ Writes env (Text dl [.str str]) s w := by
  have h1 : Writes env (Text dl vs) s (escaped str) :=
    writes_of_out H (n := Text dl vs) trivial (pieces_noCall hp _) he fun _ h => by cases h; exact pieces_bytes hp _ _
  have h2 : Writes env (Text dl [.str str]) s (escaped str) := by
    have := writes_Text H he dl (plain_strs [str])
    rw [valuesBytes_strs] at this
    simpa using this
  constructor <;> intro h
  · rw [writes_unique h h1]; exact h2
  · rw [writes_unique h h2]; exact h1

example (w : Bytes) := C03_pieces Sample.healthy (dl := fun _ => [])
  (.str b%"a<" (.concat (.str b%"b" (.str b%">" .nil)) .nil)) Sample.st rfl w

/-- In particular `Text(a+b)` and `Text(a, b)` write the same. -/
theorem C03_split {env : Env} (H : Healthy env) (dl : Nat → List Value) (a b : Bytes) (s : St)
    (he : s.frame.err = none) (w : Bytes) :
    Writes env (Text dl [.str (a ++ b)]) s w ↔ Writes env (Text dl [.str a, .str b]) s w := by
  have hp : Pieces dl [.str a, .str b] (a ++ b) := by
    have := Pieces.str (dl := dl) a (.str b .nil)
    simpa using this
  exact (C03_pieces H hp s he w).symm

example (w : Bytes) := C03_split Sample.healthy (fun _ => []) b%"&" b%"lt;" Sample.st rfl w

/-- The fast path (no special characters: return the string itself) gives what the slow path would. -/
theorem C03_fast_path (str : Bytes) : htmlEscapeString str = escLoop str str 0 0 [] := by
  rw [htmlEscapeString_eq, escLoop_flatMap]

example : Pieces (fun _ => []) [.str b%"a<", .value (NewConcatValue (fun _ => []) [.str b%"b", .str b%">"])]
    b%"a<b>" := .str b%"a<" (.concat (.str b%"b" (.str b%">" .nil)) .nil)

/-! ### C38 — string content cannot close a comment early -/

/-- A comment of strings writes `<!--`, bytes without `>`, and `-->`. -/
theorem C38_comment {env : Env} (H : Healthy env) (dl : Nat → List Value) (strs : List Bytes) (s : St)
    (he : s.frame.err = none) :
    ∃ w, Writes env (Comment dl (strs.map .str)) s (b%"<!--" ++ w ++ b%"-->") ∧ c%'>' ∉ w := by
  obtain ⟨w, h1, h2⟩ := C01_comment H dl strs s he
  exact ⟨w, h1, fun h => (h2.1 _ h).2.1 rfl⟩

/-- Wherever a page stands outside of tags and of elements like `script`: an HTML reader takes what a comment of strings
writes as one comment, which ends where the written bytes end, and the text of this comment is the strings, escaped. -/
theorem C38_reads (R : Markup.CharRefs) {env : Env} (H : Healthy env) (dl : Nat → List Value) (strs : List Bytes) (s : St)
    (he : s.frame.err = none) :
    ∃ w text, Writes env (Comment dl (strs.map .str)) s w ∧ decode text = strs.flatten.filter (· ≠ 0) ∧
      ∀ rest, Markup.readHtml R (w ++ rest) = .comment text :: Markup.readHtml R rest := by
  refine ⟨_, escaped strs.flatten, writes_Comment H he dl (plain_strs strs), by rw [← escaped_eq, decode_escape], fun rest => ?_⟩
  have hs : strs.flatMap escaped = escaped strs.flatten := by
    induction strs with
    | nil => rfl
    | cons a as ih => rw [List.flatMap_cons, List.flatten_cons, escaped_append, ih]
  have hm := markupSafe_strs strs
  rw [hs] at hm
  rw [valuesBytes_strs, hs]
  unfold Markup.readHtml
  simp only [List.append_assoc]
  rw [Markup.run_comment R _ _ fun c hc => ⟨(hm.1 c hc).1, (hm.1 c hc).2.1, (hm.1 c hc).2.2.2.2⟩]
  rfl

example : Writes Sample.env (Comment (fun _ => []) [.str b%"a-->b"]) Sample.st b%"<!--a--&gt;b-->" :=
  ⟨_, ⟨1, rfl⟩, rfl, rfl⟩

end Aitch.Props

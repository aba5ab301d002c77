import Verif.Proofs.Leaf
import Verif.Model.Base
import Verif.Spec.Sample
/-
C04, C05, C33, C36: formatting of values, dynamic keys, concatenation of contents.
-/
namespace Aitch.Props
open Spec

/-! ### C04 — values are formatted according to their type -/

/-- Values that are formatted when given as content: everything but `Value`s, nodes, functions of the context and
keys (for these see C36). -/
def Formatted : Any → Prop
  | .value _ | .dynFunc _ _ | .dynKey _ | .node _ => False
  | _ => True

/-- A value given as text writes its text form. -/
theorem C04_text {env : Env} (H : Healthy env) (dl : Nat → List Value) (v : Any) (hv : Formatted v) (s : St)
    (he : s.frame.err = none) : ∃ w, FormatsAs v w ∧ Writes env (Text dl [v]) s w := by
  have hp : ∀ x ∈ [v], Plain x := by
    intro x hx
    simp at hx; subst hx
    cases x <;> first | exact hv.elim | trivial
  refine ⟨_, ?_, writes_Text H he dl hp⟩
  have h := contents_newValues noFns s.toCtx dl [v]
  generalize valuesBytes noFns s.toCtx (newValues dl [v]) = u at h
  cases h with
  | cons h hs =>
    cases hs
    rw [List.append_nil]
    cases h with
    | data _ h => exact h
    | nil => exact .textless trivial
    | _ => exact hv.elim

/-- The same between the quotes of an attribute. -/
theorem C04_attribute {env : Env} (H : Healthy env) (dl : Nat → List Value) (name : Bytes) (v : Any)
    (hv : Formatted v) (s : St) (he : s.frame.err = none) :
    ∃ w, FormatsAs v w ∧ Writes env (NewAttribute dl name [v]) s (b%" " ++ name ++ b%"=\"" ++ w ++ b%"\"") := by
  have hp : ∀ x ∈ [v], Plain x := by
    intro x hx
    simp at hx; subst hx
    cases x <;> first | exact hv.elim | trivial
  obtain ⟨w, h1, h2⟩ := C04_text H dl v hv s he
  refine ⟨w, h1, ?_⟩
  have := writes_NewAttribute H he dl name hp
  rwa [writes_unique (writes_Text H he dl hp) h2] at this

/-- A value has exactly one text form; in particular an integer has exactly one canonical numeral. -/
theorem C04_unique {v : Any} {w w' : Bytes} (h : FormatsAs v w) (h' : FormatsAs v w') : w = w' := formatsAs_unique h h'

/-- Different integers have different texts, whatever their types. -/
theorem C04_int_injective {t t' : IntTy} {i i' : Int} {w : Bytes} (h : FormatsAs (.int t i) w)
    (h' : FormatsAs (.int t' i') w) : i = i' := by
  have dash : ¬ IsDigit c%'-' := by rintro ⟨h, -⟩; revert h; decide
  cases h with
  | textless h => exact h.elim
  | int h =>
    cases h' with
    | textless ht => exact ht.elim
    | int h' =>
      rcases h with ⟨n, rfl, hc⟩ | ⟨n, -, rfl, u, rfl, hc⟩ <;>
        rcases h' with ⟨n', rfl, hc'⟩ | ⟨n', -, rfl, u', hu, hc'⟩
      · rw [← hc.2.2.2, ← hc'.2.2.2]
      · subst hu; exact absurd (hc.2.1 _ (by simp)) dash
      · exact absurd (hc'.2.1 _ (by simp)) dash
      · simp at hu; subst hu
        rw [← hc.2.2.2, ← hc'.2.2.2]

example : FormatsAs (.thunk (.thunk (.int .int16 (-120)))) b%"-120" := by
  refine .thunk (.thunk (.int (Or.inr ⟨120, by decide, rfl, b%"120", rfl, ?_⟩)))
  refine ⟨by decide, ?_, by decide, rfl⟩
  intro c hc
  simp at hc
  rcases hc with rfl | rfl | rfl <;> exact ⟨by decide, by decide⟩

example : Writes Sample.env (Text (fun _ => []) [.bool false, .bytes b%"<b>", .str b%"<", .other 3]) Sample.st
    b%"false<b>&lt;" := ⟨_, ⟨1, rfl⟩, rfl, rfl⟩

/-! ### C05 — data values cannot inject markup (false for fmt.Stringer) -/

/-- Values that are data: not `[]byte`, not a function of the context, not a `Value`, node or key; the result of a
`func() any` likewise. -/
def IsData : Any → Prop
  | .bytes _ | .value _ | .dynFunc _ _ | .dynKey _ | .node _ => False
  | .thunk r => IsData r
  | _ => True

/-- No byte of `w` is one of `<`, `>`, `"`, `'`. -/
def NoMarkup (w : Bytes) : Prop := ∀ c ∈ w, c ≠ c%'<' ∧ c ≠ c%'>' ∧ c ≠ c%'"' ∧ c ≠ c%'\''

/-- The claim for static content. -/
def C05_claim : Prop := ∀ (env : Env) (dl : Nat → List Value) (v : Any) (s : St), Healthy env → s.frame.err = none →
  IsData v → ∃ w, Writes env (Text dl [v]) s w ∧ NoMarkup w

/-- The claim is false: a `fmt.Stringer` is written unescaped. -/
theorem C05_false : ¬ C05_claim := by
  intro h
  obtain ⟨w, h1, h2⟩ := h Sample.env (fun _ => []) (.stringer 0 b%"<script>" (.other 0)) Sample.st Sample.healthy rfl trivial
  have h3 : Writes Sample.env (Text (fun _ => []) [.stringer 0 b%"<script>" (.other 0)]) Sample.st b%"<script>" :=
    ⟨_, ⟨1, rfl⟩, rfl, rfl⟩
  rw [writes_unique h1 h3] at h2
  exact (h2 c%'<' (by decide)).1 rfl

/-- What `strconv.FormatFloat` can return: digits and the characters of `-1.5e+06`, `NaN`, `+Inf`. -/
def FloatText (txt : Bytes) : Prop := ∀ c ∈ txt, IsDigit c ∨ c ∈ b%"+-.eENaInfx_p"

/-- No `fmt.Stringer` (nor a `func() any` returning one), and floats have float text. -/
def NoStringer : Any → Prop
  | .stringer _ _ _ => False
  | .float _ txt => FloatText txt
  | .thunk r => NoStringer r
  | _ => True

theorem digit_noMarkup {c : UInt8} (h : IsDigit c) : c ≠ c%'<' ∧ c ≠ c%'>' ∧ c ≠ c%'"' ∧ c ≠ c%'\'' := by
  obtain ⟨h1, h2⟩ := h
  refine ⟨?_, ?_, ?_, ?_⟩ <;> rintro rfl <;> revert h1 h2 <;> decide

theorem formatsAs_noMarkup {v : Any} {w : Bytes} (hd : IsData v) (hn : NoStringer v) (h : FormatsAs v w) :
    NoMarkup w := by
  induction h with
  | true => intro c hc; simp at hc; rcases hc with rfl | rfl | rfl | rfl <;> decide
  | false => intro c hc; simp at hc; rcases hc with rfl | rfl | rfl | rfl | rfl <;> decide
  | bytes => exact hd.elim
  | str s =>
    intro c hc
    rw [← escaped_eq] at hc
    obtain ⟨h1, h2, h3, h4, -⟩ := (markupSafe_escape s).1 c hc
    exact ⟨h1, h2, h3, h4⟩
  | int hc =>
    rcases hc with ⟨n, -, -, hd, -⟩ | ⟨n, -, -, w', rfl, -, hd, -⟩
    · exact fun c hc => digit_noMarkup (hd c hc)
    · intro c hc
      simp at hc
      rcases hc with rfl | hc
      · decide
      · exact digit_noMarkup (hd c hc)
  | float is32 txt =>
    intro c hc
    rcases hn c hc with h | h
    · exact digit_noMarkup h
    · simp at h
      rcases h with rfl | rfl | rfl | rfl | rfl | rfl | rfl | rfl | rfl | rfl | rfl | rfl | rfl <;> decide
  | stringer => exact hn.elim
  | thunk _ ih => exact ih hd hn
  | textless => intro c hc; simp at hc

/-- What holds, static content: data that is no `fmt.Stringer` (and whose floats have the text of a float) writes no
markup.  Missing: `fmt.Stringer`, for which the claim is false. -/
theorem C05_static_partial {env : Env} (H : Healthy env) (dl : Nat → List Value) (v : Any) (s : St)
    (he : s.frame.err = none) (hd : IsData v) (hn : NoStringer v) :
    ∃ w, Writes env (Text dl [v]) s w ∧ NoMarkup w := by
  have hv : Formatted v := by cases v <;> first | exact hd.elim | trivial
  obtain ⟨w, h1, h2⟩ := C04_text H dl v hv s he
  exact ⟨w, h2, formatsAs_noMarkup hd hn h1⟩

/-! ### C33 — DynamicValueKey reads the current context -/

/-- The entry of key `k` in the data of the current context. -/
def dataAt (c : Ctx) (k : Bytes) : Option Any := c.frame.data.bind fun m => (c.maps m).lookup k

/-- What `DynamicValueKey(k)` should write in context `c`. -/
def KeyText (c : Ctx) (k w : Bytes) : Prop :=
  if k = b%"." then FormatsAs c.frame.cargo w
  else match dataAt c k with
    | some v => FormatsAs v w
    | none => w = []

theorem keyText_iff {P : Fns} {c : Ctx} {dl : Nat → List Value} {k w : Bytes} :
    KeyText c k w ↔ w = valuesBytes P c (newValues dl [.dynKey k]) := by
  have hl : dataAt c k = c.lookup k := by unfold dataAt Ctx.lookup; cases c.frame.data <;> rfl
  unfold KeyText
  by_cases hk : k = b%"."
  · simp [hk, newValues, newValue, valuesBytes, valueBytes, dynBytes, formatsAs_iff]
  · simp only [hk, if_false, hl, newValues, newValue, List.append_nil, valuesBytes_one, valueBytes, dynBytes]
    cases c.lookup k with
    | none => rfl
    | some v => exact formatsAs_iff

/-- In a text. -/
theorem C33_text {env : Env} (H : Healthy env) (dl : Nat → List Value) (k : Bytes) (s : St)
    (he : s.frame.err = none) : ∃ w, KeyText s.toCtx k w ∧ Writes env (Text dl [.dynKey k]) s w :=
  ⟨_, keyText_iff.2 rfl, writes_Text H he dl (by simp [Plain])⟩

/-- In a plain attribute. -/
theorem C33_attribute {env : Env} (H : Healthy env) (dl : Nat → List Value) (name k : Bytes) (s : St)
    (he : s.frame.err = none) :
    ∃ w, KeyText s.toCtx k w ∧
      Writes env (NewAttribute dl name [.dynKey k]) s (b%" " ++ name ++ b%"=\"" ++ w ++ b%"\"") :=
  ⟨_, keyText_iff.2 rfl, writes_NewAttribute H he dl name (by simp [Plain])⟩

/-- In a delimited attribute, whose values are in memory when it is rendered. -/
theorem C33_delimited {env : Env} (H : Healthy env) (name delim k : Bytes) (h : Heap) (s : St)
    (he : s.frame.err = none) (hs : s.dl h.next = (NewDelimitedAttribute name delim [.dynKey k] h).2.dl h.next) :
    ∃ w, KeyText s.toCtx k w ∧
      Writes env (NewDelimitedAttribute name delim [.dynKey k] h).1 s (b%" " ++ name ++ b%"=\"" ++ w ++ b%"\"") := by
  refine ⟨valuesBytes noFns s.toCtx (newValues h.dl [.dynKey k]), keyText_iff.2 rfl, ?_⟩
  have hd : s.dl h.next = newValues h.dl [.dynKey k] := by rw [hs]; simp [NewDelimitedAttribute, upd]
  refine writes_of_out H (n := (NewDelimitedAttribute name delim [.dynKey k] h).1) trivial ?_ he ?_
  · change ValuesUse _ (s.dl h.next)
    rw [hd]; exact valuesUse_plain (by simp [Plain])
  · intro w' h'
    cases h' with
    | attr =>
      simp only [shown, hd, Shown.bytes]
      congr 3
      simp only [newValues, newValue, List.append_nil]
      split <;> simp [delimJoin, valuesBytes]

example : Writes Sample.env (Text (fun _ => []) [.dynKey b%"name", .dynKey b%"none", .dynKey b%"."]) Sample.st
    b%"&lt;Bob&gt;car&amp;go" := ⟨_, ⟨1, rfl⟩, rfl, rfl⟩

/-- What holds of C05, content looked up at render time.  Missing as before: `fmt.Stringer`. -/
theorem C05_key_partial {env : Env} (H : Healthy env) (dl : Nat → List Value) (k : Bytes) (s : St)
    (he : s.frame.err = none)
    (hd : ∀ v, dataAt s.toCtx k = some v → IsData v ∧ NoStringer v)
    (hc : IsData s.frame.cargo ∧ NoStringer s.frame.cargo) :
    ∃ w, Writes env (Text dl [.dynKey k]) s w ∧ NoMarkup w := by
  obtain ⟨w, h1, h2⟩ := C33_text H dl k s he
  refine ⟨w, h2, ?_⟩
  unfold KeyText at h1
  split at h1
  · exact formatsAs_noMarkup hc.1 hc.2 h1
  · cases hl : dataAt s.toCtx k with
    | none => rw [hl] at h1; simp only at h1; subst h1; intro c hc; simp at hc
    | some v =>
      rw [hl] at h1
      exact formatsAs_noMarkup (hd v hl).1 (hd v hl).2 h1

example : IsData (.thunk (.str b%"<i>")) ∧ NoStringer (.thunk (.str b%"<i>")) := ⟨trivial, trivial⟩

/-! ### C36 — content values are concatenated in order -/

section
variable {P : Fns} (F : BuiltFns P) (c : Ctx) (he : c.frame.err = none) (dl : Nat → List Value) (vs : List Any)
include F he

theorem C36_text : ∃ w, Contents P c dl vs w ∧ RendersExactly P c (Text dl vs) w :=
  ⟨_, contents_newValues P c dl vs,
    rendersExactly_of_out (n := Text dl vs) F.wf trivial he .text fun _ h => by cases h; rfl⟩

theorem C36_fragment : ∃ w, Contents P c dl vs w ∧ RendersExactly P c (Fragment dl vs) w :=
  ⟨_, contents_newValues P c dl vs,
    rendersExactly_of_out (n := Fragment dl vs) F.wf trivial he .fragment fun _ h => by cases h; rfl⟩

theorem C36_comment :
    ∃ w, Contents P c dl vs w ∧ RendersExactly P c (Comment dl vs) (b%"<!--" ++ w ++ b%"-->") :=
  ⟨_, contents_newValues P c dl vs,
    rendersExactly_of_out (n := Comment dl vs) F.wf trivial he .comment fun _ h => by cases h; rfl⟩

theorem C36_pi (name : Bytes) :
    ∃ w, Contents P c dl vs w ∧ RendersExactly P c (PI dl name vs) (b%"<!" ++ name ++ b%" " ++ w ++ b%">\n") :=
  ⟨_, contents_newValues P c dl vs,
    rendersExactly_of_out (n := PI dl name vs) F.wf trivial he .pi fun _ h => by cases h; rfl⟩

/-- The functions of packages html and svg do the same. -/
theorem C36_packages (name : Bytes) :
    ∃ w, Contents P c dl vs w ∧ RendersExactly P c (htmlText dl vs) w ∧ RendersExactly P c (svgText dl vs) w ∧
      RendersExactly P c (htmlComment dl vs) (b%"<!--" ++ w ++ b%"-->") ∧
      RendersExactly P c (svgComment dl vs) (b%"<!--" ++ w ++ b%"-->") ∧
      RendersExactly P c (htmlPI dl name vs) (b%"<!" ++ name ++ b%" " ++ w ++ b%">\n") :=
  have ht := rendersExactly_of_out (n := Text dl vs) F.wf trivial he .text fun _ h => by cases h; rfl
  have hc := rendersExactly_of_out (n := Comment dl vs) F.wf trivial he .comment fun _ h => by cases h; rfl
  have hp := rendersExactly_of_out (n := PI dl name vs) F.wf trivial he .pi fun _ h => by cases h; rfl
  ⟨_, contents_newValues P c dl vs, ht, ht, hc, hc, hp⟩

theorem C36_attribute (name : Bytes) :
    ∃ w, Contents P c dl vs w ∧
      RendersExactly P c (NewAttribute dl name vs) (b%" " ++ name ++ b%"=\"" ++ w ++ b%"\"") :=
  ⟨_, contents_newValues P c dl vs,
    rendersExactly_of_out (n := NewAttribute dl name vs) F.wf trivial he .attr fun _ h => by cases h; rfl⟩

end

/-- `NewConcatValue(vs...)` stands for what its arguments stand for. -/
theorem C36_newConcatValue {P : Fns} {c : Ctx} {dl : Nat → List Value} {vs : List Any} {w : Bytes}
    (h : Contents P c dl vs w) (dl' : Nat → List Value) : Content P c dl' (.value (NewConcatValue dl vs)) w := by
  rw [contents_iff] at h
  have : valueBytes P c (NewConcatValue dl vs) = w := by
    rw [h, NewConcatValue]
    cases newValues dl vs <;> simp [valueBytes, valuesBytes]
  rw [← this]; exact .value _

/-- `NewValue(v)` stands for what its argument stands for. -/
theorem C36_newValue {P : Fns} {c : Ctx} {dl : Nat → List Value} {v : Any} {w : Bytes}
    (h : Content P c dl v w) (dl' : Nat → List Value) : Content P c dl' (.value (NewValue dl v)) w := by
  have e : w = valuesBytes P c (newValue dl v) := content_unique P c dl h (content_newValue P c dl v)
  have : valueBytes P c (NewValue dl v) = w := by
    rw [e]
    unfold NewValue
    split
    · rename_i x hx; rw [hx, valuesBytes_one]
    · rename_i values _; cases newValue dl v <;> simp [valueBytes, valuesBytes]
  rw [← this]; exact .value _

/-- What contents stand for is determined. -/
theorem C36_unique {P : Fns} {c : Ctx} {dl : Nat → List Value} {vs : List Any} {w w' : Bytes}
    (h : Contents P c dl vs w) (h' : Contents P c dl vs w') : w = w' := contents_unique P c dl h h'

/-- Contents of many kinds, nested: a collection of texts and a comment, a function, nil. -/
example : Contents Sample.fns Sample.ctx (fun _ => [])
    [.node (.collection [.text [.mk b%"a" none []], .collection [.comment [.mk b%"b" none []]]]), .nil,
     .dynFunc true (some 0), .str b%"<"] b%"abdyn&lt;" :=
  .cons (w := b%"ab") (.node _) (.cons .nil (.cons (.dynFunc _ _) (.cons (.data trivial (.str b%"<")) .nil)))

end Aitch.Props

import Verif.Proofs.GenTokens
import Verif.Props.Generator
/-
C46, C56 for inputs that need not be well nested: when exactly GenerateCode writes balanced parentheses and valid Go.
-/
namespace Aitch.Props

open Spec

/-- GenerateCode writes something for all tokens, also if they are not well nested. -/
theorem C46_generates (p : GenPkg) (ts : List Token) : ∃ src, Generates p ts src := ⟨_, generates_tokens p ts⟩

/-- When the parentheses are balanced, for any tokens: if there are as many end tags as start tags, and never more than
one too many (one: the call of `aitch.Collection` around everything is closed early). -/
theorem C46_exact_partial {p : GenPkg} (hp : IsPkg p) {ts : List Token} (hq : ∀ t ∈ ts, t.QuotableNames) {src : Bytes}
    (h : Generates p ts src) : Balanced src ↔ Levels 1 ts := by
  rw [generates_unique h (generates_tokens p ts), levels_depth]
  exact balanced_tokens (good_pkg hp) ts hq

/-- In particular, for a document, they are balanced exactly if every start tag has its end tag. -/
theorem C46_document {p : GenPkg} (hp : IsPkg p) {ds : List Doc} (hq : QuotableNamesAll ds) {src : Bytes}
    (h : Generates p (tokensAll ds) src) : Balanced src ↔ ClosedAll ds := by
  refine ⟨fun hb => ?_, fun hc => C46_balanced_partial hp hc hq h⟩
  have h1 := ((C46_exact_partial hp ((quotable_tokensAll ds).1 hq) h).1 hb).1
  by_cases hc : ClosedAll ds
  · exact hc
  · have := (starts_docs ds []).2 hc
    simp only [List.append_nil, starts, ends] at this
    omega

/-- The names of end tags do not matter. -/
theorem C46_end_names {p : GenPkg} {ts us : List Token} (h : ts.map Token.unnamed = us.map Token.unnamed) {src : Bytes} :
    Generates p ts src ↔ Generates p us src := ⟨generates_unnamed h, generates_unnamed h.symm⟩

/-- When the source text is valid Go, for any tokens: if there are as many end tags as start tags and never one too
many. -/
theorem C56_exact_partial {p : GenPkg} (hp : IsPkg p) {ts : List Token} (hq : ∀ t ∈ ts, t.QuotableNames) {src : Bytes}
    (h : Generates p ts src) : (∃ e, Declares src e) ↔ Levels 0 ts := by
  rw [levels_depth]
  constructor
  · intro he
    rw [generates_unique h (generates_tokens p ts)] at he
    exact declares_tokens (good_pkg hp) ts hq he
  · intro hd
    obtain ⟨ds, rest, hc, hm, ⟨_, _, he⟩ | ⟨j, _, hj, _⟩⟩ := depth_docs _ ts (Nat.le_refl _) 0 hd
    · refine ⟨_, C56_declares_partial hp hc ((quotable_tokensAll ds).2 fun t ht => ?_) (generates_unnamed he h)⟩
      rcases hm t ht with ht | ⟨n, rfl⟩
      · exact hq t ht
      · trivial
    · omega

/-- What it then declares: the code of the well nested document of which these are the tokens, if the names of end tags
are made to match. -/
theorem C56_nested_partial {p : GenPkg} (hp : IsPkg p) {ts : List Token} (hq : ∀ t ∈ ts, t.QuotableNames) {src : Bytes}
    (h : Generates p ts src) {e : Expr} (he : Declares src e) :
    ∃ ds, ClosedAll ds ∧ (tokensAll ds).map Token.unnamed = ts.map Token.unnamed ∧ e = collectionOf p ds := by
  have hd := (C56_exact_partial hp hq h).1 ⟨e, he⟩
  rw [levels_depth] at hd
  obtain ⟨ds, rest, hc, hm, ⟨_, _, hu⟩ | ⟨j, _, hj, _⟩⟩ := depth_docs _ ts (Nat.le_refl _) 0 hd
  · refine ⟨ds, hc, hu.symm, declares_unique he (C56_declares_partial hp hc ((quotable_tokensAll ds).2 fun t ht => ?_)
      (generates_unnamed hu h))⟩
    rcases hm t ht with ht | ⟨n, rfl⟩
    · exact hq t ht
    · trivial
  · omega

/-- `</p><p>`: balanced parentheses, but no valid Go. -/
def crossed : List Token := [.endTag b%"p", .startTag b%"p" []]

theorem crossed_quotable : ∀ t ∈ crossed, t.QuotableNames := by
  intro t ht
  simp only [crossed, List.mem_cons, List.not_mem_nil, or_false] at ht
  rcases ht with rfl | rfl
  · trivial
  · exact ⟨by decide, by simp⟩

theorem crossed_split {b a : List Token} (h : crossed = b ++ a) : b = [] ∨ b = [.endTag b%"p"] ∨ b = crossed := by
  unfold crossed at *
  rcases b with _ | ⟨x, _ | ⟨y, _ | ⟨z, b⟩⟩⟩ <;> simp_all

example : ∃ src, Generates htmlPkg crossed src ∧ Balanced src ∧ ¬ ∃ e, Declares src e := by
  obtain ⟨src, h⟩ := C46_generates htmlPkg crossed
  refine ⟨src, h, (C46_exact_partial (.inl rfl) crossed_quotable h).2 ⟨rfl, fun b a e => ?_⟩, fun he => ?_⟩
  · rcases crossed_split e with rfl | rfl | rfl <;> decide
  · have := ((C56_exact_partial (.inl rfl) crossed_quotable h).1 he).2 [.endTag b%"p"] _ rfl
    simp [starts, ends] at this

/-- `<b><i>x</b></i>`: end tags that do not match are taken for those that do. -/
def mismatched : List Token :=
  [.startTag b%"b" [], .startTag b%"i" [], .text b%"x", .endTag b%"b", .endTag b%"i"]

example : ∃ src, Generates htmlPkg mismatched src ∧
    Declares src (collectionOf htmlPkg [.elem b%"b" [] [.elem b%"i" [] [.text b%"x"]]]) := by
  obtain ⟨src, h⟩ := C46_generates htmlPkg mismatched
  have h1 : Generates htmlPkg (tokensAll [.elem b%"b" [] [.elem b%"i" [] [.text b%"x"]]]) src :=
    (C46_end_names (ts := mismatched) (us := tokensAll [.elem b%"b" [] [.elem b%"i" [] [.text b%"x"]]]) rfl).1 h
  exact ⟨src, h, C56_declares_partial (.inl rfl) (ds := [.elem b%"b" [] [.elem b%"i" [] [.text b%"x"]]])
    ⟨⟨⟨trivial, trivial⟩, trivial⟩, trivial⟩
    ⟨⟨by decide, by simp, ⟨by decide, by simp, trivial, trivial⟩, trivial⟩, trivial⟩ h1⟩

example : ∃ src, Generates htmlPkg (tokensAll lineBreak) src ∧ ¬ Balanced src :=
  ⟨_, lineBreak_generates, fun hb =>
    ((C46_document (.inl rfl) (ds := lineBreak) ⟨⟨by decide, by simp⟩, trivial⟩ lineBreak_generates).1 hb).1⟩

end Aitch.Props
